import Verif.Spec.AbiWire
/-! # Which types a decoder of an ABI type can get to without consuming input

Of the model only the data types are used. -/
namespace Verif
variable (a : Abi)

/-- No value of the type with name n has an empty encoding. (Extensions may be absent at the end of the input.) -/
inductive Solid : Bytes → Prop
  | optional {n b : Bytes} {arr ext : Bool} : Spelled n b arr ext true → Solid n
  | array {n b : Bytes} : Spelled n b true false false → Solid n
  | variant {n b : Bytes} {v : AbiVariant} : Spelled n b false false false → IsVariant a b v → Solid n
  | builtin {n b : Bytes} : Spelled n b false false false → NotDefined a b → Solid n
  | hollow {n b : Bytes} {s : AbiStruct} : Spelled n b false false false → IsStruct a b s → (∀ fs, FieldsOf a b fs → fs = []) → Solid n
  | alias {n b : Bytes} {t : AbiType} : Spelled n b false false false → IsAlias a b t → Solid t.type → Solid n
  | struct {n b : Bytes} {fs : List AbiField} {f : AbiField} : Spelled n b false false false → FieldsOf a b fs → f ∈ fs → Solid f.type → Solid n

/-- Decoding a type with base name b can get to the type called m with the whole input still ahead. -/
inductive Ahead : (b m : Bytes) → Prop
  | alias {b : Bytes} {t : AbiType} : IsAlias a b t → Ahead b t.type
  | field {b : Bytes} {pre post : List AbiField} {f : AbiField} : FieldsOf a b (pre ++ f :: post) → (∀ g ∈ pre, ¬ Solid a g.type) → Ahead b f.type

/-- The same for a type with name n. For arrays and optional types, a length or a presence byte comes first. -/
def Unguarded (n m : Bytes) : Prop := ∃ b ext, Spelled n b false ext false ∧ Ahead a b m

/-- From n there is no endless sequence of types in which each is unguarded in the one before. -/
def Grounded (n : Bytes) : Prop := Acc (fun m k => Unguarded a k m) n

/-- A name of a builtin type -/
def IsBuiltin (b : Bytes) : Prop := (∃ ty, (b, ty) ∈ abiBasics) ∨ (∃ c, (b, c) ∈ abiChains) ∨ b = asc "bytes"

/-- Every type that the definition of n mentions, directly or indirectly, is defined (and, if it is a struct, has fields) or builtin. -/
def Abi.Closed (n : Bytes) : Prop := ∀ m b arr ext opt, Reach a n m → Spelled m b arr ext opt →
  (∃ v, IsVariant a b v) ∨ (∃ t, IsAlias a b t) ∨ (∃ f fs, FieldsOf a b (f :: fs)) ∨ IsBuiltin b

/-- No type name in the definition of n has a '$'. -/
def Abi.NoExt (n : Bytes) : Prop := ∀ m b arr ext opt, Reach a n m → Spelled m b arr ext opt → ext = false
/-- No type name in the definition of n has a '?'. -/
def Abi.NoOpt (n : Bytes) : Prop := ∀ m b arr ext opt, Reach a n m → Spelled m b arr ext opt → opt = false

end Verif
