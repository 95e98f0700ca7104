import Verif.Spec.Reflect
import Verif.Model.Abi
/-! # ABI type names and what they refer to

Of the model only the data types are used. -/
namespace Verif

/-- x is the first entry of the list with property p. -/
def First {α : Type} (l : List α) (p : α → Prop) (x : α) : Prop := p x ∧ ∃ pre post, l = pre ++ x :: post ∧ ∀ y ∈ pre, ¬ p y

/-- The byte '?' if b -/
def questionMark (b : Bool) : Bytes := if b then asc "?" else []
def dollar (b : Bool) : Bytes := if b then asc "$" else []
def brackets (b : Bool) : Bytes := if b then asc "[]" else []

/-- n is s followed by an optional '$' and an optional '?'. -/
def Stem (n s : Bytes) (ext opt : Bool) : Prop :=
  n = s ++ dollar ext ++ questionMark opt ∧ (opt = false → ¬ asc "?" <:+ n) ∧ (ext = false → ¬ asc "$" <:+ s)

/-- A name of less than two bytes before '$' and '?'. -/
def ShortName (n : Bytes) : Prop := ∃ s ext opt, Stem n s ext opt ∧ s.length < 2

/-- n is b followed by an optional "[]", an optional '$' and an optional '?'. -/
def Spelled (n b : Bytes) (arr ext opt : Bool) : Prop :=
  ∃ s, Stem n s ext opt ∧ 2 ≤ s.length ∧ s = b ++ brackets arr ∧ (arr = false → ¬ asc "[]" <:+ b)

def IsStruct (a : Abi) (b : Bytes) (s : AbiStruct) : Prop := First a.structs (fun s => s.name = b) s
def NoStruct (a : Abi) (b : Bytes) : Prop := ∀ s ∈ a.structs, s.name ≠ b
/-- Structs take precedence over variants, variants over aliases. -/
def IsVariant (a : Abi) (b : Bytes) (v : AbiVariant) : Prop := NoStruct a b ∧ First a.variants (fun v => v.name = b) v
def NoVariant (a : Abi) (b : Bytes) : Prop := NoStruct a b ∧ ∀ v ∈ a.variants, v.name ≠ b
def IsAlias (a : Abi) (b : Bytes) (t : AbiType) : Prop := NoVariant a b ∧ First a.types (fun t => t.newTypeName = b) t
def NotDefined (a : Abi) (b : Bytes) : Prop := NoVariant a b ∧ ∀ t ∈ a.types, t.newTypeName ≠ b

/-- The definition of the type called n mentions the type name m. -/
inductive Refers (a : Abi) (n : Bytes) : Bytes → Prop
  | base {b : Bytes} {arr ext opt : Bool} {s : AbiStruct} : Spelled n b arr ext opt → IsStruct a b s → s.base ≠ [] → Refers a n s.base
  | field {b : Bytes} {arr ext opt : Bool} {s : AbiStruct} {f : AbiField} : Spelled n b arr ext opt → IsStruct a b s → f ∈ s.fields → Refers a n f.type
  | member {b : Bytes} {arr ext opt : Bool} {v : AbiVariant} {t : Bytes} : Spelled n b arr ext opt → IsVariant a b v → t ∈ v.types → Refers a n t
  | alias {b : Bytes} {arr ext opt : Bool} {t : AbiType} : Spelled n b arr ext opt → IsAlias a b t → Refers a n t.type

inductive Reach (a : Abi) (n : Bytes) : Bytes → Prop
  | refl : Reach a n n
  | step {m k : Bytes} : Reach a n m → Refers a m k → Reach a n k

/-- t says of the type called n what the ABI says of it. -/
def Describes (a : Abi) (n : Bytes) (t : Resolved) : Prop :=
  t.name = n ∧ Spelled n t.baseName t.isArray t.isExtension t.isOptional ∧
  ((∃ s, IsStruct a t.baseName s ∧ t.fields = some (s.fields.map fun f => (f.name, f.type)) ∧ t.base = (if s.base = [] then none else some s.base) ∧ t.variant = none ∧ t.ref = none) ∨
   (∃ v, IsVariant a t.baseName v ∧ t.fields = none ∧ t.base = none ∧ t.variant = some v.types ∧ t.ref = none) ∨
   (∃ ty, IsAlias a t.baseName ty ∧ t.fields = none ∧ t.base = none ∧ t.variant = none ∧ t.ref = some ty.type) ∨
   (NotDefined a t.baseName ∧ t.fields = none ∧ t.base = none ∧ t.variant = none ∧ t.ref = none))

/-- The fields of a struct, those of its base before its own; suffixes of the base are ignored. -/
inductive FieldsOf (a : Abi) : Bytes → List AbiField → Prop
  | root {b : Bytes} {s : AbiStruct} : IsStruct a b s → s.base = [] → FieldsOf a b s.fields
  | derived {b b' : Bytes} {s : AbiStruct} {arr ext opt : Bool} {fs : List AbiField} : IsStruct a b s → s.base ≠ [] → Spelled s.base b' arr ext opt →
    FieldsOf a b' fs → FieldsOf a b (fs ++ s.fields)

end Verif
