import Verif.Spec.Abi
/-! # ABIs that change

Of the model only the data types are used. -/
namespace Verif

/-- The name b means the same in both ABIs. -/
def SameMeaning (a a' : Abi) (b : Bytes) : Prop :=
  (∀ s, IsStruct a b s ↔ IsStruct a' b s) ∧ (∀ v, IsVariant a b v ↔ IsVariant a' b v) ∧ ∀ t, IsAlias a b t ↔ IsAlias a' b t

/-- Every type name that the definition of n mentions, directly or indirectly, means the same in a' as in a. -/
def Abi.Agrees (a a' : Abi) (n : Bytes) : Prop := ∀ m b arr ext opt, Reach a n m → Spelled m b arr ext opt → SameMeaning a a' b

/-- a' is a with further definitions after those of a. -/
structure Abi.Appended (a a' : Abi) (structs : List AbiStruct) (variants : List AbiVariant) (types : List AbiType) : Prop where
  structs : a'.structs = a.structs ++ structs
  variants : a'.variants = a.variants ++ variants
  types : a'.types = a.types ++ types

/-- No definition among these that takes precedence over what a has under the name b. -/
def Unshadowed (a : Abi) (structs : List AbiStruct) (variants : List AbiVariant) (types : List AbiType) (b : Bytes) : Prop :=
  (∃ s, IsStruct a b s) ∨ (∀ s ∈ structs, s.name ≠ b) ∧ ((∃ v, IsVariant a b v) ∨ (∀ v ∈ variants, v.name ≠ b) ∧ ((∃ t, IsAlias a b t) ∨ ∀ t ∈ types, t.newTypeName ≠ b))

/-- The name b means the same in both ABIs, except that a variant may have got further alternatives after those it had. -/
def Grown (a a' : Abi) (b : Bytes) : Prop :=
  (∀ s, IsStruct a b s ↔ IsStruct a' b s) ∧ (∀ v, IsVariant a b v → ∃ v', IsVariant a' b v' ∧ v.types <+: v'.types) ∧ (∀ t, IsAlias a b t → IsAlias a' b t) ∧
  (NotDefined a b → NotDefined a' b)

def Abi.Grows (a a' : Abi) (n : Bytes) : Prop := ∀ m b arr ext opt, Reach a n m → Spelled m b arr ext opt → Grown a a' b

end Verif
