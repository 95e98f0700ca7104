import Verif.Spec.Reflect
import Verif.Model.Abi
import Verif.Model.AbiReflect
/-! # The binary form of an ABI definition

Of the model only the data types are used. -/
namespace Verif

/-! ## Layout -/

def AbiType.Layout (t : AbiType) (bs : Bytes) : Prop := ∃ x y, Prefixed x t.newTypeName ∧ Prefixed y t.type ∧ bs = x ++ y
def AbiField.Layout (t : AbiField) (bs : Bytes) : Prop := ∃ x y, Prefixed x t.name ∧ Prefixed y t.type ∧ bs = x ++ y
def AbiClause.Layout (t : AbiClause) (bs : Bytes) : Prop := ∃ x y, Prefixed x t.id ∧ Prefixed y t.body ∧ bs = x ++ y
/-- A list of strings -/
def StringsLayout (xs : List Bytes) (bs : Bytes) : Prop := Counted (fun s b => Prefixed b s) xs bs
def AbiVariant.Layout (t : AbiVariant) (bs : Bytes) : Prop := ∃ x y, Prefixed x t.name ∧ StringsLayout t.types y ∧ bs = x ++ y
def AbiStruct.Layout (t : AbiStruct) (bs : Bytes) : Prop := ∃ x y z, Prefixed x t.name ∧ Prefixed y t.base ∧ Counted AbiField.Layout t.fields z ∧ bs = x ++ y ++ z
def AbiAction.Layout (t : AbiAction) (bs : Bytes) : Prop := ∃ x y z, LeForm 8 t.name.toNat x ∧ Prefixed y t.type ∧ Prefixed z t.ricardianContract ∧ bs = x ++ y ++ z
def AbiTable.Layout (t : AbiTable) (bs : Bytes) : Prop := ∃ x y z u w, LeForm 8 t.name.toNat x ∧ Prefixed y t.indexType ∧ StringsLayout t.keyNames z ∧ StringsLayout t.keyTypes u ∧
  Prefixed w t.type ∧ bs = x ++ y ++ z ++ u ++ w
def AbiExtension.Layout (t : AbiExtension) (bs : Bytes) : Prop := ∃ x y, LeForm 2 t.type.toNat x ∧ Prefixed y t.data ∧ bs = x ++ y
def AbiErrorMessage.Layout (t : AbiErrorMessage) (bs : Bytes) : Prop := ∃ x y, LeForm 8 t.code.toNat x ∧ Prefixed y t.message ∧ bs = x ++ y

/-- Everything up to the variants, which older ABIs do not have -/
def Abi.HeadLayout (a : Abi) (bs : Bytes) : Prop := ∃ v t s c b r e x, Prefixed v a.version ∧ Counted AbiType.Layout a.types t ∧ Counted AbiStruct.Layout a.structs s ∧
  Counted AbiAction.Layout a.actions c ∧ Counted AbiTable.Layout a.tables b ∧ Counted AbiClause.Layout a.ricardianClauses r ∧ Counted AbiErrorMessage.Layout a.errorMessages e ∧
  Counted AbiExtension.Layout a.extensions x ∧ bs = v ++ t ++ s ++ c ++ b ++ r ++ e ++ x
def Abi.Layout (a : Abi) (bs : Bytes) : Prop := ∃ h v, a.HeadLayout h ∧ Counted AbiVariant.Layout a.variants v ∧ bs = h ++ v

/-! ## Lengths the varuint writer can handle (C03) -/

/-- The text of a string, or a list -/
def Short {α : Type} (l : List α) : Prop := l.length < 2 ^ 28
/-- A short list of short strings -/
def Shorts (l : List Bytes) : Prop := Short l ∧ ∀ x ∈ l, Short x
structure Abi.Small (a : Abi) : Prop where
  version : Short a.version
  types : Short a.types ∧ ∀ t ∈ a.types, Short t.newTypeName ∧ Short t.type
  structs : Short a.structs ∧ ∀ t ∈ a.structs, Short t.name ∧ Short t.base ∧ Short t.fields ∧ ∀ f ∈ t.fields, Short f.name ∧ Short f.type
  actions : Short a.actions ∧ ∀ t ∈ a.actions, Short t.type ∧ Short t.ricardianContract
  tables : Short a.tables ∧ ∀ t ∈ a.tables, Short t.indexType ∧ Shorts t.keyNames ∧ Shorts t.keyTypes ∧ Short t.type
  clauses : Short a.ricardianClauses ∧ ∀ t ∈ a.ricardianClauses, Short t.id ∧ Short t.body
  errors : Short a.errorMessages ∧ ∀ t ∈ a.errorMessages, Short t.message
  extensions : Short a.extensions ∧ ∀ t ∈ a.extensions, Short t.data
  variants : Short a.variants ∧ ∀ t ∈ a.variants, Short t.name ∧ Shorts t.types

/-! ## Go values of type chain.Abi -/

/-- A slice, possibly nil, of representations -/
def RepSlice {α β : Type} (R : α → β → Prop) (v : Option (List α)) (xs : List β) : Prop := Forall2 R (v.getD []) xs

def RepType (v : Bytes × Bytes × Unit) (t : AbiType) : Prop := v.1 = t.newTypeName ∧ v.2.1 = t.type
def RepField (v : Bytes × Bytes × Unit) (t : AbiField) : Prop := v.1 = t.name ∧ v.2.1 = t.type
def RepClause (v : Bytes × Bytes × Unit) (t : AbiClause) : Prop := v.1 = t.id ∧ v.2.1 = t.body
def RepVariant (v : Bytes × Option (List Bytes) × Unit) (t : AbiVariant) : Prop := v.1 = t.name ∧ v.2.1.getD [] = t.types
def RepStruct (v : Bytes × Bytes × Option (List (Bytes × Bytes × Unit)) × Unit) (t : AbiStruct) : Prop := v.1 = t.name ∧ v.2.1 = t.base ∧ RepSlice RepField v.2.2.1 t.fields
def RepAction (v : UInt64 × Bytes × Bytes × Unit) (t : AbiAction) : Prop := v.1 = t.name ∧ v.2.1 = t.type ∧ v.2.2.1 = t.ricardianContract
def RepTable (v : UInt64 × Bytes × Option (List Bytes) × Option (List Bytes) × Bytes × Unit) (t : AbiTable) : Prop := v.1 = t.name ∧ v.2.1 = t.indexType ∧ v.2.2.1.getD [] = t.keyNames ∧
  v.2.2.2.1.getD [] = t.keyTypes ∧ v.2.2.2.2.1 = t.type
/-- A pointer that is not nil -/
def RepExtension (v : Option (UInt16 × Option Bytes × Unit)) (t : AbiExtension) : Prop := ∃ x, v = some x ∧ x.1 = t.type ∧ x.2.1.getD [] = t.data
def RepError (v : UInt64 × Bytes × Unit) (t : AbiErrorMessage) : Prop := v.1 = t.code ∧ v.2.1 = t.message

/-- The fields of a Go struct chain.Abi -/
abbrev GoAbi : Type := Bytes × Option (List (Bytes × Bytes × Unit)) × Option (List (Bytes × Bytes × Option (List (Bytes × Bytes × Unit)) × Unit)) ×
  Option (List (UInt64 × Bytes × Bytes × Unit)) × Option (List (UInt64 × Bytes × Option (List Bytes) × Option (List Bytes) × Bytes × Unit)) ×
  Option (List (Bytes × Bytes × Unit)) × Option (List (UInt64 × Bytes × Unit)) × Option (List (Option (UInt16 × Option Bytes × Unit))) ×
  Option (List (Bytes × Option (List Bytes) × Unit)) × Unit

example : abiTy.Val = GoAbi := rfl

/-- The Go value has the content of the ABI; nil slices are empty. -/
def Represents (v : abiTy.Val) (a : Abi) : Prop :=
  match (show GoAbi from v) with
  | (ver, types, structs, actions, tables, clauses, errors, extensions, variants, ()) =>
    ver = a.version ∧ RepSlice RepType types a.types ∧ RepSlice RepStruct structs a.structs ∧ RepSlice RepAction actions a.actions ∧ RepSlice RepTable tables a.tables ∧
    RepSlice RepClause clauses a.ricardianClauses ∧ RepSlice RepError errors a.errorMessages ∧ RepSlice RepExtension extensions a.extensions ∧ RepSlice RepVariant variants a.variants

end Verif
