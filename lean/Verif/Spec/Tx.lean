import Verif.Spec.Keys
import Verif.Model.Tx
/-! # Wire layout of actions and transactions

Relations between a value (the structures of the model, which are the Go structs) and its bytes; none of the encoding functions of the model is used. -/
namespace Verif

/-- `bs` is the n-byte little-endian form of v. -/
def LeForm (n v : Nat) (bs : Bytes) : Prop := bs.length = n ∧ leValue bs = v

/-- The list of values `xs` is laid out as the concatenation of the elements' bytes. -/
inductive Each {α : Type} (R : α → Bytes → Prop) : List α → Bytes → Prop where
  | nil : Each R [] []
  | cons {x : α} {xs : List α} {b bs : Bytes} : R x b → Each R xs bs → Each R (x :: xs) (b ++ bs)

/-- A count as minimal LEB128, then the elements. -/
def Counted {α : Type} (R : α → Bytes → Prop) (xs : List α) (bs : Bytes) : Prop := ∃ lb es, MinLeb lb xs.length ∧ Each R xs es ∧ bs = lb ++ es

def PermLayout (pl : PermissionLevel) (bs : Bytes) : Prop := ∃ a p, LeForm 8 pl.actor.toNat a ∧ LeForm 8 pl.permission.toNat p ∧ bs = a ++ p

def ActionLayout (a : Action) (bs : Bytes) : Prop := ∃ ac n au d, LeForm 8 a.account.toNat ac ∧ LeForm 8 a.name.toNat n ∧
  Counted PermLayout a.authorization au ∧ Prefixed d a.data ∧ bs = ac ++ n ++ au ++ d

def HeaderLayout (h : TxHeader) (bs : Bytes) : Prop := ∃ e n p w c d, LeForm 4 h.expiration.toNat e ∧ LeForm 2 h.refBlockNum.toNat n ∧
  LeForm 4 h.refBlockPrefix.toNat p ∧ MinLeb w h.maxNetUsageWords.toNat ∧ LeForm 1 h.maxCpuUsageMs.toNat c ∧ MinLeb d h.delaySec.toNat ∧
  bs = e ++ n ++ p ++ w ++ c ++ d

def ExtensionLayout (x : TxExtension) (bs : Bytes) : Prop := ∃ t d, LeForm 2 x.type.toNat t ∧ Prefixed d x.data ∧ bs = t ++ d

def TransactionLayout (tx : Transaction) (bs : Bytes) : Prop := ∃ h c a x, HeaderLayout tx.header h ∧ Counted ActionLayout tx.contextFreeActions c ∧
  Counted ActionLayout tx.actions a ∧ Counted ExtensionLayout tx.extensions x ∧ bs = h ++ c ++ a ++ x

/-- Lengths the varuint writer can handle (C03). -/
def Action.Small (a : Action) : Prop := a.authorization.length < 2 ^ 28 ∧ a.data.length < 2 ^ 28
def TxHeader.Small (h : TxHeader) : Prop := h.maxNetUsageWords.toNat < 2 ^ 28 ∧ h.delaySec.toNat < 2 ^ 28
def TxExtension.Small (x : TxExtension) : Prop := x.data.length < 2 ^ 28
def Transaction.Small (tx : Transaction) : Prop := tx.header.Small ∧
  tx.contextFreeActions.length < 2 ^ 28 ∧ (∀ a ∈ tx.contextFreeActions, a.Small) ∧
  tx.actions.length < 2 ^ 28 ∧ (∀ a ∈ tx.actions, a.Small) ∧
  tx.extensions.length < 2 ^ 28 ∧ ∀ x ∈ tx.extensions, x.Small

/-- Lengths a Go slice can have. -/
def Action.GoLens (a : Action) : Prop := a.authorization.length < 2 ^ 63 ∧ a.data.length < 2 ^ 63
def Transaction.GoLens (t : Transaction) : Prop := t.contextFreeActions.length < 2 ^ 63 ∧ t.actions.length < 2 ^ 63 ∧ t.extensions.length < 2 ^ 63 ∧
  (∀ a ∈ t.contextFreeActions, a.GoLens) ∧ (∀ a ∈ t.actions, a.GoLens) ∧ ∀ x ∈ t.extensions, x.data.length < 2 ^ 63

end Verif
