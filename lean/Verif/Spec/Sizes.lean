import Verif.Spec.Takes
/-! # How much a decoded value holds

What of a value depends on the input and not on its type: the bytes of strings and byte slices, the elements of slices, the entries of maps. -/
namespace Verif

def Basic.holds : (b : Basic) → b.Val → Nat
  | .string, v => List.length (α := UInt8) v
  | _, _ => 0

def Action.holds (a : Action) : Nat := a.authorization.length + a.data.length

def TxExtension.holds (x : TxExtension) : Nat := x.data.length

def Transaction.holds (t : Transaction) : Nat :=
  (t.contextFreeActions.map fun a => 1 + a.holds).sum + (t.actions.map fun a => 1 + a.holds).sum + (t.extensions.map fun x => 1 + x.holds).sum

/-- The arrays have a fixed size; the data of keys and signatures is in a slice. -/
def ChainTy.holds : (c : ChainTy) → c.Val → Nat
  | .action, v => Action.holds v
  | .blob, v => (Option.getD (α := Bytes) v []).length
  | .bytes, v => (Option.getD (α := Bytes) v []).length
  | .publicKey, v => (PubKey.data v).length
  | .signature, v => (Sig.data v).length
  | .transaction, v => Transaction.holds v
  | .transactionExtension, v => TxExtension.holds v
  | _, _ => 0

mutual
def Ty.holds : (t : Ty) → t.Val → Nat
  | .basic b, v => b.holds v
  | .named b, v => b.holds v
  | .unsupported, _ => 0
  | .bytes, v => (Option.getD (α := Bytes) v []).length
  | .chain c, v => c.holds v
  | .ptr t, v => match (show Option t.Val from v) with
    | none => 0
    | some x => t.holds x
  | .slice t, v => ((Option.getD (α := List t.Val) v []).map fun x => 1 + t.holds x).sum
  | .array _ t, v => ((show List t.Val from v).map fun x => t.holds x).sum
  | .map k e, v => ((Option.getD (α := List (k.Val × e.Val)) v []).map fun x => 1 + (k.holds x.1 + e.holds x.2)).sum
  | .struct fs, v => fs.holds v
  | .ref _ _ _, _ => 0
def Fields.holds : (fs : Fields) → fs.Val → Nat
  | .nil, _ => 0
  | .cons _ _ t fs, v => t.holds (show t.Val × fs.Val from v).1 + fs.holds (show t.Val × fs.Val from v).2
end

mutual
/-- A number of bytes that every value of the type takes at least in the input. -/
def Ty.least : Ty → Nat
  | .ptr t => t.least
  | .array n t => n * t.least
  | .struct fs => fs.least
  | .unsupported => 0
  | .ref _ _ _ => 0
  | _ => 1
def Fields.least : Fields → Nat
  | .nil => 0
  | .cons vis tag t fs => (match vis, tag with
    | .exported, .none => t.least
    | .exported, .optional => 1
    | .exported, .variant => 1
    | _, _ => 0) + fs.least
end

mutual
/-- Elements of slices and entries of maps take at least a byte each. -/
def Ty.Filled : Ty → Prop
  | .ptr t => t.Filled
  | .slice t => 1 ≤ t.least ∧ t.Filled
  | .array _ t => t.Filled
  | .map k e => 1 ≤ k.least + e.least ∧ k.Filled ∧ e.Filled
  | .struct fs => fs.Filled
  | _ => True
def Fields.Filled : Fields → Prop
  | .nil => True
  | .cons _ _ t fs => t.Filled ∧ fs.Filled
end

/-- While decoding `bs` a buffer of m bytes is allocated to read into. -/
def Dec.Asks {α : Type} (fin : Err) : Dec α → Bytes → Nat → Prop
  | .ret _, _, _ => False
  | .panic _, _, _ => False
  | .diverge, _, _ => False
  | .read n k, bs, m => m = n ∨ (if n ≤ bs.length then (k (bs.take n) n none).Asks fin (bs.drop n) m else (k (bs ++ List.replicate (n - bs.length) 0) bs.length (some (shortErr fin bs.length))).Asks fin [] m)

end Verif
