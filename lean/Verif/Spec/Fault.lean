import Verif.Spec.Reflect
/-! # Which Go values can be encoded

The first thing in a value, in the order of the wire, that Encode cannot write. Of the model only the types and values are used, their zero values and the texts of the two
errors. -/
namespace Verif

/-- How Encode fails -/
inductive Fault where
  | error (e : Err)
  | panics
deriving DecidableEq

/-- A length that the varuint writer does not take (C03) -/
def lengthFault (n : Nat) : Option Fault := if n < 2 ^ 28 then none else some .panics

def Basic.fault : (b : Basic) → b.Val → Option Fault
  | .string, v => lengthFault (List.length (α := UInt8) v)
  | .int, v => if -2 ^ 27 ≤ Int64.toInt v ∧ Int64.toInt v < 2 ^ 27 then none else some .panics
  | .uint, v => lengthFault (UInt64.toNat v)
  | _, _ => none

/-- Declared types of these kinds can be encoded; others cannot. -/
def Basic.kindFault : Basic → Option Fault
  | .u64 | .u32 | .i64 | .i32 => none
  | _ => some (.error errUnexpectedType)

def Action.fault (a : Action) : Option Fault := (lengthFault a.authorization.length).or (lengthFault a.data.length)
def TxHeader.fault (t : TxHeader) : Option Fault := (lengthFault t.maxNetUsageWords.toNat).or (lengthFault t.delaySec.toNat)
def TxExtension.fault (x : TxExtension) : Option Fault := lengthFault x.data.length
def Transaction.fault (t : Transaction) : Option Fault := t.header.fault.or <|
  (lengthFault t.contextFreeActions.length).or <| (t.contextFreeActions.findSome? Action.fault).or <|
  (lengthFault t.actions.length).or <| (t.actions.findSome? Action.fault).or <|
  (lengthFault t.extensions.length).or (t.extensions.findSome? TxExtension.fault)

/-- Keys and signatures are written whatever their data. -/
def ChainTy.fault : (c : ChainTy) → c.Val → Option Fault
  | .action, v => Action.fault v
  | .blob, v => lengthFault (Option.getD (α := Bytes) v []).length
  | .bytes, v => lengthFault (Option.getD (α := Bytes) v []).length
  | .transaction, v => Transaction.fault v
  | .transactionExtension, v => TxExtension.fault v
  | .transactionHeader, v => TxHeader.fault v
  | _, _ => none

/-- A nil pointer is an error, but the methods of pkg/chain are called all the same. -/
def Ty.nilFault : Ty → Fault
  | .chain _ => .panics
  | _ => .error errNilPtr

mutual
def Ty.fault : (t : Ty) → t.Val → Option Fault
  | .basic b, v => b.fault v
  | .named b, _ => b.kindFault
  | .unsupported, _ => some (.error errUnexpectedType)
  | .bytes, v => lengthFault (Option.getD (α := Bytes) v []).length
  | .chain c, v => c.fault v
  | .ptr t, v => match (show Option t.Val from v) with
    | none => some t.nilFault
    | some x => t.fault x
  | .slice t, v => (lengthFault (Option.getD (α := List t.Val) v []).length).or ((Option.getD (α := List t.Val) v []).findSome? t.fault)
  | .array _ t, v => (show List t.Val from v).findSome? t.fault
  | .map k e, v => (lengthFault (Option.getD (α := List (k.Val × e.Val)) v []).length).or
    ((Option.getD (α := List (k.Val × e.Val)) v []).findSome? fun x => (k.fault x.1).or (e.fault x.2))
  | .struct fs, v => fs.fault v
  | .ref _ _ _, _ => none
/-- An optional field with its zero value is not looked at; any other must be exported. -/
def Fields.fault : (fs : Fields) → fs.Val → Option Fault
  | .nil, _ => none
  | .cons vis tag t fs, v =>
    (if tag = .optional ∧ (show t.Val × fs.Val from v).1 = t.zero then none
      else if vis = .exported then t.fault (show t.Val × fs.Val from v).1 else some .panics).or (fs.fault (show t.Val × fs.Val from v).2)
end

/-! ## Values of Go: lengths are ints -/

def ChainTy.Real : (c : ChainTy) → c.Val → Prop
  | .action, v => Action.GoLens v
  | .blob, v => (Option.getD (α := Bytes) v []).length < 2 ^ 63
  | .bytes, v => (Option.getD (α := Bytes) v []).length < 2 ^ 63
  | .transaction, v => Transaction.GoLens v
  | .transactionExtension, v => (TxExtension.data v).length < 2 ^ 63
  | _, _ => True

mutual
/-- No string, slice or map has 2^63 elements or more. -/
def Ty.Real : (t : Ty) → t.Val → Prop
  | .basic .string, v => List.length (α := UInt8) v < 2 ^ 63
  | .bytes, v => (Option.getD (α := Bytes) v []).length < 2 ^ 63
  | .chain c, v => c.Real v
  | .ptr t, v => ∀ x : t.Val, (show Option t.Val from v) = some x → t.Real x
  | .slice t, v => (Option.getD (α := List t.Val) v []).length < 2 ^ 63 ∧ ∀ x ∈ Option.getD (α := List t.Val) v [], t.Real x
  | .array _ t, v => ∀ x ∈ (show List t.Val from v), t.Real x
  | .map k e, v => (Option.getD (α := List (k.Val × e.Val)) v []).length < 2 ^ 63 ∧ ∀ x ∈ Option.getD (α := List (k.Val × e.Val)) v [], k.Real x.1 ∧ e.Real x.2
  | .struct fs, v => fs.Real v
  | _, _ => True
def Fields.Real : (fs : Fields) → fs.Val → Prop
  | .nil, _ => True
  | .cons _ _ t fs, v => t.Real (show t.Val × fs.Val from v).1 ∧ fs.Real (show t.Val × fs.Val from v).2
end

end Verif
