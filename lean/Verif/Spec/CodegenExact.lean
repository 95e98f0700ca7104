import Verif.Spec.Codegen
/-! # For which structs the generated functions compile

`has` are the types with MarshalABI and UnmarshalABI. -/
namespace Verif

/-- An element that is written: WriteBytes takes a []byte, the methods of T can be called on *T. -/
def ElemWrites (has : Ty → Bool) : Ty → Prop
  | .basic _ | .bytes => True
  | .ptr u => has u = true
  | u => has u = true

/-- What is written of a field or of what it points to -/
def PointeeWrites (has : Ty → Bool) : Ty → Prop
  | .basic _ | .bytes => True
  | .slice (.basic .u8) => has (.slice (.basic .u8)) = true
  | .slice e => ElemWrites has e
  | .array _ e => ElemWrites has e
  | u => has u = true

/-- MarshalABI compiles with this field: only pointers can be optional, other tags do not matter. -/
def FieldWrites (has : Ty → Bool) (vis : Vis) (tag : Tag) (t : Ty) : Prop := vis ≠ .blank ∧ match t with
  | .ptr u => PointeeWrites has u
  | u => tag ≠ .optional ∧ PointeeWrites has u

/-- An element that is read: there is no code for []byte. -/
def ElemReads (has : Ty → Bool) : Ty → Prop
  | .basic _ => True
  | .bytes => False
  | .ptr u => has u = true
  | u => has u = true

/-- Types that can be named in package main as reflect names them -/
def Ty.Foreign : Ty → Prop
  | .basic _ | .unsupported | .bytes | .chain _ => True
  | .named _ | .struct _ | .ref _ _ _ => False
  | .ptr t => t.Foreign
  | .slice (.basic .u8) => False
  | .slice t => t.Foreign
  | .array _ t => t.Foreign
  | .map k v => k.Foreign ∧ v.Foreign

/-- UnmarshalABI compiles with this field. A pointer to a slice is never allocated, nor are the basic elements of an array behind a pointer. -/
def FieldReads (has : Ty → Bool) (vis : Vis) (tag : Tag) (t : Ty) : Prop := vis ≠ .blank ∧ match t with
  | .ptr (.basic _) => True
  | .ptr .bytes => False
  | .ptr (.slice (.basic .u8)) => has (.slice (.basic .u8)) = true
  | .ptr (.slice _) => False
  | .ptr (.array _ (.basic _)) => False
  | .ptr (.array _ e) => ElemReads has e
  | .ptr u => has u = true
  | .basic _ | .bytes => tag ≠ .optional
  | .slice (.basic .u8) => tag ≠ .optional ∧ has (.slice (.basic .u8)) = true
  | .slice e => tag ≠ .optional ∧ e.Foreign ∧ ElemReads has e
  | .array _ e => tag ≠ .optional ∧ ElemReads has e
  | u => tag ≠ .optional ∧ has u = true

/-- A loop over a slice: not one over a declared []byte type -/
def LoopField (_ : Vis) (_ : Tag) : Ty → Prop
  | .bytes | .ptr .bytes => True
  | .slice e | .ptr (.slice e) => e ≠ .basic .u8
  | _ => False

/-- Declares `tmp` beside others -/
def TmpField (_ : Vis) (tag : Tag) (t : Ty) : Prop := tag ≠ .optional ∧ ∃ b, t = .ptr (.basic b)

end Verif
