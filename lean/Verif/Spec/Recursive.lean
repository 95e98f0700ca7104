import Verif.Model.Recursive
import Verif.Spec.Reflect
/-! # Recursive struct types: what is asked of declarations -/
namespace Verif

mutual
/-- References carry the size and alignment of the declared type (which Go computes, and `make` depends on), and do not occur in keys of maps. -/
def Ty.RefsOk (D : Decls) : Ty → Prop
  | .ptr t => t.RefsOk D
  | .slice t => t.RefsOk D
  | .array _ t => t.RefsOk D
  | .map k e => k.Whole ∧ e.RefsOk D
  | .struct fs => fs.RefsOk D
  | .ref i s a => (D i).layout 0 1 = (s, a)
  | _ => True
def Fields.RefsOk (D : Decls) : Fields → Prop
  | .nil => True
  | .cons _ _ t fs => t.RefsOk D ∧ fs.RefsOk D
end

/-- The declarations are consistent. -/
def Decls.Ok (D : Decls) : Prop := ∀ i, (D i).RefsOk D

mutual
/-- Types of which no value is decoded from nothing: with a first byte, a length, or an optional or variant field. (Arrays are left out.) -/
def Ty.Consumes : Ty → Prop
  | .ptr t => t.Consumes
  | .array _ _ => False
  | .struct fs => fs.Consumes
  | .ref _ _ _ => False
  | _ => True
def Fields.Consumes : Fields → Prop
  | .nil => False
  | .cons vis tag t fs => (vis = .exported ∧ tag ≠ .extension ∧ (tag = .optional ∨ tag = .variant ∨ t.Consumes)) ∨ fs.Consumes
end

mutual
/-- Every reference is behind a byte of input: in a slice or map, in an optional or variant field, or in a field that comes after one of a type that
consumes something. A field with `extension` does not count, as it is skipped at the end of the input. -/
def Ty.Guarded : Ty → Prop
  | .ptr t => t.Guarded
  | .array _ t => t.Guarded
  | .struct fs => fs.Guarded
  | .ref _ _ _ => False
  | _ => True
def Fields.Guarded : Fields → Prop
  | .nil => True
  | .cons vis tag t fs => (tag = .optional ∨ tag = .variant ∨ t.Guarded) ∧
    ((vis = .exported ∧ tag ≠ .extension ∧ (tag = .optional ∨ tag = .variant ∨ t.Consumes)) ∨ fs.Guarded)
end

mutual
/-- No part of the value is at a reference: the value ends above. -/
def Ty.Ends : (t : Ty) → t.Val → Prop
  | .ptr t, v => ∀ x : t.Val, (show Option t.Val from v) = some x → t.Ends x
  | .slice t, v => ∀ x ∈ Option.getD (α := List t.Val) v [], t.Ends x
  | .array _ t, v => ∀ x ∈ (show List t.Val from v), t.Ends x
  | .map k e, v => ∀ x ∈ Option.getD (α := List (k.Val × e.Val)) v [], k.Ends x.1 ∧ e.Ends x.2
  | .struct fs, v => fs.Ends v
  | .ref _ _ _, _ => False
  | _, _ => True
def Fields.Ends : (fs : Fields) → fs.Val → Prop
  | .nil, _ => True
  | .cons _ _ t fs, v => t.Ends (show t.Val × fs.Val from v).1 ∧ fs.Ends (show t.Val × fs.Val from v).2
end

end Verif
