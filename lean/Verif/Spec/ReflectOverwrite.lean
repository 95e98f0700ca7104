import Verif.Spec.Overwrite
import Verif.Spec.Reflect
/-! # Decoding by reflection into a variable in use -/
namespace Verif

mutual
/-- What a variable can hold, apart from an Action with authorizations: arrays have their length, slices fit into memory, fields called `_` are zero. -/
def Ty.Held : (t : Ty) → t.Val → Prop
  | .basic _, _ => True
  | .named _, _ => True
  | .unsupported, _ => True
  | .bytes, v => (Option.getD (α := Bytes) v []).length ≤ maxAlloc
  | .chain c, v => c.Clean v
  | .ptr t, v => ∀ x : t.Val, (show Option t.Val from v) = some x → t.Held x
  | .slice t, v => (Option.getD (α := List t.Val) v []).length * t.size ≤ maxAlloc ∧ ∀ x ∈ Option.getD (α := List t.Val) v [], t.Held x
  | .array n t, v => List.length (α := t.Val) v = n ∧ ∀ x ∈ (show List t.Val from v), t.Held x
  | .map _ _, _ => True
  | .struct fs, v => fs.Held v
  | .ref _ _ _, _ => True
def Fields.Held : (fs : Fields) → fs.Val → Prop
  | .nil, _ => True
  | .cons vis _ t fs, v => t.Held (show t.Val × fs.Val from v).1 ∧ (vis = .blank → (show t.Val × fs.Val from v).1 = t.zero) ∧ fs.Held (show t.Val × fs.Val from v).2
end

mutual
/-- Equal, when nil and empty slices are not distinguished. -/
def Ty.Agree : (t : Ty) → t.Val → t.Val → Prop
  | .bytes, v, w => Option.getD (α := Bytes) v [] = Option.getD (α := Bytes) w []
  | .ptr t, v, w => ((show Option t.Val from v) = none ∧ (show Option t.Val from w) = none) ∨
    ∃ x y : t.Val, (show Option t.Val from v) = some x ∧ (show Option t.Val from w) = some y ∧ t.Agree x y
  | .slice t, v, w => Forall2 t.Agree (Option.getD (α := List t.Val) v []) (Option.getD (α := List t.Val) w [])
  | .array _ t, v, w => Forall2 t.Agree (show List t.Val from v) (show List t.Val from w)
  | .struct fs, v, w => fs.Agree v w
  | _, v, w => v = w
def Fields.Agree : (fs : Fields) → fs.Val → fs.Val → Prop
  | .nil, _, _ => True
  | .cons _ _ t fs, v, w => t.Agree (show t.Val × fs.Val from v).1 (show t.Val × fs.Val from w).1 ∧ fs.Agree (show t.Val × fs.Val from v).2 (show t.Val × fs.Val from w).2
end

mutual
/-- No unexported fields -/
def Ty.Exported : Ty → Prop
  | .ptr t => t.Exported
  | .slice t => t.Exported
  | .array _ t => t.Exported
  | .struct fs => fs.Exported
  | _ => True
def Fields.Exported : Fields → Prop
  | .nil => True
  | .cons vis _ t fs => vis ≠ .unexported ∧ t.Exported ∧ fs.Exported
end

end Verif
