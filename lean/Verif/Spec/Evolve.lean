import Verif.Model.Reflect
/-! # A struct type that gets further fields -/
namespace Verif

/-- The fields of a struct, followed by further ones -/
def Fields.append : Fields → Fields → Fields
  | .nil, gs => gs
  | .cons vis tag t fs, gs => .cons vis tag t (fs.append gs)

/-- The values of all fields, from those of the first and those of the further ones -/
def Fields.join : (fs gs : Fields) → fs.Val → gs.Val → (fs.append gs).Val
  | .nil, _, _, y => y
  | .cons _ _ t fs, gs, x, y => ((show t.Val × fs.Val from x).1, Fields.join fs gs (show t.Val × fs.Val from x).2 y)

/-- None of the fields themselves is a binary extension. -/
def Fields.NoTail : Fields → Prop
  | .nil => True
  | .cons vis tag _ fs => (vis = .exported → tag ≠ .extension) ∧ fs.NoTail

end Verif
