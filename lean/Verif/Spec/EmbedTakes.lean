import Verif.Spec.MethodTakes
import Verif.Model.Embed
/-! # The bytes that structs accept that embed a type of package chain -/
namespace Verif

/-- w is accepted as v by a new struct with the methods of an embedded field: it is what the embedded type accepts, all other fields are zero. If the field is a pointer, it is nil and nothing
is accepted. -/
def Fields.EmbedTakes : (fs : Fields) → (emb : List Bool) → fs.Val → Bytes → Prop
  | .nil, _, _, _ => False
  | .cons _ _ _ _, [], _, _ => False
  | .cons _ _ (.chain c) fs, true :: _, v, w => (show c.Val × fs.Val from v).2 = fs.zero ∧ c.Takes (show c.Val × fs.Val from v).1 w
  | .cons _ _ (.ptr (.chain _)) _, true :: _, _, _ => False
  | .cons _ _ t fs, _ :: emb, v, w => (show t.Val × fs.Val from v).1 = t.zero ∧ fs.EmbedTakes emb (show t.Val × fs.Val from v).2 w

/-- Declared structs are read by the methods of an embedded field if there is exactly one such field -/
def embedAccepted (emb : Nat → List Bool) : Accepted
  | i, .struct fs => if fs.bare.promoters (emb i) = 1 then some (fs.bare.EmbedTakes (emb i)) else none
  | _, _ => none

end Verif
