import Verif.Model.Graph
import Verif.Spec.Recursive
import Verif.Spec.Full
/-! # Paths in memory -/
namespace Verif

mutual
/-- Places of declared types are behind a pointer, slice or map, or in a struct or array that is (b: the type is behind one). In optional fields they must be behind
one that is in the field itself, as the field is compared with its zero value. -/
def Ty.Indirect : Bool → Ty → Prop
  | _, .ptr t => t.Indirect true
  | _, .slice t => t.Indirect true
  | _, .map _ e => e.Indirect true
  | b, .array _ t => t.Indirect b
  | b, .struct fs => fs.Indirect b
  | b, .ref _ _ _ => b = true
  | _, _ => True
def Fields.Indirect : Bool → Fields → Prop
  | _, .nil => True
  | b, .cons _ tag t fs => t.Indirect b ∧ (tag = .optional → t.Indirect false) ∧ fs.Indirect b
end

mutual
/-- The value holds the address q of a struct of the declared type j. -/
def Ty.Mentions : (t : Ty) → (t.subst addrTy).Val → Nat → UInt64 → Prop
  | .ptr t, v, j, q => ∃ x, (show Option (t.subst addrTy).Val from v) = some x ∧ t.Mentions x j q
  | .slice t, v, j, q => ∃ x ∈ Option.getD (α := List (t.subst addrTy).Val) v [], t.Mentions x j q
  | .array _ t, v, j, q => ∃ x ∈ (show List (t.subst addrTy).Val from v), t.Mentions x j q
  | .map k e, v, j, q => ∃ x ∈ Option.getD (α := List (k.Val × (e.subst addrTy).Val)) v [], e.Mentions x.2 j q
  | .struct fs, v, j, q => fs.Mentions v j q
  | .ref i _ _, v, j, q => j = i ∧ q = v
  | _, _, _, _ => False
def Fields.Mentions : (fs : Fields) → (fs.subst addrTy).Val → Nat → UInt64 → Prop
  | .nil, _, _, _ => False
  | .cons _ _ t fs, v, j, q => t.Mentions (show (t.subst addrTy).Val × (fs.subst addrTy).Val from v).1 j q ∨ fs.Mentions (show (t.subst addrTy).Val × (fs.subst addrTy).Val from v).2 j q
end

/-- Every struct leads only to structs of smaller rank: there is no cycle. -/
def Graph.Ranked {D : Decls} (G : Graph D) (r : Nat → UInt64 → Nat) : Prop := ∀ i p j q, (D i).Mentions (G i p) j q → r j q < r i p

/-- A set of structs each of which leads to one of the set: following the pointers from there never ends. -/
def Graph.Endless {D : Decls} (G : Graph D) (S : Nat → UInt64 → Prop) : Prop := ∀ i p, S i p → ∃ j q, (D i).Mentions (G i p) j q ∧ S j q

end Verif
