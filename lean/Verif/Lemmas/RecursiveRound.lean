import Verif.Spec.Recursive
/-! # What is asked of types for the round trip, after unfolding -/
namespace Verif

mutual
theorem subst_encodable {σ : Nat → Nat → Nat → Ty} (h : ∀ i s a, (σ i s a).Encodable) : (t : Ty) → t.Encodable → (t.subst σ).Encodable
  | .basic _, _ => trivial
  | .named _, h' => h'
  | .bytes, _ => trivial
  | .chain _, _ => trivial
  | .ptr t, h' => subst_encodable h t h'
  | .slice t, h' => subst_encodable h t h'
  | .array _ t, h' => subst_encodable h t h'
  | .map _ e, h' => ⟨h'.1, subst_encodable h e h'.2⟩
  | .struct fs, h' => substs_encodable h fs h'
  | .ref i s a, _ => h i s a
theorem substs_encodable {σ : Nat → Nat → Nat → Ty} (h : ∀ i s a, (σ i s a).Encodable) : (fs : Fields) → fs.Encodable → (fs.subst σ).Encodable
  | .nil, _ => trivial
  | .cons _ _ t fs, h' => ⟨h'.1, subst_encodable h t h'.2.1, substs_encodable h fs h'.2.2⟩
end

mutual
theorem subst_decodable {σ : Nat → Nat → Nat → Ty} (h : ∀ i s a m, (σ i s a).Decodable m) : (t : Ty) → (m : Mode) → t.Decodable m → (t.subst σ).Decodable m
  | .basic _, _, h' => h'
  | .named _, _, h' => h'
  | .bytes, _, _ => trivial
  | .chain _, _, _ => trivial
  | .ptr t, m, h' => subst_decodable h t _ h'
  | .slice t, _, h' => subst_decodable h t _ h'
  | .array _ t, _, h' => subst_decodable h t _ h'
  | .map _ e, _, h' => ⟨h'.1, h'.2.1, subst_decodable h e _ h'.2.2⟩
  | .struct fs, _, h' => substs_decodable h fs h'
  | .ref i s a, m, _ => h i s a m
theorem substs_decodable {σ : Nat → Nat → Nat → Ty} (h : ∀ i s a m, (σ i s a).Decodable m) : (fs : Fields) → fs.Decodable → (fs.subst σ).Decodable
  | .nil, _ => trivial
  | .cons _ _ t fs, h' => ⟨h'.1, h'.2.1, subst_decodable h t _ h'.2.2.1, substs_decodable h fs h'.2.2.2⟩
end

theorem level_encodable (D : Decls) (h : ∀ i, (D i).Encodable) : ∀ n i s a, (D.level n i s a).Encodable
  | 0, _, _, _ => trivial
  | n + 1, i, _, _ => substs_encodable (level_encodable D h n) (D i) (h i)

theorem level_decodable (D : Decls) (h : ∀ i, (D i).Decodable) : ∀ n i s a m, (D.level n i s a).Decodable m
  | 0, _, _, _, _ => trivial
  | n + 1, i, _, _, _ => substs_decodable (level_decodable D h n) (D i) (h i)

end Verif
