import Verif.Lemmas.RecursiveTy
/-! # Levels of unfolding -/
namespace Verif

mutual
theorem subst_ref : (t : Ty) → t.subst .ref = t
  | .basic _ => rfl
  | .named _ => rfl
  | .unsupported => rfl
  | .bytes => rfl
  | .chain _ => rfl
  | .ptr t => congrArg Ty.ptr (subst_ref t)
  | .slice t => congrArg Ty.slice (subst_ref t)
  | .array n t => congrArg (Ty.array n) (subst_ref t)
  | .map k e => congrArg (Ty.map k) (subst_ref e)
  | .struct fs => congrArg Ty.struct (substFields_ref fs)
  | .ref _ _ _ => rfl
theorem substFields_ref : (fs : Fields) → fs.subst .ref = fs
  | .nil => rfl
  | .cons vis tag t fs => by rw [Fields.subst, subst_ref t, substFields_ref fs]
end

theorem level_closed (D : Decls) (n i s a : Nat) : (D.level n i s a).Closed := by cases n <;> trivial

/-- The size of a declared type does not depend on how far it is unfolded. -/
theorem level_layout (D : Decls) (hD : D.Ok) : ∀ n i s a, (D i).layout 0 1 = (s, a) → (D.level n i s a).layout = (s, a)
  | 0, _, _, _, _ => rfl
  | n + 1, i, s, a, h => by
    refine Eq.trans ?_ h
    show ((D i).subst (D.level n)).layout 0 1 = _
    have := layoutFields_subst (D := D) (σ := D.level n) (τ := .ref) (fun i s a h => level_layout D hD n i s a h) (D i) (hD i) 0 1
    rw [substFields_ref] at this
    exact this

theorem level_sim (D : Decls) (hD : D.Ok) : ∀ n, RefSim D (D.level n) (D.level (n + 1)) (D.up n)
  | 0 => {
      left := level_closed D 0
      right := level_closed D 1
      zero := fun _ _ _ => rfl
      inj := fun _ _ _ _ _ _ => rfl
      layout := fun i s a h => (level_layout D hD 0 i s a h).trans (level_layout D hD 1 i s a h).symm
      dec := fun i s a _ m old => by
        cases m with
        | member => exact .pure _ _ rfl
        | _ => trivial
      enc := fun i s a _ v => trivial }
  | n + 1 =>
    have ih := level_sim D hD n
    { left := level_closed D (n + 1)
      right := level_closed D (n + 2)
      zero := fun i _ _ => zeroFields_mapRefs ih.zero (D i)
      inj := fun i _ _ => injFields_mapRefs ih.inj (D i)
      layout := fun i s a h => (level_layout D hD (n + 1) i s a h).trans (level_layout D hD (n + 2) i s a h).symm
      dec := fun i _ _ _ m old => decode_below ih (.struct (D i)) (hD i) m old
      enc := fun i _ _ _ v => encode_below ih (.struct (D i)) (hD i) v }

theorem Dec.Below.trans {α β γ : Type} {g : α → β} {h : β → γ} {p : Dec α} {q : Dec β} {r : Dec γ} (h1 : p.Below g q) (h2 : q.Below h r) : p.Below (h ∘ g) r := by
  induction p generalizing q r with
  | ret a => obtain rfl : q = _ := h1; exact h2
  | panic w => obtain rfl : q = _ := h1; exact h2
  | diverge => trivial
  | read n k ih =>
    obtain ⟨k', rfl, hk⟩ := h1
    obtain ⟨k'', rfl, hk'⟩ := h2
    exact ⟨k'', rfl, fun b c e => ih b c e (hk b c e) (hk' b c e)⟩

theorem Enc.Below.trans {α : Type} {p q r : Enc α} (h1 : p.Below q) (h2 : q.Below r) : p.Below r := by
  induction p generalizing q r with
  | ret a => obtain rfl : q = _ := h1; exact h2
  | panic w => obtain rfl : q = _ := h1; exact h2
  | diverge => trivial
  | write bs k ih =>
    obtain ⟨k', rfl, hk⟩ := h1
    obtain ⟨k'', rfl, hk'⟩ := h2
    exact ⟨k'', rfl, fun e => ih e (hk e) (hk' e)⟩

variable (D : Decls) (hD : D.Ok) (t : Ty) (ht : t.RefsOk D) {n : Nat}
include hD ht

theorem lift_decode (m : Mode) (old : (t.unfold D n).Val) : (k : Nat) →
    (decodeWith chainDecoder (t.unfold D n) m old).Below (onVal (t.lift D k)) (decodeWith chainDecoder (t.unfold D (n + k)) m (t.lift D k old))
  | 0 => .refl _
  | k + 1 => (lift_decode m old k).trans (decode_below (level_sim D hD (n + k)) t ht m _)

theorem lift_encode (v : (t.unfold D n).Val) : (k : Nat) → (encodeWith chainEncoder (t.unfold D n) v).Below (encodeWith chainEncoder (t.unfold D (n + k)) (t.lift D k v))
  | 0 => .refl _
  | k + 1 => (lift_encode v k).trans (encode_below (level_sim D hD (n + k)) t ht _)

omit ht in
theorem lift_inj : (k : Nat) → ∀ v w : (t.unfold D n).Val, t.lift D k v = t.lift D k w → v = w
  | 0, _, _, h => h
  | k + 1, v, w, h => lift_inj k v w (inj_mapRefs (level_sim D hD (n + k)).inj t _ _ h)

omit ht in
theorem lift_zero : (k : Nat) → t.lift D k (t.unfold D n).zero = (t.unfold D (n + k)).zero
  | 0 => rfl
  | k + 1 => (congrArg (t.mapRefs (D.up (n + k))) (lift_zero k)).trans (zero_mapRefs (level_sim D hD (n + k)).zero t)

end Verif
