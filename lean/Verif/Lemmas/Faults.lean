import Verif.Lemmas.Strict
/-! Readers that may fail transiently. -/
namespace Verif

theorem Reader.read_any (r : Reader) (want : Nat) :
    ∃ m, m ≤ want ∧ m ≤ r.data.length ∧ (r.read want).1 = r.data.take m ∧ (r.read want).2.2.data = r.data.drop m ∧
      (r.read want).2.2.fin = r.fin := by
  have key : ∀ k, k ≤ want → min k r.data.length ≤ want ∧ min k r.data.length ≤ r.data.length ∧
      r.data.take k = r.data.take (min k r.data.length) ∧ r.data.drop k = r.data.drop (min k r.data.length) := by
    intro k hk
    refine ⟨by omega, by omega, ?_, ?_⟩
    · rw [List.take_eq_take_iff]; omega
    · by_cases h : k ≤ r.data.length
      · rw [Nat.min_eq_left h]
      · rw [List.drop_eq_nil_of_le (by omega), List.drop_eq_nil_of_le (by omega)]
  unfold Reader.read
  split
  · rename_i n e s hs
    obtain ⟨a, b, c, d⟩ := key (min want n) (by omega)
    exact ⟨_, a, b, c, d, rfl⟩
  · rename_i n s hs
    split
    · exact ⟨0, by omega, by omega, by simp, by simp, rfl⟩
    · obtain ⟨a, b, c, d⟩ := key (min want n) (by omega)
      exact ⟨_, a, b, c, d, rfl⟩
  · split
    · exact ⟨0, by omega, by omega, by simp, by simp, rfl⟩
    · obtain ⟨a, b, c, d⟩ := key want (by omega)
      exact ⟨_, a, b, c, d, rfl⟩

theorem Reader.readLoop_any (r : Reader) (need : Nat) (acc : Bytes) :
    ∃ m, m ≤ need ∧ m ≤ r.data.length ∧ (r.readLoop need acc).1 = acc ++ r.data.take m ∧
      (r.readLoop need acc).2.2.data = r.data.drop m ∧ (r.readLoop need acc).2.2.fin = r.fin ∧
      ((r.readLoop need acc).2.1 = none → m = need) := by
  induction r, need, acc using Reader.readLoop.induct with
  | case1 r acc =>
    refine ⟨0, by omega, by omega, ?_⟩
    rw [Reader.readLoop]; simp
  | case2 r need acc hn got e r' hr =>
    obtain ⟨m, h1, h2, h3, h4, h5⟩ := r.read_any need
    rw [hr] at h3 h4 h5
    have ho : r.readLoop need acc = (acc ++ got, some e, r') := by
      rw [Reader.readLoop, dif_neg hn]; split
      · rename_i heq; rw [hr] at heq; simp at heq; simp [heq]
      · rename_i heq; rw [hr] at heq; simp at heq
    rw [ho]
    simp only at h3 h4 h5
    exact ⟨m, h1, h2, by simp [h3], h4, h5, by simp⟩
  | case3 r need acc hn got r' hr ih =>
    obtain ⟨m, h1, h2, h3, h4, h5⟩ := r.read_any need
    rw [hr] at h3 h4 h5
    simp only at h3 h4 h5
    have ho : r.readLoop need acc = r'.readLoop (need - got.length) (acc ++ got) := by
      rw [Reader.readLoop, dif_neg hn]; split
      · rename_i heq; rw [hr] at heq; simp at heq
      · rename_i heq; rw [hr] at heq; simp at heq; simp [heq]
    rw [ho]
    obtain ⟨k, k1, k2, k3, k4, k5, k6⟩ := ih
    have hg : got.length = m := by rw [h3]; simp; omega
    rw [h4] at k2 k3 k4
    simp at k2
    refine ⟨m + k, by omega, by omega, ?_, ?_, by rw [k5, h5], fun h => by have := k6 h; omega⟩
    · rw [k3, h3, List.append_assoc, ← List.take_add]
    · rw [k4, List.drop_drop]

theorem Reader.readFull_any (r : Reader) (n : Nat) (h : (r.readFull n).2.2.1 = none) :
    n ≤ r.data.length ∧ (r.readFull n).1 = r.data.take n ∧ (r.readFull n).2.1 = n ∧ (r.readFull n).2.2.2.data = r.data.drop n := by
  obtain ⟨m, h1, h2, h3, h4, h5, h6⟩ := r.readLoop_any n []
  unfold Reader.readFull at h ⊢
  rcases hr : r.readLoop n [] with ⟨got, e, r'⟩
  rw [hr] at h h3 h4 h5 h6
  simp only [List.nil_append] at h h3 h4 h5 h6 ⊢
  subst h3
  have hm : m = n := by
    by_cases hle : n ≤ (r.data.take m).length
    · simp at hle; omega
    · rw [if_neg hle] at h
      cases e with
      | none => exact h6 rfl
      | some e => simp at h
  subst hm
  simp [h2, h4]

theorem Dec.AllErr.runR {α : Type} {P : Err → Prop} {p : Dec (α × Option Err)} (h : p.AllErr false P) (hall : ∀ e, P e) (r : Reader) :
    ∃ a e r', p.runR r = .ok (a, some e) r' := by
  induction p generalizing r with
  | ret a =>
    obtain ⟨a, _ | e⟩ := a
    · exact h.elim
    · exact ⟨a, e, r, rfl⟩
  | panic w => exact h.elim
  | diverge => exact h.elim
  | read n k ih =>
    obtain ⟨h1, h2⟩ := h
    simp only [Dec.runR]
    rcases hr : r.readFull n with ⟨b, c, e, r'⟩
    cases e with
    | none => exact ih _ _ _ (h1 _ _) _
    | some e => exact ih _ _ _ (h2 _ _ _ (hall e)) _

/-- A strict function that returns a nil error over a possibly faulty reader met no fault that cost it data: the result is the one
of the plain stream. -/
theorem Dec.StrictP.faulty {α : Type} {P : Err → Prop} {p : Dec (α × Option Err)} (h : p.StrictP false P) (hall : ∀ e, P e) (fin : Err)
    (r : Reader) (a : α) (r' : Reader) (hr : p.runR r = .ok (a, none) r') : p.runE fin r.data = .ok (a, none) r'.data := by
  induction p generalizing r with
  | ret b =>
    simp [Dec.runR] at hr
    simp [Dec.runE, hr]
  | panic w => simp [Dec.runR] at hr
  | diverge => simp [Dec.runR] at hr
  | read n k ih =>
    obtain ⟨h0, h1, h2⟩ := h
    simp only [Dec.runR] at hr
    have hany := r.readFull_any n
    rcases hf : r.readFull n with ⟨b, c, e, r1⟩
    rw [hf] at hr hany
    simp only at hr hany
    cases e with
    | some e =>
      obtain ⟨a', e', r2, h'⟩ := (h1 b c e (hall e)).runR hall r1
      rw [h'] at hr
      simp at hr
    | none =>
      obtain ⟨g1, g2, g3, g4⟩ := hany rfl
      subst g2 g3
      simp only [Dec.runE, g1, if_true]
      rw [← g4]
      exact ih _ _ _ (h2 _ (by simp; omega)) r1 hr

end Verif
