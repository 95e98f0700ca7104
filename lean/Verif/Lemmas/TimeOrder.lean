import Verif.Lemmas.TimeUnix
import Verif.Lemmas.Text
/-! # Time stamps compare as the instants do -/
namespace Verif

/-! ### Text of a fixed width -/

theorem append_lt_append {a b : Bytes} (h : a < b) (hl : a.length = b.length) (x y : Bytes) : a ++ x < b ++ y := by
  induction a generalizing b with
  | nil =>
    have : b = [] := List.eq_nil_of_length_eq_zero hl.symm
    subst this; simp at h
  | cons c a ih =>
    cases b with
    | nil => simp at hl
    | cons d b =>
      simp only [List.length_cons, Nat.add_right_cancel_iff] at hl
      rw [List.cons_append, List.cons_append, List.cons_lt_cons_iff]
      rcases List.cons_lt_cons_iff.mp h with h | ⟨rfl, h'⟩
      · exact .inl h
      · exact .inr ⟨rfl, ih h' hl⟩

theorem append_lt_left (a : Bytes) {x y : Bytes} (h : x < y) : a ++ x < a ++ y := by
  induction a with
  | nil => exact h
  | cons c a ih => rw [List.cons_append, List.cons_append, List.cons_lt_cons_iff]; exact .inr ⟨rfl, ih⟩

theorem Digits.lt {w n m : Nat} {a b : Bytes} (ha : Digits w n a) (hb : Digits w m b) (h : n < m) (x y : Bytes) : a ++ x < b ++ y := by
  have hl : a.length = b.length := ha.1.trans hb.1.symm
  refine append_lt_append ((digits_lt a b ha.2.1 hb.2.1 hl).2 ?_) hl x y
  have h1 : decAcc 0 a = n := ha.2.2
  have h2 : decAcc 0 b = m := hb.2.2
  omega

theorem Digits.unique {w n : Nat} {a b : Bytes} (ha : Digits w n a) (hb : Digits w n b) : a = b := by
  have hl : a.length = b.length := ha.1.trans hb.1.symm
  have h1 : decAcc 0 a = n := ha.2.2
  have h2 : decAcc 0 b = n := hb.2.2
  have l1 : ¬a < b := fun h => by have := (digits_lt a b ha.2.1 hb.2.1 hl).1 h; omega
  have l2 : ¬b < a := fun h => by have := (digits_lt b a hb.2.1 ha.2.1 hl.symm).1 h; omega
  exact List.le_antisymm (List.not_lt.mp l2) (List.not_lt.mp l1)

/-- One piece of digits and what follows it. -/
theorem Digits.lex {w n m : Nat} {a b x y : Bytes} (ha : Digits w n a) (hb : Digits w m b) (h : n < m ∨ n = m ∧ x < y) : a ++ x < b ++ y := by
  rcases h with h | ⟨rfl, h⟩
  · exact ha.lt hb h x y
  · rw [ha.unique hb]; exact append_lt_left b h

theorem sep_lt (c : UInt8) {x y : Bytes} (h : x < y) : [c] ++ x < [c] ++ y := append_lt_left [c] h

/-! ### Days -/

/-- the order of year, then month, then day -/
def Day.Before (d e : Day) : Prop :=
  d.year < e.year ∨ d.year = e.year ∧ (d.month < e.month ∨ d.month = e.month ∧ d.day < e.day)

theorem Day.Before.trans {d e f : Day} (h : d.Before e) (h' : e.Before f) : d.Before f := by
  unfold Day.Before at *; omega

theorem Day.before_tomorrow (d : Day) : d.Before d.tomorrow := by
  unfold Day.Before Day.tomorrow
  split
  · exact .inr ⟨rfl, .inr ⟨rfl, by dsimp only; omega⟩⟩
  · split
    · exact .inr ⟨rfl, .inl (by dsimp only; omega)⟩
    · exact .inl (by dsimp only; omega)

theorem IsDay.before_aux (k : Nat) {n : Int} {d e : Day} (hd : IsDay n d) (he : IsDay (n + (k + 1 : Nat)) e) : d.Before e := by
  induction k generalizing e with
  | zero => rw [he.unique (hd.next.of_eq (by omega))]; exact d.before_tomorrow
  | succ k ih =>
    obtain ⟨f, hf⟩ := exists_isDay (n + (k + 1 : Nat))
    rw [he.unique (hf.next.of_eq (by omega))]
    exact (ih hf).trans f.before_tomorrow

theorem IsDay.before {n m : Int} {d e : Day} (hd : IsDay n d) (he : IsDay m e) (h : n < m) : d.Before e :=
  IsDay.before_aux (m - n - 1).toNat hd (he.of_eq (by omega))

/-! ### Stamps -/

theorem stamp_lt {s s' : Bytes} {d d' : Day} {t t' : Nat} (hs : StampText s d t) (hs' : StampText s' d' t')
    (h : d.Before d' ∨ d = d' ∧ t < t') (x y : Bytes) : s ++ x < s' ++ y := by
  obtain ⟨Y, M, D, H, MI, S, rfl, h0, h1, h2, h3, h4, h5, h6⟩ := hs
  obtain ⟨Y', M', D', H', MI', S', rfl, g0, g1, g2, g3, g4, g5, g6⟩ := hs'
  simp only [List.append_assoc]
  have clock : d = d' → t < t' → H ++ ([58] ++ (MI ++ ([58] ++ (S ++ x)))) < H' ++ ([58] ++ (MI' ++ ([58] ++ (S' ++ y)))) := by
    intro _ ht
    by_cases c1 : t / 3600 < t' / 3600
    · exact h4.lex g4 (.inl c1)
    · refine h4.lex g4 (.inr ⟨by omega, sep_lt _ ?_⟩)
      by_cases c2 : t / 60 % 60 < t' / 60 % 60
      · exact h5.lex g5 (.inl c2)
      · refine h5.lex g5 (.inr ⟨by omega, sep_lt _ (h6.lex g6 (.inl (by omega)))⟩)
  rcases h with (h | ⟨he, h | ⟨he', h⟩⟩) | ⟨rfl, h⟩
  · exact h1.lex g1 (.inl (by omega))
  · exact h1.lex g1 (.inr ⟨by omega, sep_lt _ (h2.lex g2 (.inl h))⟩)
  · exact h1.lex g1 (.inr ⟨by omega, sep_lt _ (h2.lex g2 (.inr ⟨he', sep_lt _ (h3.lex g3 (.inl h))⟩))⟩)
  · exact h1.lex g1 (.inr ⟨rfl, sep_lt _ (h2.lex g2 (.inr ⟨rfl, sep_lt _ (h3.lex g3 (.inr ⟨rfl, sep_lt _ (clock rfl h)⟩))⟩))⟩)

theorem stamp_unique {s s' : Bytes} {d : Day} {t : Nat} (hs : StampText s d t) (hs' : StampText s' d t) : s = s' := by
  obtain ⟨Y, M, D, H, MI, S, rfl, h0, h1, h2, h3, h4, h5, h6⟩ := hs
  obtain ⟨Y', M', D', H', MI', S', rfl, g0, g1, g2, g3, g4, g5, g6⟩ := hs'
  rw [h1.unique g1, h2.unique g2, h3.unique g3, h4.unique g4, h5.unique g5, h6.unique g6]

theorem days_or (a b : Int) (h : a < b) : a / 86400 < b / 86400 ∨ a / 86400 = b / 86400 ∧ (a % 86400).toNat < (b % 86400).toNat := by omega

theorem stamps_lt {s s' : Bytes} {d d' : Day} {a b : Int} (hd : IsDay (a / 86400000) d) (hd' : IsDay (b / 86400000) d')
    (hs : StampText s d (a / 1000 % 86400).toNat) (hs' : StampText s' d' (b / 1000 % 86400).toNat) (h : a / 1000 < b / 1000) (x y : Bytes) :
    s ++ x < s' ++ y := by
  refine stamp_lt hs hs' ?_ x y
  rcases days_or _ _ h with h | ⟨h, h'⟩
  · exact .inl (hd.before hd' (by omega))
  · exact .inr ⟨hd.unique (hd'.of_eq (by omega)), h'⟩

theorem utc_milli_lt {a b : Int} {s s' : Bytes} (hs : UtcText true a s) (hs' : UtcText true b s') (h : a < b) : s < s' := by
  obtain ⟨d, st, f, hd, ht, rfl, hf⟩ := hs
  obtain ⟨d', st', f', hd', ht', rfl, hf'⟩ := hs'
  by_cases c : a / 1000 < b / 1000
  · exact stamps_lt hd hd' ht ht' c _ _
  · have c : a / 1000 = b / 1000 := by omega
    have e : d = d' := hd.unique (hd'.of_eq (by omega))
    subst e
    rw [← c] at ht'
    rw [stamp_unique ht ht']
    refine append_lt_left st' (List.cons_lt_cons_iff.mpr (.inr ⟨rfl, ?_⟩))
    have := hf.lt hf' (by omega) [] []
    rwa [List.append_nil, List.append_nil] at this

theorem utc_sec_lt {a b : Int} {s s' : Bytes} (hs : UtcText false a s) (hs' : UtcText false b s') (h : a / 1000 < b / 1000) : s < s' := by
  obtain ⟨d, st, f, hd, ht, rfl⟩ := hs
  obtain ⟨d', st', f', hd', ht', rfl⟩ := hs'
  have := stamps_lt hd hd' ht ht' h [] []
  rwa [List.append_nil, List.append_nil] at this

theorem utc_milli_unique {a : Int} {s s' : Bytes} (hs : UtcText true a s) (hs' : UtcText true a s') : s = s' := by
  obtain ⟨d, st, f, hd, ht, rfl, hf⟩ := hs
  obtain ⟨d', st', f', hd', ht', rfl, hf'⟩ := hs'
  have e : d = d' := hd.unique hd'
  subst e
  rw [stamp_unique ht ht', hf.unique hf']

end Verif
