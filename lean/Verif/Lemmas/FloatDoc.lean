import Verif.Lemmas.FloatNearest
import Verif.Spec.AbiJson
/-! # The JSON numbers of floats -/
namespace Verif

theorem between_mid (even : Bool) (lo x y z hi : Nat) (hx : between even lo x hi = true) (hz : between even lo z hi = true) (h1 : x ≤ y) (h2 : y ≤ z) : between even lo y hi = true := by
  cases even <;> simp [between] at * <;> omega

/-- No multiple of a larger power of ten is in the interval. -/
theorem shortestFrom_max (even : Bool) (lo x hi start : Nat) (h : between even lo x hi = true) (J : Nat) (h1 : (shortestFrom even lo x hi start).2 < J) (h2 : J ≤ start) (k : Nat) :
    between even lo (k * 10 ^ J) hi = false := by
  induction start with
  | zero => omega
  | succ j ih =>
    rw [shortestFrom] at h1
    split at h1 <;> try (simp only at h1; omega)
    rename_i n1 n2
    rcases Nat.lt_or_ge J (j + 1) with hJ | hJ
    · exact ih h1 (by omega)
    · have : J = j + 1 := by omega
      subst this
      rw [← Bool.not_eq_true] at n1 n2 ⊢
      intro hk
      have hp : 0 < 10 ^ (j + 1) := Nat.pow_pos (by decide)
      generalize 10 ^ (j + 1) = p at *
      have hx1 : x / p * p ≤ x := Nat.div_mul_le_self x p
      have hx2 : x < (x / p + 1) * p := by rw [Nat.mul_comm]; exact Nat.lt_mul_div_succ x hp
      rw [between_iff] at h hk
      rcases Nat.lt_or_ge k (x / p + 1) with hkx | hkx
      · refine n1 ((between_iff _ _ _ _).2 ⟨?_, ?_⟩)
        · have := Nat.mul_le_mul_right p (show k ≤ x / p by omega)
          rcases hk.1 with h' | h'
          · exact .inl (by omega)
          · rcases Nat.lt_or_ge lo (x / p * p) with h'' | h''
            · exact .inl h''
            · exact .inr ⟨h'.1, by omega⟩
        · rcases h.2 with h' | h'
          · exact .inl (by omega)
          · rcases Nat.lt_or_ge (x / p * p) hi with h'' | h''
            · exact .inl h''
            · exact .inr ⟨h'.1, by omega⟩
      · refine n2 ((between_iff _ _ _ _).2 ⟨?_, ?_⟩)
        · rcases h.1 with h' | h' <;> exact .inl (by omega)
        · have := Nat.mul_le_mul_right p hkx
          rcases hk.2 with h' | h'
          · exact .inl (by omega)
          · rcases Nat.lt_or_ge ((x / p + 1) * p) hi with h'' | h''
            · exact .inl h''
            · exact .inr ⟨h'.1, by omega⟩

/-- None of the multiples of the same power of ten in the interval is nearer. -/
theorem shortestFrom_near (even : Bool) (lo x hi start : Nat) (h : between even lo x hi = true) (k : Nat) (hk : between even lo (k * 10 ^ (shortestFrom even lo x hi start).2) hi = true) :
    distNat ((shortestFrom even lo x hi start).1 * 10 ^ (shortestFrom even lo x hi start).2) x ≤ distNat (k * 10 ^ (shortestFrom even lo x hi start).2) x := by
  induction start with
  | zero =>
    show distNat (x * 10 ^ 0) x ≤ _
    unfold distNat; omega
  | succ j ih =>
    rw [shortestFrom] at hk ⊢
    have hp : 0 < 10 ^ (j + 1) := Nat.pow_pos (by decide)
    split at hk
    · rename_i n1 n2
      simp only [n1, n2] at hk ⊢
      generalize 10 ^ (j + 1) = p at *
      have hdm := Nat.div_add_mod x p
      have hml := Nat.mod_lt x hp
      have e1 : (x / p + 1) * p = p * (x / p) + p := by ring
      have e0 : x / p * p = p * (x / p) := Nat.mul_comm _ _
      have side : k * p ≤ p * (x / p) ∨ p * (x / p) + p ≤ k * p := by
        rcases Nat.lt_or_ge k (x / p + 1) with h | h
        · exact .inl (e0 ▸ Nat.mul_le_mul_right p (show k ≤ x / p by omega))
        · exact .inr (e1 ▸ Nat.mul_le_mul_right p h)
      rcases roundDiv_cases x p with ⟨e, he⟩ | ⟨e, he⟩ <;> rw [e]
      · rw [e0]; unfold distNat; omega
      · rw [e1]; unfold distNat; omega
    · rename_i n1 n2
      simp only [n1, n2] at hk ⊢
      generalize 10 ^ (j + 1) = p at *
      have hx1 : x / p * p ≤ x := Nat.div_mul_le_self x p
      have hx2 : x < (x / p + 1) * p := by rw [Nat.mul_comm]; exact Nat.lt_mul_div_succ x hp
      rcases Nat.lt_or_ge k (x / p + 1) with h' | h'
      · have := Nat.mul_le_mul_right p (show k ≤ x / p by omega)
        unfold distNat; omega
      · exfalso
        have := Nat.mul_le_mul_right p h'
        rw [between_mid _ _ _ _ _ _ h hk (Nat.le_of_lt hx2) this] at n2
        cases n2
    · rename_i n1 n2
      simp only [n1, n2] at hk ⊢
      generalize 10 ^ (j + 1) = p at *
      have hx1 : x / p * p ≤ x := Nat.div_mul_le_self x p
      have hx2 : x < (x / p + 1) * p := by rw [Nat.mul_comm]; exact Nat.lt_mul_div_succ x hp
      rcases Nat.lt_or_ge k (x / p + 1) with h' | h'
      · exfalso
        have := Nat.mul_le_mul_right p (show k ≤ x / p by omega)
        rw [between_mid _ _ _ _ _ _ hk h this hx1] at n1
        cases n1
      · have := Nat.mul_le_mul_right p h'
        unfold distNat; omega
    · rename_i n1 n2
      exact ih hk

variable {f : FloatFmt}

/-- A decimal number that is rounded to a magnitude is between the middles. -/
theorem ofDecimal_in (hf : 0 < f.mant) (n : Nat) (e : Int) (b t : Nat) (hb : 0 < b) (he : 0 ≤ e + (f.shift + 1 + t : Nat)) (h : f.ofDecimal n e = b) :
    between (b % 2 == 0) ((f.scaled (b - 1) + f.scaled b) * 5 ^ (f.shift + 1) * 10 ^ t) (n * 10 ^ (e + (f.shift + 1 + t : Nat)).toNat)
      ((f.scaled b + f.scaled (b + 1)) * 5 ^ (f.shift + 1) * 10 ^ t) = true := by
  rw [ofDecimal_eq f hf n e (f.shift + 1 + t) he] at h
  generalize n * 10 ^ (e + (f.shift + 1 + t : Nat)).toNat = y at *
  have hd : 0 < 10 ^ (f.shift + 1 + t) := Nat.pow_pos (by decide)
  have hr := round_near f hf (y * 2 ^ f.shift) _ hd
  rw [h] at hr
  have h2p := two_pow_pos (f.shift + 1)
  have hn : 2 * (y * 2 ^ f.shift) = y * 2 ^ (f.shift + 1) := by rw [Nat.pow_succ]; ring
  have hm : ∀ a, a * 10 ^ (f.shift + 1 + t) = a * 5 ^ (f.shift + 1) * 10 ^ t * 2 ^ (f.shift + 1) := fun a => by
    rw [Nat.pow_add, show (10 : Nat) ^ (f.shift + 1) = 2 ^ (f.shift + 1) * 5 ^ (f.shift + 1) by rw [← Nat.mul_pow]]; ring
  have lo := hr (b - 1)
  have hi := hr (b + 1)
  have m1 := Nat.mul_lt_mul_of_pos_right (scaled_mono f (show b - 1 < b by omega)) hd
  have m2 := Nat.mul_lt_mul_of_pos_right (scaled_mono f (show b < b + 1 by omega)) hd
  have l1 : (f.scaled (b - 1) + f.scaled b) * 10 ^ (f.shift + 1 + t) ≤ 2 * (y * 2 ^ f.shift) ∧ ((f.scaled (b - 1) + f.scaled b) * 10 ^ (f.shift + 1 + t) = 2 * (y * 2 ^ f.shift) → b % 2 = 0) := by
    rw [Nat.add_mul]
    refine ⟨by have := lo.1; unfold distNat at this; omega, fun e => lo.2 (by omega) (by unfold distNat; omega)⟩
  have l2 : 2 * (y * 2 ^ f.shift) ≤ (f.scaled b + f.scaled (b + 1)) * 10 ^ (f.shift + 1 + t) ∧ (2 * (y * 2 ^ f.shift) = (f.scaled b + f.scaled (b + 1)) * 10 ^ (f.shift + 1 + t) → b % 2 = 0) := by
    rw [Nat.add_mul]
    refine ⟨by have := hi.1; unfold distNat at this; omega, fun e => hi.2 (by omega) (by unfold distNat; omega)⟩
  rw [hn, hm] at l1 l2
  have l1' := l1.1
  have l2' := l2.1
  rw [Nat.mul_le_mul_right_iff h2p] at l1' l2'
  have q1 := l1.2
  have q2 := l2.2
  rw [Nat.mul_right_cancel_iff h2p] at q1 q2
  rw [between_iff]
  constructor
  · rcases Nat.lt_or_eq_of_le l1' with h' | h'
    · exact .inl h'
    · exact .inr ⟨by simpa using q1 h', h'⟩
  · rcases Nat.lt_or_eq_of_le l2' with h' | h'
    · exact .inl h'
    · exact .inr ⟨by simpa using q2 h', h'⟩

theorem between_scale (even : Bool) (lo x hi k : Nat) (hk : 0 < k) : between even (lo * k) (x * k) (hi * k) = between even lo x hi := by
  rw [Bool.eq_iff_iff, between_iff, between_iff, Nat.mul_lt_mul_right hk, Nat.mul_right_cancel_iff hk, Nat.mul_lt_mul_right hk, Nat.mul_right_cancel_iff hk]

/-- What is in the interval of a float is positive and less than the first position that is tried. -/
theorem between_small (hf : f.Ok) (b : Nat) (hb : 0 < b) (hbi : b < f.inf) (y : Nat)
    (h : between (b % 2 == 0) ((f.scaled (b - 1) + f.scaled b) * 5 ^ (f.shift + 1)) y ((f.scaled b + f.scaled (b + 1)) * 5 ^ (f.shift + 1)) = true) : 0 < y ∧ y < 10 ^ (2 * (f.shift + 1)) := by
  rw [between_iff] at h
  have h2 : (f.scaled b + f.scaled (b + 1)) * 5 ^ (f.shift + 1) ≤ 2 * f.scaled f.inf * 5 ^ (f.shift + 1) :=
    Nat.mul_le_mul_right _ (by have := scaled_le f (show b ≤ f.inf by omega); have := scaled_le f (show b + 1 ≤ f.inf by omega); omega)
  have h3 := hf.size
  have := scaled_mono f (show b - 1 < b by omega)
  have h5 : 0 < 5 ^ (f.shift + 1) := Nat.pow_pos (by decide)
  have : 0 < (f.scaled (b - 1) + f.scaled b) * 5 ^ (f.shift + 1) := Nat.mul_pos (by omega) h5
  omega

/-- No decimal number that is rounded to the magnitude has fewer digits. -/
theorem shortest_min (hf : f.Ok) (b : Nat) (hb : 0 < b) (hbi : b < f.inf) (n : Nat) (e : Int) (d : Nat) (h : f.ofDecimal n e = b) (hn : n < 10 ^ d) : (f.shortest b).1 < 10 ^ d := by
  have hx := float_between f b hb
  have hin := shortestFrom_in _ _ _ _ (2 * (f.shift + 1)) hx
  have hmax := shortestFrom_max _ _ _ _ (2 * (f.shift + 1)) hx
  change between _ _ ((f.shortest b).1 * 10 ^ (f.shortest b).2) _ = true ∧ (f.shortest b).2 ≤ _ at hin
  change ∀ J, (f.shortest b).2 < J → _ at hmax
  obtain ⟨hin, hj⟩ := hin
  generalize f.shortest b = cj at *
  obtain ⟨c, j⟩ := cj
  dsimp only at *
  -- no multiple of a larger power of ten at all
  have hmax' : ∀ J, j < J → ∀ k, between (b % 2 == 0) ((f.scaled (b - 1) + f.scaled b) * 5 ^ (f.shift + 1)) (k * 10 ^ J) ((f.scaled b + f.scaled (b + 1)) * 5 ^ (f.shift + 1)) = true → False := by
    intro J hJ k hk
    rcases Nat.lt_or_ge (2 * (f.shift + 1)) J with h' | h'
    · obtain ⟨s1, s2⟩ := between_small hf b hb hbi _ hk
      have hk0 : 0 < k := Nat.pos_of_mul_pos_right s1
      have h1 : 10 ^ (2 * (f.shift + 1)) ≤ 10 ^ J := Nat.pow_le_pow_right (by decide) (by omega)
      have h2 : 10 ^ J ≤ k * 10 ^ J := Nat.le_mul_of_pos_left _ hk0
      omega
    · rw [hmax J hJ h' k] at hk; cases hk
  by_contra hc
  have hc : 10 ^ d ≤ c := by omega
  obtain ⟨t, ht⟩ : ∃ t : Nat, 0 ≤ e + (f.shift + 1 + t : Nat) := ⟨(-e).toNat, by omega⟩
  have hy := ofDecimal_in hf.mant n e b t hb ht h
  have h10 : 0 < 10 ^ t := Nat.pow_pos (by decide)
  generalize hE : (e + (f.shift + 1 + t : Nat)).toNat = E at hy
  have hin' := hin
  rw [← between_scale _ _ _ _ _ h10] at hin'
  rcases Nat.lt_or_ge (j + t) E with hJ | hJ
  · -- its last digit is before the place
    obtain ⟨m, hm⟩ := Nat.exists_eq_add_of_lt hJ
    rw [show E = (j + 1 + m) + t by omega, Nat.pow_add 10 (j + 1 + m) t, ← Nat.mul_assoc n, between_scale _ _ _ _ _ h10] at hy
    exact hmax' _ (by omega) n hy
  · -- it is below a power of ten that is not above c
    have h1 : n * 10 ^ E ≤ 10 ^ (d + j) * 10 ^ t := by
      calc n * 10 ^ E ≤ 10 ^ d * 10 ^ (j + t) := Nat.mul_le_mul (by omega) (Nat.pow_le_pow_right (by decide) hJ)
        _ = _ := by rw [← Nat.pow_add, ← Nat.pow_add, Nat.add_assoc]
    have h2 : 10 ^ (d + j) ≤ c * 10 ^ j := by rw [Nat.pow_add]; exact Nat.mul_le_mul_right _ hc
    have h3 := between_mid _ _ _ _ _ _ hy hin' h1 (Nat.mul_le_mul_right _ h2)
    rw [between_scale _ _ _ _ _ h10] at h3
    rcases Nat.eq_zero_or_pos d with rfl | hd0
    · have : n = 0 := by simpa using hn
      subst this
      rw [Nat.zero_mul] at hy
      rw [ofDecimal_zero f hf.mant] at h
      omega
    · exact hmax' (d + j) (by omega) 1 (by rw [Nat.one_mul]; exact h3)

/-! ## The document -/

theorem tenTo_zeros (z : Nat) (e : Int) : (10 ^ z : Nat) * tenTo e = tenTo (e + z) := by
  have h10 : (10 : Rat) ≠ 0 := by norm_num
  unfold tenTo
  split
  · rename_i h
    rw [if_pos (by omega), show (e + z).toNat = z + e.toNat by omega]
    push_cast
    rw [pow_add]
  · rename_i h
    split
    · rename_i h'
      rw [show z = (-e).toNat + (e + z).toNat by omega]
      rw [show (e + ((-e).toNat + (e + z).toNat : Nat)).toNat = (e + z).toNat by omega]
      push_cast
      rw [pow_add]
      field_simp
    · rename_i h'
      rw [show (-e).toNat = z + (-(e + z)).toNat by omega]
      push_cast
      rw [pow_add]
      field_simp
theorem tenTo_pos (e : Int) : 0 < tenTo e := by
  unfold tenTo
  split <;> positivity
/-- The value of the digits at a place, in the unit used to find them -/
theorem tenTo_unit (c j s : Nat) : (c : Rat) * tenTo (j - (s : Nat)) = (c * 10 ^ j : Nat) / (10 ^ s : Nat) := by
  have h := tenTo_zeros j (-(s : Int))
  rw [show -(s : Int) + j = j - s by omega] at h
  have h' : tenTo (-(s : Int)) = 1 / (10 ^ s : Nat) := by
    unfold tenTo
    split
    · have : s = 0 := by omega
      subst this; simp
    · rw [show (- -(s : Int)).toNat = s by omega]
  rw [← h, h']
  push_cast
  ring
theorem mag_unit (b : Nat) : f.mag b = (2 * f.scaled b * 5 ^ (f.shift + 1) : Nat) / (10 ^ (f.shift + 1) : Nat) := by
  unfold FloatFmt.mag
  rw [show (10 : Nat) ^ (f.shift + 1) = 2 ^ f.shift * 2 * 5 ^ (f.shift + 1) by rw [← Nat.pow_succ, ← Nat.mul_pow]]
  push_cast
  field_simp

theorem sign_mul (neg : Bool) (q : Rat) : (if neg then -1 else 1) * q = if neg then -q else q := by cases neg <;> simp

/-- json.Marshal of a finite float -/
theorem floatDoc (hf : f.Ok) (neg : Bool) (b : Nat) (hb : b < f.inf) : FloatDoc f.mant f.exp ((if neg then f.sign else 0) + b) (.num (f.text ((if neg then f.sign else 0) + b))) := by
  have hlt := Nat.lt_trans hb (inf_le_sign f)
  have hs : 0 < f.sign := two_pow_pos _
  have hval := ieee_value hf.exp neg b hlt
  have habs : abs (ieeeValue f.mant f.exp ((if neg then f.sign else 0) + b)) = f.mag b := by
    rw [hval]; cases neg <;> simp [abs_of_nonneg (mag_nonneg (f := f) b)]
  obtain ⟨ip, frac, fp, ex, x, g1, g2, g3, g4, g5, g6, g7, _⟩ := magText_parts hf b hb
  have htext := floatText_split f neg b hlt
  rw [g1] at htext
  have hhead : (f.text ((if neg then f.sign else 0) + b)).head? = some 45 ↔ neg = true := by
    rw [htext]
    cases neg with
    | true => simp [signText]
    | false =>
      obtain ⟨c, ip', rfl⟩ := List.exists_cons_of_ne_nil g2.2.1
      have := g2.1 c (by simp)
      simp only [signText, Bool.false_eq_true, if_false, iff_false]
      intro h
      simp at h
      rw [h] at this
      exact absurd this (by decide)
  have hsb : (((if neg then f.sign else 0) + b) / 2 ^ (f.mant + f.exp) % 2 = 1) ↔ neg = true := by
    change (((if neg then f.sign else 0) + b) / f.sign % 2 = 1) ↔ _
    cases neg with
    | true => rw [show (if true = true then f.sign else 0) = f.sign from rfl, Nat.add_div_left b hs, Nat.div_eq_of_lt hlt]; simp
    | false => rw [show (if false = true then f.sign else 0) = 0 from rfl, Nat.zero_add, Nat.div_eq_of_lt hlt]; simp
  have hnum : NumValue (f.text ((if neg then f.sign else 0) + b)) ((if neg then -1 else 1) * (decValue (ip ++ fp) * tenTo (x - fp.length))) := by
    refine ⟨signText neg, ip, frac, fp, ex, x, htext, by cases neg; exacts [.inl rfl, .inr rfl], int_lit g2, ?_, ?_, ?_⟩
    · rcases g3.2 with h | h
      · exact .inl h
      · exact .inr ⟨⟨h.2, fun c hc => digit_range c (g3.1 c hc)⟩, h.1⟩
    · cases g4 with
      | none => exact .inl ⟨rfl, rfl⟩
      | plain c ds h h1 h2 => exact .inr ⟨c, [], ds, h, .inl rfl, ⟨h2, fun c hc => digit_range c (h1 c hc)⟩, rfl, rfl⟩
      | plus c ds h h1 h2 => exact .inr ⟨c, asc "+", ds, h, .inr (.inl rfl), ⟨h2, fun c hc => digit_range c (h1 c hc)⟩, rfl, rfl⟩
      | minus c ds h h1 h2 => exact .inr ⟨c, asc "-", ds, h, .inr (.inr rfl), ⟨h2, fun c hc => digit_range c (h1 c hc)⟩, rfl, rfl⟩
    · cases neg
      · rw [if_neg (by decide), if_neg (by decide)]; ring
      · rw [if_pos rfl, if_pos (by decide)]; ring
  by_cases hb0 : b = 0
  · subst hb0
    rw [g6 rfl] at hnum
    refine ⟨_, neg, 0, 0, rfl, hhead, hsb, by simpa using hnum, ?_, fun _ _ d _ _ => Nat.pow_pos (by decide), fun n _ => ?_⟩
    · have := ofDecimal_nearest (f := f) hf.mant hf.exp neg 0 0 (by rw [ofDecimal_zero f hf.mant]; exact hb)
      rw [ofDecimal_zero f hf.mant] at this
      cases neg <;> simpa using this
    · rw [habs, mag_zero]
      simp
      positivity
  · obtain ⟨z, hz1, hz2⟩ := g7 hb0
    have hb' : 0 < b := by omega
    have hback := shortest_back f hf.mant b hb'
    have hq : (decValue (ip ++ fp) : Rat) * tenTo (x - fp.length) = (f.shortest b).1 * tenTo ((f.shortest b).2 - (f.shift + 1 : Nat)) := by
      rw [hz1, ← hz2, ← tenTo_zeros]; push_cast; ring
    rw [hq, ← mul_assoc] at hnum
    refine ⟨_, neg, (f.shortest b).1, (f.shortest b).2 - (f.shift + 1 : Nat), rfl, hhead, hsb, hnum, ?_, ?_, ?_⟩
    · have := ofDecimal_nearest (f := f) hf.mant hf.exp neg (f.shortest b).1 ((f.shortest b).2 - (f.shift + 1 : Nat)) (by rw [hback]; exact hb)
      rw [hback] at this
      rw [mul_assoc, sign_mul]
      exact this
    · intro n e d h hn
      rw [mul_assoc, sign_mul] at h
      obtain ⟨_, h2⟩ := nearest_decimal hf.mant hf.exp n e neg _ h
      rw [hval] at h2
      have : f.ofDecimal n e = b := by
        cases neg
        · exact (mag_inj h2).symm
        · simp only [if_true] at h2
          exact (mag_inj (neg_injective h2)).symm
      exact shortest_min hf b hb' hb n e d this hn
    · intro n h
      rw [mul_assoc, sign_mul] at h
      obtain ⟨_, h2⟩ := nearest_decimal hf.mant hf.exp n _ neg _ h
      rw [hval] at h2
      have hn : f.ofDecimal n ((f.shortest b).2 - (f.shift + 1 : Nat)) = b := by
        cases neg
        · exact (mag_inj h2).symm
        · simp only [if_true] at h2
          exact (mag_inj (neg_injective h2)).symm
      have hin := ofDecimal_in hf.mant n _ b 0 hb' (by omega) hn
      rw [Nat.pow_zero, Nat.mul_one, Nat.mul_one, show ((f.shortest b).2 - (f.shift + 1 : Nat) + (f.shift + 1 + 0 : Nat) : Int).toNat = (f.shortest b).2 by omega] at hin
      have hd := shortestFrom_near _ _ _ _ (2 * (f.shift + 1)) (float_between f b hb') n hin
      change distNat ((f.shortest b).1 * 10 ^ (f.shortest b).2) (2 * f.scaled b * 5 ^ (f.shift + 1)) ≤ distNat (n * 10 ^ (f.shortest b).2) (2 * f.scaled b * 5 ^ (f.shift + 1)) at hd
      have hdist : ∀ c : Nat, abs ((c : Rat) * tenTo ((f.shortest b).2 - (f.shift + 1 : Nat)) - f.mag b) =
          (distNat (c * 10 ^ (f.shortest b).2) (2 * f.scaled b * 5 ^ (f.shift + 1)) : Nat) / (10 ^ (f.shift + 1) : Nat) := by
        intro c
        rw [tenTo_unit, mag_unit, ← sub_div, abs_div, abs_of_pos (show (0 : Rat) < ((10 ^ (f.shift + 1) : Nat) : Rat) by positivity)]
        congr 1
        generalize c * 10 ^ (f.shortest b).2 = u
        generalize 2 * f.scaled b * 5 ^ (f.shift + 1) = v
        unfold distNat
        rcases Nat.le_total u v with h | h
        · rw [Nat.sub_eq_zero_of_le h, Nat.zero_add, Nat.cast_sub h, abs_of_nonpos (by have : (u : Rat) ≤ v := by exact_mod_cast h
                                                                                       linarith)]
          ring
        · rw [Nat.sub_eq_zero_of_le h, Nat.add_zero, Nat.cast_sub h, abs_of_nonneg (by have : (v : Rat) ≤ u := by exact_mod_cast h
                                                                                       linarith)]
      rw [habs, hdist, hdist]
      exact div_le_div_of_nonneg_right (by exact_mod_cast hd) (by positivity)

theorem finite_split {bits : Nat} (h : IeeeFinite f.mant f.exp bits) : ∃ (neg : Bool) (b : Nat), bits = (if neg then f.sign else 0) + b ∧ b < f.inf := by
  obtain ⟨neg, b, rfl, hb⟩ := bits_split (f := f) bits h.1
  exact ⟨neg, b, rfl, (finite_bits neg b hb).1 h⟩

theorem f32_text {v : UInt32} (h : Finite32 v) : F32Doc v (.num (binary32.text v.toNat)) ∧ NumLit (binary32.text v.toNat) := by
  obtain ⟨neg, b, e, hb⟩ := finite_split (f := binary32) h
  have h1 := floatDoc binary32_ok neg b hb
  have h2 := floatText_lit binary32_ok neg b hb
  rw [← e] at h1 h2
  exact ⟨h1, h2⟩
theorem f64_text {v : UInt64} (h : Finite64 v) : F64Doc v (.num (binary64.text v.toNat)) ∧ NumLit (binary64.text v.toNat) ∧ parseFloat (binary64.text v.toNat) = some v := by
  obtain ⟨neg, b, e, hb⟩ := finite_split (f := binary64) h
  have h1 := floatDoc binary64_ok neg b hb
  have h2 := floatText_lit binary64_ok neg b hb
  have h3 := floatText_back binary64_ok neg b hb
  rw [← e] at h1 h2 h3
  refine ⟨h1, h2, ?_⟩
  rw [parseFloat, h3, Option.map_some]
  exact congrArg some UInt64.ofNat_toNat

/-- Which floats are written with an exponent -/
theorem floatText_exp_value (hf : f.Ok) {bits lo hi : Nat} (h : IeeeFinite f.mant f.exp bits) (hlo : Nearest f.mant f.exp (1 / 10 ^ 6) lo) (hhi : Nearest f.mant f.exp (10 ^ 21) hi) :
    101 ∈ f.text bits ↔ ieeeValue f.mant f.exp bits ≠ 0 ∧ (|ieeeValue f.mant f.exp bits| < ieeeValue f.mant f.exp lo ∨ ieeeValue f.mant f.exp hi ≤ |ieeeValue f.mant f.exp bits|) := by
  obtain ⟨neg, b, rfl, hb⟩ := finite_split h
  have hlt := Nat.lt_trans hb (inf_le_sign f)
  have hval := ieee_value hf.exp neg b hlt
  have habs : |ieeeValue f.mant f.exp ((if neg then f.sign else 0) + b)| = f.mag b := by
    rw [hval]; cases neg <;> simp [abs_of_nonneg (mag_nonneg (f := f) b)]
  have hzero : ieeeValue f.mant f.exp ((if neg then f.sign else 0) + b) ≠ 0 ↔ b ≠ 0 := by
    rw [← abs_ne_zero, habs]
    refine not_congr ⟨fun h => mag_inj (h.trans mag_zero.symm), fun h => by rw [h, mag_zero]⟩
  have e1 : (1 / 10 ^ 6 : Rat) = if false = true then -((1 : Nat) * tenTo (-6)) else (1 : Nat) * tenTo (-6) := by decide +kernel
  have e2 : (10 ^ 21 : Rat) = if false = true then -((1 : Nat) * tenTo 21) else (1 : Nat) * tenTo 21 := by decide +kernel
  rw [e1] at hlo
  rw [e2] at hhi
  have v1 := (nearest_decimal hf.mant hf.exp _ _ _ _ hlo).2
  have v2 := (nearest_decimal hf.mant hf.exp _ _ _ _ hhi).2
  rw [if_neg (by decide)] at v1 v2
  have hmono : StrictMono f.mag := fun a b h => mag_mono h
  rw [floatText_exp hf neg b hb, hzero, habs, v1, v2, hmono.lt_iff_lt, hmono.le_iff_le]

end Verif
