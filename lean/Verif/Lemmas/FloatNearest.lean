import Verif.Lemmas.FloatPrint
import Verif.Spec.Float
import Mathlib.Tactic.FieldSimp
import Mathlib.Tactic.Positivity
import Mathlib.Algebra.Order.Field.Basic
import Mathlib.Algebra.Order.Field.Rat
/-! # Rounding as IEEE 754 describes it -/
namespace Verif

variable {f : FloatFmt}

/-- The value of a magnitude -/
def FloatFmt.mag (f : FloatFmt) (b : Nat) : Rat := (f.scaled b : Rat) / 2 ^ f.shift

theorem ieee_value (hx : 2 ≤ f.exp) (neg : Bool) (b : Nat) (hb : b < f.sign) :
    ieeeValue f.mant f.exp ((if neg then f.sign else 0) + b) = if neg then -f.mag b else f.mag b := by
  have hs : 0 < f.sign := two_pow_pos _
  have hsign : f.sign = 2 ^ f.mant * 2 ^ f.exp := by rw [FloatFmt.sign, Nat.pow_add]
  have hm : ((if neg then f.sign else 0) + b) % 2 ^ f.mant = b % 2 ^ f.mant := by
    cases neg with
    | true => rw [show (if true = true then f.sign else 0) = f.sign from rfl, hsign, Nat.mul_add_mod]
    | false => rw [show (if false = true then f.sign else 0) = 0 from rfl, Nat.zero_add]
  have hd : ((if neg then f.sign else 0) + b) / 2 ^ f.mant % 2 ^ f.exp = b / 2 ^ f.mant := by
    have hlt : b / 2 ^ f.mant < 2 ^ f.exp := by rw [Nat.div_lt_iff_lt_mul (two_pow_pos _), Nat.mul_comm, ← hsign]; exact hb
    cases neg with
    | true => rw [show (if true = true then f.sign else 0) = f.sign from rfl, hsign, Nat.mul_add_div (two_pow_pos _), Nat.add_mod_left, Nat.mod_eq_of_lt hlt]
    | false => rw [show (if false = true then f.sign else 0) = 0 from rfl, Nat.zero_add, Nat.mod_eq_of_lt hlt]
  have hsg : (((if neg then f.sign else 0) + b) / 2 ^ (f.mant + f.exp) % 2 = 1) ↔ neg = true := by
    change (((if neg then f.sign else 0) + b) / f.sign % 2 = 1) ↔ _
    cases neg with
    | true => rw [show (if true = true then f.sign else 0) = f.sign from rfl, Nat.add_div_left b hs, Nat.div_eq_of_lt hb]; simp
    | false => rw [show (if false = true then f.sign else 0) = 0 from rfl, Nat.zero_add, Nat.div_eq_of_lt hb]; simp
  have hsh : 2 ^ (f.exp - 1) - 1 + f.mant = f.shift + 1 := by
    have : 2 ≤ 2 ^ (f.exp - 1) := by
      calc 2 = 2 ^ 1 := rfl
        _ ≤ _ := Nat.pow_le_pow_right (by decide) (by omega)
    unfold FloatFmt.shift; omega
  have h2 : (2 : Rat) ^ f.shift ≠ 0 := by positivity
  have hmag : (if b / 2 ^ f.mant = 0 then 2 * ((b % 2 ^ f.mant : Nat) : Rat) / 2 ^ (f.shift + 1) else (2 ^ f.mant + ((b % 2 ^ f.mant : Nat) : Rat)) * 2 ^ (b / 2 ^ f.mant) / 2 ^ (f.shift + 1)) = f.mag b := by
    unfold FloatFmt.mag FloatFmt.scaled
    split
    · rename_i h
      have : b % 2 ^ f.mant = b := Nat.mod_eq_of_lt (by
        rcases Nat.div_eq_zero_iff.1 h with h | h
        · have := two_pow_pos f.mant; omega
        · exact h)
      rw [this, pow_succ]
      field_simp
    · rename_i h
      obtain ⟨k, hk⟩ := Nat.exists_eq_add_of_le (Nat.one_le_iff_ne_zero.2 h)
      rw [hk, show 1 + k - 1 = k by omega, pow_succ, show 1 + k = k + 1 by omega, pow_succ]
      push_cast
      field_simp
  unfold ieeeValue
  dsimp only
  rw [hm, hd, hsh, hmag]
  simp only [hsg]

/-- The distance of the value of a magnitude from n / d smallest floats -/
theorem mag_dist (b n d : Nat) (hd : 0 < d) : |f.mag b - (n : Rat) / d / 2 ^ f.shift| = (distNat (f.scaled b * d) n : Nat) / (d * 2 ^ f.shift) := by
  have h2 : (0 : Rat) < 2 ^ f.shift := by positivity
  have hd' : (0 : Rat) < d := by exact_mod_cast hd
  have e : f.mag b - (n : Rat) / d / 2 ^ f.shift = ((f.scaled b * d : Rat) - n) / (d * 2 ^ f.shift) := by
    unfold FloatFmt.mag; field_simp
  rw [e, abs_div, abs_of_pos (mul_pos hd' h2)]
  congr 1
  unfold distNat
  rcases Nat.le_total (f.scaled b * d) n with h | h
  · rw [Nat.sub_eq_zero_of_le h, Nat.zero_add, Nat.cast_sub h, abs_of_nonpos (by have : ((f.scaled b * d : Nat) : Rat) ≤ n := by exact_mod_cast h
                                                                                 push_cast at this; linarith)]
    push_cast; ring
  · rw [Nat.sub_eq_zero_of_le h, Nat.add_zero, Nat.cast_sub h, abs_of_nonneg (by have : (n : Rat) ≤ ((f.scaled b * d : Nat) : Rat) := by exact_mod_cast h
                                                                                 push_cast at this; linarith)]
    push_cast; ring
theorem mag_nonneg (b : Nat) : 0 ≤ f.mag b := by unfold FloatFmt.mag; positivity
theorem mag_mono {a b : Nat} (h : a < b) : f.mag a < f.mag b := by
  have : ((f.scaled a : Nat) : Rat) < f.scaled b := by exact_mod_cast scaled_mono f h
  unfold FloatFmt.mag
  exact div_lt_div_of_pos_right this (by positivity)
theorem mag_zero : f.mag 0 = 0 := by unfold FloatFmt.mag; rw [scaled_zero]; simp
theorem mag_inj {a b : Nat} (h : f.mag a = f.mag b) : a = b := by
  rcases Nat.lt_trichotomy a b with h' | h' | h'
  · exact absurd h (ne_of_lt (mag_mono h'))
  · exact h'
  · exact absurd h.symm (ne_of_lt (mag_mono h'))

/-- No float is nearer than the nearest magnitude with the sign, whatever its sign. -/
theorem near_signed (n d b : Nat) (hd : 0 < d) (h : f.Near n d b) (s : Rat) (b' : Nat) (hs : s = f.mag b' ∨ s = -f.mag b') :
    |f.mag b - (n : Rat) / d / 2 ^ f.shift| ≤ |s - (n : Rat) / d / 2 ^ f.shift| ∧
    (s ≠ f.mag b → |s - (n : Rat) / d / 2 ^ f.shift| = |f.mag b - (n : Rat) / d / 2 ^ f.shift| → b % 2 = 0) := by
  have h2 : (0 : Rat) < d * 2 ^ f.shift := mul_pos (by exact_mod_cast hd) (by positivity)
  have near : ∀ c, |f.mag b - (n : Rat) / d / 2 ^ f.shift| ≤ |f.mag c - (n : Rat) / d / 2 ^ f.shift| := fun c => by
    rw [mag_dist b n d hd, mag_dist c n d hd]
    exact div_le_div_of_nonneg_right (by exact_mod_cast (h c).1) (le_of_lt h2)
  have tie : ∀ c, c ≠ b → |f.mag c - (n : Rat) / d / 2 ^ f.shift| = |f.mag b - (n : Rat) / d / 2 ^ f.shift| → b % 2 = 0 := fun c hc e => by
    rw [mag_dist b n d hd, mag_dist c n d hd, div_left_inj' (ne_of_gt h2)] at e
    exact (h c).2 hc (by exact_mod_cast e.symm)
  have hq : 0 ≤ (n : Rat) / d / 2 ^ f.shift := by positivity
  rcases hs with rfl | rfl
  · exact ⟨near b', fun hne e => tie b' (fun h => hne (by rw [h])) e⟩
  · have hm := mag_nonneg (f := f) b'
    have h0 := near 0
    rw [mag_zero, zero_sub, abs_neg, abs_of_nonneg hq] at h0
    have hr : |-f.mag b' - (n : Rat) / d / 2 ^ f.shift| = f.mag b' + (n : Rat) / d / 2 ^ f.shift := by
      rw [show -f.mag b' - (n : Rat) / d / 2 ^ f.shift = -(f.mag b' + (n : Rat) / d / 2 ^ f.shift) by ring, abs_neg, abs_of_nonneg (by linarith)]
    refine ⟨by rw [hr]; linarith, fun hne e => ?_⟩
    rw [hr] at e
    have hz : f.mag b' = 0 := by linarith
    have hb' : b' = 0 := mag_inj (hz.trans mag_zero.symm)
    refine tie 0 (fun hb => hne ?_) ?_
    · rw [hz, ← hb, mag_zero, neg_zero]
    · rw [mag_zero, zero_sub, abs_neg, abs_of_nonneg hq]; linarith

/-! ## Bits -/

/-- Bits are a sign and a magnitude. -/
theorem bits_split (bits : Nat) (h : bits < 2 ^ (f.mant + f.exp + 1)) : ∃ (neg : Bool) (b : Nat), bits = (if neg then f.sign else 0) + b ∧ b < f.sign := by
  rw [Nat.pow_succ] at h
  change bits < f.sign * 2 at h
  rcases Nat.lt_or_ge bits f.sign with h' | h'
  · exact ⟨false, bits, by simp, h'⟩
  · exact ⟨true, bits - f.sign, by simp; omega, by omega⟩
theorem finite_bits (neg : Bool) (b : Nat) (hb : b < f.sign) : IeeeFinite f.mant f.exp ((if neg then f.sign else 0) + b) ↔ b < f.inf := by
  have hsign : f.sign = 2 ^ f.mant * 2 ^ f.exp := by rw [FloatFmt.sign, Nat.pow_add]
  have hlt : b / 2 ^ f.mant < 2 ^ f.exp := by rw [Nat.div_lt_iff_lt_mul (two_pow_pos _), Nat.mul_comm, ← hsign]; exact hb
  have hd : ((if neg then f.sign else 0) + b) / 2 ^ f.mant % 2 ^ f.exp = b / 2 ^ f.mant := by
    cases neg with
    | true => rw [show (if true = true then f.sign else 0) = f.sign from rfl, hsign, Nat.mul_add_div (two_pow_pos _), Nat.add_mod_left, Nat.mod_eq_of_lt hlt]
    | false => rw [show (if false = true then f.sign else 0) = 0 from rfl, Nat.zero_add, Nat.mod_eq_of_lt hlt]
  have hs : (if neg then f.sign else 0) + b < 2 ^ (f.mant + f.exp + 1) := by
    rw [Nat.pow_succ]
    change _ < f.sign * 2
    cases neg <;> simp <;> omega
  unfold IeeeFinite FloatFmt.inf
  rw [hd, ← Nat.div_lt_iff_lt_mul (two_pow_pos _)]
  omega
theorem value_either (bits : Nat) (hx : 2 ≤ f.exp) (h : bits < 2 ^ (f.mant + f.exp + 1)) : ∃ b', ieeeValue f.mant f.exp bits = f.mag b' ∨ ieeeValue f.mant f.exp bits = -f.mag b' := by
  obtain ⟨neg, b, rfl, h2⟩ := bits_split bits h
  refine ⟨b, ?_⟩
  rw [ieee_value hx neg b h2]
  cases neg <;> simp

/-! ## Numbers that are not too large -/

/-- A magnitude below an even one -/
theorem round_lt_iff (hf : 0 < f.mant) (n d B : Nat) (hd : 0 < d) (hB : 0 < B) (he : B % 2 = 0) : f.round n d < B ↔ 2 * n < (f.scaled (B - 1) + f.scaled B) * d := by
  have hr := round_near f hf n d hd
  generalize f.round n d = r at hr ⊢
  have h1 := Nat.mul_lt_mul_of_pos_right (scaled_mono f (show B - 1 < B by omega)) hd
  rw [Nat.add_mul]
  constructor
  · intro h
    by_contra hc
    have h2 := Nat.mul_le_mul_right d (scaled_le f (show r ≤ B - 1 by omega))
    have h3 := (hr B).1
    have h4 : distNat (f.scaled r * d) n = distNat (f.scaled B * d) n := by unfold distNat at *; omega
    have h5 := (hr B).2 (by omega) h4
    have h6 : f.scaled r * d = f.scaled (B - 1) * d := by unfold distNat at *; omega
    have : r = B - 1 := (scaled_mono f).injective (Nat.mul_right_cancel hd h6)
    omega
  · intro h
    by_contra hc
    have h2 := Nat.mul_le_mul_right d (scaled_le f (show B ≤ r by omega))
    have h3 := (hr (B - 1)).1
    unfold distNat at *
    omega

theorem inf_even (hf : 0 < f.mant) : f.inf % 2 = 0 := by
  unfold FloatFmt.inf
  obtain ⟨m, hm⟩ := Nat.exists_eq_add_of_lt hf
  rw [show f.mant = m + 1 by omega, Nat.pow_succ, ← Nat.mul_assoc]; omega
theorem inf_pos (hx : 2 ≤ f.exp) : 0 < f.inf := by
  have : 2 ^ 2 ≤ 2 ^ f.exp := Nat.pow_le_pow_right (by decide) hx
  exact Nat.mul_pos (by omega) (two_pow_pos _)
theorem inf_middle (hx : 2 ≤ f.exp) : f.scaled (f.inf - 1) + f.scaled f.inf = (4 * 2 ^ f.mant - 1) * 2 ^ (2 ^ f.exp - 3) := by
  have h4 : 2 ^ 2 ≤ 2 ^ f.exp := Nat.pow_le_pow_right (by decide) hx
  have hp := two_pow_pos f.mant
  obtain ⟨k, hk⟩ := Nat.exists_eq_add_of_le (show 3 ≤ 2 ^ f.exp by omega)
  have e1 : f.inf = (k + 1) * 2 ^ f.mant + 2 ^ f.mant := by
    unfold FloatFmt.inf; rw [hk, show 3 + k - 1 = k + 1 + 1 by omega]; ring
  have e2 : f.inf - 1 = k * 2 ^ f.mant + (2 * 2 ^ f.mant - 1) := by
    rw [e1, Nat.add_mul]; omega
  rw [e2, scaled_norm f k _ (by omega) (by omega), e1, scaled_norm f (k + 1) _ (by omega) (by omega), hk, show 3 + k - 3 = k by omega, Nat.pow_succ,
    show 2 ^ f.mant * (2 ^ k * 2) = (2 * 2 ^ f.mant) * 2 ^ k by ring, ← Nat.add_mul]
  congr 1
  omega

/-- A number is rounded to a finite float if and only if it is below the limit of IEEE 754. -/
theorem round_range (hf : 0 < f.mant) (hx : 2 ≤ f.exp) (n d : Nat) (hd : 0 < d) :
    f.round n d < f.inf ↔ (n : Rat) / d / 2 ^ f.shift < 2 ^ (2 ^ (f.exp - 1) - 1) * (2 - 1 / 2 ^ (f.mant + 1)) := by
  rw [round_lt_iff hf n d f.inf hd (inf_pos hx) (inf_even hf), inf_middle hx]
  have hp := two_pow_pos f.mant
  obtain ⟨c, hc⟩ : ∃ c, 2 ^ (f.exp - 1) = c + 2 := by
    have : 2 ^ 1 ≤ 2 ^ (f.exp - 1) := Nat.pow_le_pow_right (by decide) (by omega)
    exact ⟨2 ^ (f.exp - 1) - 2, by omega⟩
  have hexp : 2 ^ f.exp - 3 = c + c + 1 := by
    rw [show f.exp = (f.exp - 1) + 1 by omega, Nat.pow_succ, hc]; omega
  have hshift : f.shift = c + f.mant := by unfold FloatFmt.shift; omega
  rw [hexp, hshift, hc, show c + 2 - 1 = c + 1 by omega]
  have hd' : (0 : Rat) < d := by exact_mod_cast hd
  have h2c : (0 : Rat) < 2 ^ c := by positivity
  have h2m : (0 : Rat) < 2 ^ f.mant := by positivity
  have hsub : ((4 * 2 ^ f.mant - 1 : Nat) : Rat) = 4 * 2 ^ f.mant - 1 := by rw [Nat.cast_sub (by omega)]; push_cast; rfl
  have key : (2 * n < (4 * 2 ^ f.mant - 1) * 2 ^ (c + c + 1) * d) ↔ (2 * (n : Rat) < (4 * 2 ^ f.mant - 1) * 2 ^ (c + c + 1) * d) := by
    rw [← hsub]; exact_mod_cast Iff.rfl
  rw [key, div_div, div_lt_iff₀ (by positivity)]
  have e : (2 : Rat) ^ (c + 1) * (2 - 1 / 2 ^ (f.mant + 1)) * (d * 2 ^ (c + f.mant)) * 2 = (4 * 2 ^ f.mant - 1) * 2 ^ (c + c + 1) * d := by
    rw [pow_succ, pow_succ, pow_add, pow_succ, pow_add]
    field_simp
    ring
  constructor <;> intro h <;> linarith

theorem nearest_bits (hf : 0 < f.mant) (hx : 2 ≤ f.exp) (n d b : Nat) (hd : 0 < d) (hb : b < f.inf) (h : f.Near n d b) (neg : Bool) :
    Nearest f.mant f.exp (if neg then -((n : Rat) / d / 2 ^ f.shift) else (n : Rat) / d / 2 ^ f.shift) ((if neg then f.sign else 0) + b) := by
  have hlt : b < f.sign := Nat.lt_trans hb (inf_le_sign f)
  have hval := ieee_value hx neg b hlt
  have hev : ((if neg then f.sign else 0) + b) % 2 = b % 2 := by
    have : f.sign % 2 = 0 := by
      unfold FloatFmt.sign
      obtain ⟨m, hm⟩ := Nat.exists_eq_add_of_lt hf
      rw [show f.mant + f.exp = (m + f.exp) + 1 by omega, Nat.pow_succ]; omega
    cases neg <;> simp <;> omega
  refine ⟨?_, (finite_bits neg b hlt).2 hb, fun w hw => ?_, fun w hw hne e => ?_⟩
  · have hq : 0 ≤ (n : Rat) / d / 2 ^ f.shift := by positivity
    have e : f.round n d = b := near_unique f n d _ _ hd (round_near f hf n d hd) h
    have hr := (round_range hf hx n d hd).1 (by rw [e]; exact hb)
    cases neg
    · simpa [abs_of_nonneg hq] using hr
    · simpa [abs_neg, abs_of_nonneg hq] using hr
  · obtain ⟨b', hw⟩ := value_either w hx hw.1
    rw [hval]
    cases neg with
    | false => exact (near_signed n d b hd h _ b' hw).1
    | true =>
      have := (near_signed n d b hd h (-ieeeValue f.mant f.exp w) b' (by rcases hw with hw | hw <;> simp [hw])).1
      simp only [if_true] at *
      rw [show -f.mag b - -((n : Rat) / d / 2 ^ f.shift) = -(f.mag b - (n : Rat) / d / 2 ^ f.shift) by ring,
        show ieeeValue f.mant f.exp w - -((n : Rat) / d / 2 ^ f.shift) = -(-ieeeValue f.mant f.exp w - (n : Rat) / d / 2 ^ f.shift) by ring, abs_neg, abs_neg]
      exact this
  · obtain ⟨b', hw⟩ := value_either w hx hw.1
    rw [hev]
    rw [hval] at hne e
    cases neg with
    | false => exact (near_signed n d b hd h _ b' hw).2 hne e
    | true =>
      refine (near_signed n d b hd h (-ieeeValue f.mant f.exp w) b' (by rcases hw with hw | hw <;> simp [hw])).2 (fun h => hne (by simp [← h])) ?_
      simp only [if_true] at e
      rw [show -f.mag b - -((n : Rat) / d / 2 ^ f.shift) = -(f.mag b - (n : Rat) / d / 2 ^ f.shift) by ring,
        show ieeeValue f.mant f.exp w - -((n : Rat) / d / 2 ^ f.shift) = -(-ieeeValue f.mant f.exp w - (n : Rat) / d / 2 ^ f.shift) by ring, abs_neg, abs_neg] at e
      exact e

/-- n * 10 ^ e as a quotient -/
theorem decimal_quotient (n : Nat) (e : Int) : ((n * 10 ^ e.toNat * 2 ^ f.shift : Nat) : Rat) / (10 ^ (-e).toNat : Nat) / 2 ^ f.shift = n * tenTo e := by
  have h2 : (2 : Rat) ^ f.shift ≠ 0 := by positivity
  unfold tenTo
  split
  · rename_i h
    rw [show (-e).toNat = 0 by omega]
    push_cast
    field_simp
  · rename_i h
    rw [show e.toNat = 0 by omega]
    push_cast
    field_simp

/-- The magnitude nearest to a decimal number is nearest in the sense of IEEE 754. -/
theorem ofDecimal_nearest (hf : 0 < f.mant) (hx : 2 ≤ f.exp) (neg : Bool) (n : Nat) (e : Int) (hb : f.ofDecimal n e < f.inf) :
    Nearest f.mant f.exp (if neg then -(n * tenTo e) else n * tenTo e) ((if neg then f.sign else 0) + f.ofDecimal n e) := by
  have := nearest_bits hf hx _ _ _ (Nat.pow_pos (by decide)) hb (round_near f hf (n * 10 ^ e.toNat * 2 ^ f.shift) (10 ^ (-e).toNat) (Nat.pow_pos (by decide))) neg
  rwa [decimal_quotient] at this

/-- Conversely: there is one nearest float up to the sign of zero. -/
theorem nearest_near (hf : 0 < f.mant) (hx : 2 ≤ f.exp) (n d : Nat) (hd : 0 < d) (neg : Bool) (bits : Nat)
    (h : Nearest f.mant f.exp (if neg then -((n : Rat) / d / 2 ^ f.shift) else (n : Rat) / d / 2 ^ f.shift) bits) :
    f.round n d < f.inf ∧ ieeeValue f.mant f.exp bits = if neg then -f.mag (f.round n d) else f.mag (f.round n d) := by
  have hq : 0 ≤ (n : Rat) / d / 2 ^ f.shift := by positivity
  have hr : f.round n d < f.inf := by
    rw [round_range hf hx n d hd]
    have := h.range
    cases neg
    · simpa [abs_of_nonneg hq] using this
    · simpa [abs_neg, abs_of_nonneg hq] using this
  refine ⟨hr, ?_⟩
  have hlt : f.round n d < f.sign := Nat.lt_trans hr (inf_le_sign f)
  obtain ⟨neg', b, rfl, hb⟩ := bits_split bits h.finite.1
  have hbf : b < f.inf := (finite_bits neg' b hb).1 h.finite
  have hnear := round_near f hf n d hd
  generalize hrd : f.round n d = r at *
  by_contra hne
  have hvb := ieee_value hx neg' b hb
  -- both are as near
  have hvr := ieee_value hx neg r hlt
  have g1 := h.nearest _ ((finite_bits neg r hlt).2 hr)
  have hsg : (if neg then -ieeeValue f.mant f.exp ((if neg' then f.sign else 0) + b) else ieeeValue f.mant f.exp ((if neg' then f.sign else 0) + b)) = f.mag b ∨
      (if neg then -ieeeValue f.mant f.exp ((if neg' then f.sign else 0) + b) else ieeeValue f.mant f.exp ((if neg' then f.sign else 0) + b)) = -f.mag b := by
    rw [hvb]; cases neg <;> cases neg' <;> simp
  have g2 := near_signed n d r hd hnear _ b hsg
  have flip : ∀ x : Rat, |(if neg then -x else x) - (n : Rat) / d / 2 ^ f.shift| = |x - (if neg then -((n : Rat) / d / 2 ^ f.shift) else (n : Rat) / d / 2 ^ f.shift)| := by
    intro x
    cases neg with
    | false => rfl
    | true =>
      simp only [if_true]
      rw [← abs_neg]; congr 1; ring
  have hvr' : f.mag r = (if neg then -ieeeValue f.mant f.exp ((if neg then f.sign else 0) + r) else ieeeValue f.mant f.exp ((if neg then f.sign else 0) + r)) := by
    rw [hvr]; cases neg <;> simp
  have g3 : |(if neg then -ieeeValue f.mant f.exp ((if neg' then f.sign else 0) + b) else ieeeValue f.mant f.exp ((if neg' then f.sign else 0) + b)) - (n : Rat) / d / 2 ^ f.shift| = |f.mag r - (n : Rat) / d / 2 ^ f.shift| := by
    refine le_antisymm ?_ g2.1
    rw [hvr', flip, flip]; exact g1
  have hne' : (if neg then -ieeeValue f.mant f.exp ((if neg' then f.sign else 0) + b) else ieeeValue f.mant f.exp ((if neg' then f.sign else 0) + b)) ≠ f.mag r := by
    intro e; apply hne
    cases neg
    · exact e
    · simp only [if_true] at e ⊢; linarith
  have hev := g2.2 hne' g3
  have hev' : b % 2 = 0 := by
    have h1 := h.even _ ((finite_bits neg r hlt).2 hr) (by
      intro e; apply hne; rw [← e, hvr]) (by
      rw [← flip, ← flip, ← hvr', g3])
    have : f.sign % 2 = 0 := by
      unfold FloatFmt.sign
      obtain ⟨m, hm⟩ := Nat.exists_eq_add_of_lt hf
      rw [show f.mant + f.exp = (m + f.exp) + 1 by omega, Nat.pow_succ]; omega
    cases neg'
    · simpa using h1
    · simp only [if_true] at h1; omega
  -- a magnitude in between would be nearer
  have between : ∀ c, c % 2 = 0 → c < f.inf → c ≠ r → |f.mag c - (n : Rat) / d / 2 ^ f.shift| = |f.mag r - (n : Rat) / d / 2 ^ f.shift| → False := by
    intro c hc hcf hcr e
    have h2 : (0 : Rat) < d * 2 ^ f.shift := mul_pos (by exact_mod_cast hd) (by positivity)
    rw [mag_dist c n d hd, mag_dist r n d hd, div_left_inj' (ne_of_gt h2)] at e
    have e : distNat (f.scaled c * d) n = distNat (f.scaled r * d) n := by exact_mod_cast e
    rcases Nat.lt_or_ge c r with hlt | hge
    · have m1 := Nat.mul_lt_mul_of_pos_right (scaled_mono f (show c < c + 1 by omega)) hd
      have m2 := Nat.mul_lt_mul_of_pos_right (scaled_mono f (show c + 1 < r by omega)) hd
      have m3 := (hnear (c + 1)).1
      unfold distNat at *
      omega
    · have m1 := Nat.mul_lt_mul_of_pos_right (scaled_mono f (show r < r + 1 by omega)) hd
      have m2 := Nat.mul_lt_mul_of_pos_right (scaled_mono f (show r + 1 < c by omega)) hd
      have m3 := (hnear (r + 1)).1
      unfold distNat at *
      omega
  rcases hsg with hs | hs
  · rw [hs] at g3 hne'
    exact between b hev' hbf (fun e => hne' (by rw [e])) g3
  · rw [hs] at g3 hne'
    -- the other sign: only zero is as near
    have hm := mag_nonneg (f := f) b
    have h0 := (near_signed n d r hd hnear _ 0 (.inl rfl)).1
    rw [mag_zero, zero_sub, abs_neg, abs_of_nonneg hq] at h0
    have hr' : |-f.mag b - (n : Rat) / d / 2 ^ f.shift| = f.mag b + (n : Rat) / d / 2 ^ f.shift := by
      rw [show -f.mag b - (n : Rat) / d / 2 ^ f.shift = -(f.mag b + (n : Rat) / d / 2 ^ f.shift) by ring, abs_neg, abs_of_nonneg (by linarith)]
    rw [hr'] at g3
    have hz : f.mag b = 0 := by linarith
    have hb0 : b = 0 := mag_inj (hz.trans mag_zero.symm)
    refine between 0 rfl (by omega) (fun e => hne' ?_) ?_
    · rw [hz, ← e, mag_zero, neg_zero]
    · rw [mag_zero, zero_sub, abs_neg, abs_of_nonneg hq]; linarith

/-- The same for decimal numbers -/
theorem nearest_decimal (hf : 0 < f.mant) (hx : 2 ≤ f.exp) (n : Nat) (e : Int) (neg : Bool) (bits : Nat) (h : Nearest f.mant f.exp (if neg then -(n * tenTo e) else n * tenTo e) bits) :
    f.ofDecimal n e < f.inf ∧ ieeeValue f.mant f.exp bits = if neg then -f.mag (f.ofDecimal n e) else f.mag (f.ofDecimal n e) :=
  nearest_near hf hx (n * 10 ^ e.toNat * 2 ^ f.shift) (10 ^ (-e).toNat) (Nat.pow_pos (by decide)) neg bits (by rw [decimal_quotient]; exact h)
theorem ofDecimal_range (hf : 0 < f.mant) (hx : 2 ≤ f.exp) (n : Nat) (e : Int) : f.ofDecimal n e < f.inf ↔ n * tenTo e < 2 ^ (2 ^ (f.exp - 1) - 1) * (2 - 1 / 2 ^ (f.mant + 1)) := by
  have := round_range hf hx (n * 10 ^ e.toNat * 2 ^ f.shift) (10 ^ (-e).toNat) (Nat.pow_pos (by decide))
  rwa [decimal_quotient] at this

end Verif
