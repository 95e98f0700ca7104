import Verif.Model.Float
import Verif.Lemmas.FloatNumber
import Verif.Props.Symbol
/-! # Asset.FloatValue: lemmas -/
namespace Verif

variable {f : FloatFmt}

/-- Rounding changes a number by at most half of its last place. -/
theorem round_error (n d : Nat) (hd : 0 < d) (h : d * 2 ^ f.mant ≤ n) : 2 ^ (f.mant + 1) * distNat (f.scaled (f.round n d) * d) n ≤ n := by
  obtain ⟨e, q, hr, hq, s1, s2, h0, h1⟩ := round_parts f n d hd
  have hdiv := Nat.div_add_mod n (d * 2 ^ e)
  have hmod := Nat.mod_lt n (Nat.mul_pos hd (two_pow_pos e))
  have hle : 2 ^ f.mant * (d * 2 ^ e) ≤ n := by
    rcases Nat.eq_zero_or_pos e with rfl | he
    · rw [Nat.pow_zero, Nat.mul_one, Nat.mul_comm]; exact h
    · calc 2 ^ f.mant * (d * 2 ^ e) ≤ q * (d * 2 ^ e) := Nat.mul_le_mul_right _ (h0 he)
        _ ≤ n := by rw [hq]; exact Nat.div_mul_le_self _ _
  have hdist : 2 * distNat (f.scaled (f.round n d) * d) n ≤ d * 2 ^ e := by
    rw [hr]
    have m1 : q * 2 ^ e * d = d * 2 ^ e * (n / (d * 2 ^ e)) := by rw [hq]; ring
    have m2 : (q + 1) * 2 ^ e * d = d * 2 ^ e * (n / (d * 2 ^ e)) + d * 2 ^ e := by rw [hq]; ring
    rcases roundDiv_cases n (d * 2 ^ e) with ⟨e1, e2⟩ | ⟨e1, e2⟩
    · rw [e1, ← hq, s1, m1]
      unfold distNat; omega
    · rw [e1, ← hq, ← Nat.add_assoc, s2, m2]
      unfold distNat; omega
  calc 2 ^ (f.mant + 1) * distNat (f.scaled (f.round n d) * d) n = 2 ^ f.mant * (2 * distNat (f.scaled (f.round n d) * d) n) := by rw [Nat.pow_succ]; ring
    _ ≤ 2 ^ f.mant * (d * 2 ^ e) := Nat.mul_le_mul_left _ hdist
    _ ≤ n := hle

/-- Integers of at most as many bits as the mantissa are floats. -/
theorem round_int (n : Nat) (h : n < 2 ^ (f.mant + 1)) : f.scaled (f.round (n * 2 ^ f.shift) 1) = n * 2 ^ f.shift := by
  obtain ⟨e, q, hr, hq, s1, s2, h0, h1⟩ := round_parts f (n * 2 ^ f.shift) 1 (by decide)
  rw [Nat.one_mul] at hr hq
  have he : e ≤ f.shift := by
    rcases Nat.eq_zero_or_pos e with rfl | he
    · exact Nat.zero_le _
    · have h2 : 2 ^ f.mant * 2 ^ e ≤ n * 2 ^ f.shift := by
        calc 2 ^ f.mant * 2 ^ e ≤ q * 2 ^ e := Nat.mul_le_mul_right _ (h0 he)
          _ ≤ _ := by rw [hq]; exact Nat.div_mul_le_self _ _
      have h3 : n * 2 ^ f.shift < 2 ^ (f.mant + 1) * 2 ^ f.shift := Nat.mul_lt_mul_of_pos_right h (two_pow_pos _)
      rw [← Nat.pow_add] at h2 h3
      have := (Nat.pow_lt_pow_iff_right (by decide : 1 < 2)).1 (Nat.lt_of_le_of_lt h2 h3)
      omega
  have hdvd : 2 ^ e ∣ n * 2 ^ f.shift := Dvd.dvd.mul_left (pow_dvd_pow 2 he) n
  have hmod := Nat.mod_eq_zero_of_dvd hdvd
  have hrd : roundDiv (n * 2 ^ f.shift) (2 ^ e) = q := by
    unfold roundDiv
    rw [hmod, if_pos (by have := two_pow_pos e; omega), hq]
  rw [hr, hrd, s1, hq]
  exact Nat.div_mul_cancel hdvd

/-! ## The nearest float64 -/

theorem ratio_tenTo (n d : Nat) : (n : Rat) / (10 ^ d : Nat) = n * tenTo (-(d : Int)) := by
  have h := tenTo_unit n 0 d
  rw [Nat.pow_zero, Nat.mul_one, show ((0 : Nat) : Int) - (d : Nat) = -(d : Int) by omega] at h
  exact h.symm
theorem ratio_sign (i : Int) (d : Nat) : (i : Rat) / (10 ^ d : Nat) = if decide (i < 0) then -((i.natAbs : Rat) * tenTo (-(d : Int))) else (i.natAbs : Rat) * tenTo (-(d : Int)) := by
  rw [← ratio_tenTo]
  by_cases h : i < 0
  · rw [if_pos (by simpa using h)]
    have e : (i.natAbs : Rat) = -(i : Rat) := by
      rw [← Int.cast_natCast, show (i.natAbs : Int) = -i by omega, Int.cast_neg]
    rw [e]; ring
  · rw [if_neg (by simpa using h)]
    have e : (i.natAbs : Rat) = (i : Rat) := by
      rw [← Int.cast_natCast, show (i.natAbs : Int) = i by omega]
    rw [e]
theorem nearest_ratio {i : Int} {d : Nat} {v : UInt64} (h : NearestF64 ((i : Rat) / (10 ^ d : Nat)) v) :
    f64Value v = if decide (i < 0) then -binary64.mag (binary64.ofDecimal i.natAbs (-(d : Int))) else binary64.mag (binary64.ofDecimal i.natAbs (-(d : Int))) := by
  rw [ratio_sign] at h
  exact (nearest_decimal (f := binary64) binary64_ok.mant binary64_ok.exp _ _ _ _ h).2

theorem ofDecimal_div (n d : Nat) : binary64.ofDecimal n (-(d : Int)) = binary64.round (n * 2 ^ binary64.shift) (10 ^ d) := by
  unfold FloatFmt.ofDecimal
  rw [show (-(d : Int)).toNat = 0 by omega, show (- -(d : Int)).toNat = d by omega, Nat.pow_zero, Nat.mul_one]

theorem floatValue_exact {i : Int} {v : UInt64} (h : NearestF64 ((i : Rat) / (10 ^ 0 : Nat)) v) (hi : i.natAbs < 2 ^ 53) : f64Value v = i := by
  have hv := nearest_ratio h
  rw [ofDecimal_div] at hv
  have hm : binary64.mag (binary64.round (i.natAbs * 2 ^ binary64.shift) (10 ^ 0)) = i.natAbs := by
    unfold FloatFmt.mag
    rw [Nat.pow_zero, round_int i.natAbs hi]
    push_cast
    field_simp
  rw [hm] at hv
  have hs := ratio_sign i 0
  rw [hv]
  rw [show tenTo (-((0 : Nat) : Int)) = 1 by decide +kernel, mul_one, Nat.pow_zero, Nat.cast_one, div_one] at hs
  exact hs.symm

/-- Numbers of at most 52 bits with 18 decimals at most are changed by less than half the last decimal. -/
theorem mag_close (n d : Nat) (hd : d ≤ 18) (hn : n < 2 ^ 52) : 2 * abs (binary64.mag (binary64.ofDecimal n (-(d : Int))) - n * tenTo (-(d : Int))) < 1 / (10 ^ d : Nat) := by
  have h10 : 0 < 10 ^ d := Nat.pow_pos (by decide)
  have h10' : (0 : Rat) < (10 ^ d : Nat) := by exact_mod_cast h10
  rcases Nat.eq_zero_or_pos n with rfl | h0
  · rw [ofDecimal_zero _ binary64_ok.mant, mag_zero, Nat.cast_zero, zero_mul, sub_zero, abs_zero, mul_zero]
    positivity
  · rw [ofDecimal_div, ← ratio_tenTo]
    have he := round_error (f := binary64) (n * 2 ^ binary64.shift) (10 ^ d) h10 (by
      calc 10 ^ d * 2 ^ binary64.mant ≤ 10 ^ 18 * 2 ^ binary64.mant := Nat.mul_le_mul_right _ (Nat.pow_le_pow_right (by decide) hd)
        _ ≤ 1 * 2 ^ binary64.shift := by decide +kernel
        _ ≤ _ := Nat.mul_le_mul_right _ h0)
    have hdist := mag_dist (f := binary64) (binary64.round (n * 2 ^ binary64.shift) (10 ^ d)) (n * 2 ^ binary64.shift) (10 ^ d) h10
    have hq : ((n * 2 ^ binary64.shift : Nat) : Rat) / (10 ^ d : Nat) / 2 ^ binary64.shift = (n : Rat) / (10 ^ d : Nat) := by
      push_cast; field_simp
    rw [hq] at hdist
    rw [hdist]
    obtain ⟨D, hD⟩ : ∃ D, D = distNat (binary64.scaled (binary64.round (n * 2 ^ binary64.shift) (10 ^ d)) * 10 ^ d) (n * 2 ^ binary64.shift) := ⟨_, rfl⟩
    rw [← hD] at he ⊢
    have hlt : 2 * D < 2 ^ binary64.shift := by
      have h1 : 2 ^ (binary64.mant + 1) * D ≤ n * 2 ^ binary64.shift := he
      have h2 : n * 2 ^ binary64.shift < 2 ^ 52 * 2 ^ binary64.shift := Nat.mul_lt_mul_of_pos_right hn (two_pow_pos _)
      rw [show binary64.mant + 1 = 52 + 1 by decide, Nat.pow_succ, Nat.mul_assoc] at h1
      have h3 := Nat.lt_of_le_of_lt h1 h2
      rw [Nat.mul_comm 2 D]
      rw [Nat.mul_comm 2 D] at h3
      generalize 2 ^ binary64.shift = P at h3 ⊢
      exact (Nat.mul_lt_mul_left (two_pow_pos 52)).1 h3
    clear hdist he hq hD
    generalize binary64.shift = S at hlt ⊢
    have hlt' : (2 : Rat) * D < 2 ^ S := by exact_mod_cast hlt
    have hp : (0 : Rat) < 2 ^ S := by positivity
    rw [← mul_div_assoc, div_lt_div_iff₀ (by positivity) h10']
    rw [one_mul, mul_comm]
    exact mul_lt_mul_of_pos_left hlt' h10'
end Verif
