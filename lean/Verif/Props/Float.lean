import Verif.Lemmas.FloatValue
/-! # C75: Asset.FloatValue -/
namespace Verif

/-- C75: the number that is read is the text of the asset up to the space: an optional minus sign, digits, and a point with digits. -/
theorem C75_text (a : Asset) (hd : Symbol.decimals a.symbol ≤ 18) (hv : a.value.toInt ≠ -2 ^ 63) :
    ∃ s t, a.string = .val (s ++ 32 :: t) ∧ (splitByte 32 (s ++ 32 :: t)).headD [] = s ∧ (∀ c ∈ s, c = 45 ∨ c = 46 ∨ (48 ≤ c.toNat ∧ c.toNat ≤ 57)) ∧
      readFloat s = some (decide (a.value.toInt < 0), a.value.toInt.natAbs, -(Symbol.decimals a.symbol : Int)) := by
  obtain ⟨ip, fp, h1, h2, h3, h4, h5, _, h7⟩ := C19_string_partial a hd hv
  obtain ⟨frac, hfr⟩ : ∃ frac, frac = if 0 < Symbol.decimals a.symbol then 46 :: fp else [] := ⟨_, rfl⟩
  rw [← hfr] at h1
  have hsign : (if a.value.toInt < 0 then [45] else []) = signText (decide (a.value.toInt < 0)) := by
    by_cases h : a.value.toInt < 0 <;> simp [h, signText, asc]
  have hf : frac = [] ∧ fp = [] ∨ frac = 46 :: fp := by
    rw [hfr]
    split
    · exact .inr rfl
    · exact .inl ⟨rfl, List.length_eq_zero_iff.1 (by omega)⟩
  have hchars : ∀ c ∈ signText (decide (a.value.toInt < 0)) ++ (ip ++ frac), c = 45 ∨ c = 46 ∨ (48 ≤ c.toNat ∧ c.toNat ≤ 57) := by
    intro c hc
    rcases List.mem_append.1 hc with hc | hc
    · unfold signText at hc
      split at hc
      · exact .inl (List.mem_singleton.1 hc)
      · cases hc
    · rcases List.mem_append.1 hc with hc | hc
      · exact .inr (.inr (h2 c hc))
      · rcases hf with ⟨rfl, _⟩ | rfl
        · cases hc
        · rcases List.mem_cons.1 hc with rfl | hc
          · exact .inr (.inl rfl)
          · exact .inr (.inr (h3 c hc))
  refine ⟨signText (decide (a.value.toInt < 0)) ++ (ip ++ frac), Symbol.name a.symbol, by rw [h1, hsign]; simp [List.append_assoc], ?_, hchars, ?_⟩
  · rw [splitByte_append]
    · rfl
    · intro h
      rcases hchars 32 h with h | h | h
      · cases h
      · cases h
      · exact absurd h (by decide)
  · have := readFloat_parts (decide (a.value.toInt < 0)) ip frac fp [] 0 h2 h5 h3 hf (fun c hc => by cases hc) rfl
    rw [List.append_nil, h7, h4] at this
    rw [this]
    simp

/-- C75. FloatValue is the float64 nearest to value / 10^decimals, with a minus sign exactly if the value is negative: there is no rounding on the way. For symbols with more
than 18 decimals and for the smallest value it fails, see below. -/
theorem C75_float_partial (a : Asset) (hd : Symbol.decimals a.symbol ≤ 18) (hv : a.value.toInt ≠ -2 ^ 63) :
    ∃ v, a.floatValue = .val v ∧ NearestF64 ((a.value.toInt : Rat) / (10 ^ Symbol.decimals a.symbol : Nat)) v ∧ (v.toNat / 2 ^ 63 = 1 ↔ a.value.toInt < 0) := by
  obtain ⟨s, t, h1, h2, _, h4⟩ := C75_text a hd hv
  have hn : a.value.toInt.natAbs < 2 ^ 63 := by
    have := a.value.toInt_lt
    have := a.value.le_toInt
    omega
  have hlim : (a.value.toInt.natAbs : Rat) * tenTo (-(Symbol.decimals a.symbol : Int)) < limit64 := by
    have e1 : tenTo (-(Symbol.decimals a.symbol : Int)) ≤ tenTo 0 := tenTo_le (by omega)
    rw [show tenTo 0 = 1 by decide +kernel] at e1
    have e2 : (a.value.toInt.natAbs : Rat) < 2 ^ 63 := by exact_mod_cast hn
    have e3 : (2 : Rat) ^ 63 < limit64 := by unfold limit64; decide +kernel
    have e4 : (0 : Rat) ≤ a.value.toInt.natAbs := by positivity
    exact lt_of_le_of_lt (mul_le_of_le_one_right e4 e1) (lt_trans e2 e3)
  have hb := (ofDecimal_limit _ _).2 hlim
  have hnear := ofDecimal_nearest (f := binary64) binary64_ok.mant binary64_ok.exp (decide (a.value.toInt < 0)) _ _ hb
  rw [← ratio_sign] at hnear
  have hp := parse_parts binary64 h4
  rw [if_pos hb] at hp
  obtain ⟨t1, t2⟩ := signed_bits (decide (a.value.toInt < 0)) _ (Nat.lt_trans hb (inf_le_sign _))
  refine ⟨((if decide (a.value.toInt < 0) then binary64.sign else 0) + binary64.ofDecimal a.value.toInt.natAbs (-(Symbol.decimals a.symbol : Int))).toUInt64, ?_, ?_, ?_⟩
  · unfold Asset.floatValue
    rw [h1]
    dsimp only
    rw [h2, parseFloat, hp, Option.map_some]
  · unfold NearestF64
    rw [t1]
    exact hnear
  · rw [t1, t2, decide_eq_true_eq]

/-- C75: values of one symbol keep their order. -/
theorem C75_monotone (a b : Asset) (va vb : UInt64) (hs : a.symbol = b.symbol) (hd : Symbol.decimals a.symbol ≤ 18) (ha : a.value.toInt ≠ -2 ^ 63)
    (ha' : a.floatValue = .val va) (hb' : b.floatValue = .val vb) (h : a.value.toInt ≤ b.value.toInt) : f64Value va ≤ f64Value vb := by
  have hb : b.value.toInt ≠ -2 ^ 63 := by
    have := a.value.le_toInt
    omega
  obtain ⟨va', e1, h1, _⟩ := C75_float_partial a hd ha
  obtain ⟨vb', e2, h2, _⟩ := C75_float_partial b (hs ▸ hd) hb
  rw [ha'] at e1; injection e1 with e1; subst e1
  rw [hb'] at e2; injection e2 with e2; subst e2
  rw [← hs] at h2
  by_contra hlt
  have hlt := not_le.1 hlt
  rcases Int.lt_or_eq_of_le h with h | h
  · have hq : (a.value.toInt : Rat) / (10 ^ Symbol.decimals a.symbol : Nat) < (b.value.toInt : Rat) / (10 ^ Symbol.decimals a.symbol : Nat) :=
      div_lt_div_of_pos_right (by exact_mod_cast h) (by positivity)
    have n1 := h1.nearest _ h2.finite
    have n2 := h2.nearest _ h1.finite
    change |f64Value va - _| ≤ |f64Value vb - _| at n1
    change |f64Value vb - _| ≤ |f64Value va - _| at n2
    generalize (a.value.toInt : Rat) / (10 ^ Symbol.decimals a.symbol : Nat) = p at *
    generalize (b.value.toInt : Rat) / (10 ^ Symbol.decimals a.symbol : Nat) = q at *
    rcases abs_cases (f64Value va - p) with c | c <;> rcases abs_cases (f64Value vb - p) with c' | c' <;>
      rcases abs_cases (f64Value va - q) with c'' | c'' <;> rcases abs_cases (f64Value vb - q) with c''' | c''' <;> linarith
  · rw [← h] at h2
    rw [nearest_ratio h1, nearest_ratio h2] at hlt
    exact lt_irrefl _ hlt

/-- C75: integers of at most 53 bits are exact. -/
theorem C75_exact (a : Asset) (hd : Symbol.decimals a.symbol = 0) (hv : a.value.toInt.natAbs < 2 ^ 53) : ∃ v, a.floatValue = .val v ∧ f64Value v = a.value.toInt := by
  obtain ⟨v, h1, h2, _⟩ := C75_float_partial a (by omega) (by omega)
  rw [hd] at h2
  exact ⟨v, h1, floatValue_exact h2 hv⟩

/-- C75: values of one symbol and of at most 52 bits can be told apart, and be found again: they are less than half a unit of the last decimal away from the float. -/
theorem C75_close (a : Asset) (hd : Symbol.decimals a.symbol ≤ 18) (hv : a.value.toInt.natAbs < 2 ^ 52) :
    ∃ v, a.floatValue = .val v ∧ 2 * |f64Value v * (10 ^ Symbol.decimals a.symbol : Nat) - a.value.toInt| < 1 := by
  obtain ⟨v, h1, h2, _⟩ := C75_float_partial a hd (by omega)
  refine ⟨v, h1, ?_⟩
  have hm := mag_close a.value.toInt.natAbs (Symbol.decimals a.symbol) hd hv
  have hval := nearest_ratio h2
  have hs := ratio_sign a.value.toInt (Symbol.decimals a.symbol)
  have hp : (0 : Rat) < (10 ^ Symbol.decimals a.symbol : Nat) := by positivity
  have habs : |f64Value v - (a.value.toInt : Rat) / (10 ^ Symbol.decimals a.symbol : Nat)| =
      |binary64.mag (binary64.ofDecimal a.value.toInt.natAbs (-(Symbol.decimals a.symbol : Int))) - a.value.toInt.natAbs * tenTo (-(Symbol.decimals a.symbol : Int))| := by
    rw [hval, hs]
    cases decide (a.value.toInt < 0)
    · rfl
    · simp only [if_true]
      rw [← abs_neg]; congr 1; ring
  rw [← habs] at hm
  have e : f64Value v * (10 ^ Symbol.decimals a.symbol : Nat) - a.value.toInt = (f64Value v - (a.value.toInt : Rat) / (10 ^ Symbol.decimals a.symbol : Nat)) * (10 ^ Symbol.decimals a.symbol : Nat) := by
    field_simp
  rw [e, abs_mul, abs_of_pos hp]
  rw [lt_div_iff₀ hp] at hm
  linarith

/-- 0.1 and -12.3456 EOS; 2^53 + 1 is no float64. -/
example : Asset.floatValue ⟨1000, 1397703940⟩ = .val 0x3FB999999999999A ∧ Asset.floatValue ⟨-123456, 1397703940⟩ = .val 0xC028B0F27BB2FEC5 ∧
    Asset.floatValue ⟨9007199254740993, 1397703936⟩ = .val 0x4340000000000000 ∧ Asset.floatValue ⟨0, 1397703940⟩ = .val 0 ∧
    Symbol.decimals 1397703940 = 4 ∧ Symbol.decimals 1397703936 = 0 := by decide +kernel

/-- C75 fails for the smallest value: FloatValue panics. -/
theorem C75_violated_min : Asset.floatValue ⟨Int64.minValue, 1397703940⟩ = .panic "strconv.ParseFloat" := by
  have h : Asset.string ⟨Int64.minValue, 1397703940⟩ = .val (asc "--922337203685477.-5808 EOS") := by decide +kernel
  unfold Asset.floatValue
  rw [h]
  decide +kernel

/-- C75 fails for symbols with more decimals than 18, which can be decoded: 0.08 becomes 1.0023…, and with 64 decimals or more FloatValue panics. -/
theorem C75_decimals_violated : (∃ v : UInt64, Asset.floatValue ⟨8000000000000000000, 1397703956⟩ = .val v ∧ Symbol.decimals 1397703956 = 20 ∧
    (8000000000000000000 : Rat) / (10 ^ 20 : Nat) < 1 ∧ 1 < f64Value v) ∧
    ∀ a : Asset, 64 ≤ Symbol.decimals a.symbol → ∃ w, a.floatValue = .panic w := by
  refine ⟨⟨0x3FF00992BC564A9E, by decide +kernel, by decide +kernel, by decide +kernel, by unfold f64Value ieeeValue; decide +kernel⟩, fun a h => ?_⟩
  obtain ⟨w, hw⟩ := (C19_panics_iff a).mpr h
  exact ⟨w, by unfold Asset.floatValue; rw [hw]⟩

end Verif
