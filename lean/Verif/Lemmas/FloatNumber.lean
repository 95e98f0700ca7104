import Verif.Lemmas.FloatDoc
/-! # JSON numbers as float64 -/
namespace Verif

/-! ## Exponents beyond 10000 -/

theorem expNat_big (s : Bytes) (n : Nat) (h : 10000 ≤ n) : expNat s n = n := by
  induction s with
  | nil => rfl
  | cons c s ih => rw [expNat, if_neg (by omega), ih]
theorem expNat_cases (s : Bytes) (n : Nat) : expNat s n = decAcc n s ∨ (10000 ≤ expNat s n ∧ 10000 ≤ decAcc n s) := by
  induction s generalizing n with
  | nil => exact .inl rfl
  | cons c s ih =>
    rw [expNat, decAcc_cons]
    split
    · exact ih _
    · have := decAcc_mono (10 * n + (c.toNat - 48)) s
      exact .inr ⟨by rw [expNat_big s n (by omega)]; omega, by omega⟩

/-- Two powers of ten that are read for one another: equal, or both far out -/
def SameExp (x y : Int) : Prop := x = y ∨ (10000 ≤ x ∧ 10000 ≤ y) ∨ (x ≤ -10000 ∧ y ≤ -10000)

theorem seq_digits {ds : Bytes} (h : DigitSeq ds) : AllDigits ds := fun c hc => by
  have := (digit_mem c).2 (h.2 c hc)
  simpa [isDigit, UInt8.le_iff_toNat_le] using this
theorem readExp_any (s ds : Bytes) (hs : s = [] ∨ s = asc "+" ∨ s = asc "-") (h : DigitSeq ds) :
    ∃ y, readExp (s ++ ds) = some y ∧ SameExp y (if s = asc "-" then -(decValue ds : Int) else decValue ds) := by
  have hd := seq_digits h
  have hc : ds ≠ [] ∧ ds.all isDigit = true := ⟨h.1, List.all_eq_true.2 (digit_of ds hd)⟩
  have hx := expNat_cases ds 0
  rw [← decValue_eq] at hx
  rcases hs with rfl | rfl | rfl
  · refine ⟨expNat ds 0, ?_, ?_⟩
    · unfold readExp
      rw [show ([] : Bytes) ++ ds = signText false ++ ds from rfl, floatSign_text false ds (digits_head hd)]
      dsimp only
      rw [if_pos hc]; rfl
    · rw [if_neg (by decide)]; unfold SameExp; omega
  · refine ⟨expNat ds 0, ?_, ?_⟩
    · show (if ds ≠ [] ∧ ds.all isDigit = true then some (if false = true then -(expNat ds 0 : Int) else expNat ds 0) else none) = _
      rw [if_pos hc]; rfl
    · rw [if_neg (by decide)]; unfold SameExp; omega
  · refine ⟨-expNat ds 0, ?_, ?_⟩
    · show (if ds ≠ [] ∧ ds.all isDigit = true then some (if true = true then -(expNat ds 0 : Int) else expNat ds 0) else none) = _
      rw [if_pos hc]; rfl
    · rw [if_pos rfl]; unfold SameExp; omega

/-! ## Numbers far out -/

theorem ofDecimal_tiny (f : FloatFmt) (n k : Nat) (h : n * 2 ^ (f.shift + 1) < 10 ^ k) (e : Int) (he : e ≤ -k) : f.ofDecimal n e = 0 := by
  have h10 : 10 ^ k ≤ 10 ^ (-e).toNat := Nat.pow_le_pow_right (by decide) (by omega)
  have hp : n * 2 ^ (f.shift + 1) = 2 * (n * 2 ^ f.shift) := by rw [Nat.pow_succ]; ring
  unfold FloatFmt.ofDecimal FloatFmt.round
  rw [show e.toNat = 0 by omega, Nat.pow_zero, Nat.mul_one]
  generalize n * 2 ^ f.shift = m at *
  have hq : m / 10 ^ (-e).toNat = 0 := Nat.div_eq_of_lt (by omega)
  rw [hq, show Nat.log2 0 = 0 from rfl, Nat.zero_sub]
  dsimp only
  rw [Nat.pow_zero, Nat.mul_one, Nat.zero_mul, Nat.zero_add]
  unfold roundDiv
  rw [Nat.mod_eq_of_lt (by omega), if_pos (by omega), hq]

theorem tenTo_le {a b : Int} (h : a ≤ b) : tenTo a ≤ tenTo b := by
  obtain ⟨z, rfl⟩ := Int.le.dest h
  rw [← tenTo_zeros]
  have := tenTo_pos a
  have h1 : (1 : Rat) ≤ (10 ^ z : Nat) := by exact_mod_cast Nat.pow_pos (n := z) (show 0 < 10 by decide)
  nlinarith

theorem ofDecimal_limit (n : Nat) (e : Int) : binary64.ofDecimal n e < binary64.inf ↔ n * tenTo e < limit64 := by
  have h := ofDecimal_range (f := binary64) binary64_ok.mant binary64_ok.exp n e
  rw [show (2 ^ (binary64.exp - 1) - 1 : Nat) = 1023 by decide, show binary64.mant + 1 = 53 by decide] at h
  exact h

theorem ofDecimal_huge (n : Nat) (e : Int) (hn : 0 < n) (he : 1000 ≤ e) : ¬ binary64.ofDecimal n e < binary64.inf := by
  rw [ofDecimal_limit]
  have h1 : tenTo 1000 ≤ tenTo e := tenTo_le he
  have h2 : (1 : Rat) ≤ n := by exact_mod_cast hn
  have h3 : (2 : Rat) ^ 1024 ≤ tenTo 1000 := by
    have : (2 : Nat) ^ 1024 ≤ 10 ^ 1000 := by decide +kernel
    unfold tenTo
    rw [if_pos (by decide)]
    exact_mod_cast this
  have h4 : limit64 ≤ 2 ^ 1024 := by
    unfold limit64
    rw [show (2 : Rat) ^ 1024 = 2 ^ 1023 * 2 from pow_succ _ _]
    have : (0 : Rat) ≤ 1 / 2 ^ 53 := by positivity
    exact mul_le_mul_of_nonneg_left (by linarith) (by positivity)
  have h5 : tenTo e ≤ n * tenTo e := le_mul_of_one_le_left (Rat.le_of_lt (tenTo_pos e)) h2
  exact not_lt.2 (h4.trans (h3.trans (h1.trans h5)))

/-- The digits of the exponent that are ignored make no difference if the number has at most 9000 digits. -/
theorem ofDecimal_same (n len K : Nat) (x y : Int) (hn : n < 10 ^ K) (hK : K ≤ 9000) (hl : len ≤ 9000) (h : SameExp x y) :
    binary64.ofDecimal n (x - len) = binary64.ofDecimal n (y - len) ∨ (¬ binary64.ofDecimal n (x - len) < binary64.inf ∧ ¬ binary64.ofDecimal n (y - len) < binary64.inf) := by
  rcases h with rfl | h | h
  · exact .inl rfl
  · rcases Nat.eq_zero_or_pos n with rfl | h0
    · left; rw [ofDecimal_zero _ binary64_ok.mant, ofDecimal_zero _ binary64_ok.mant]
    · exact .inr ⟨ofDecimal_huge n _ h0 (by omega), ofDecimal_huge n _ h0 (by omega)⟩
  · left
    have h1 : (2 : Nat) ^ (binary64.shift + 1) < 10 ^ 1000 := by decide +kernel
    have hs : n * 2 ^ (binary64.shift + 1) < 10 ^ (K + 1000) := by
      generalize binary64.shift + 1 = m at h1 ⊢
      rw [Nat.pow_add]
      generalize 10 ^ 1000 = t at h1 ⊢
      exact Nat.lt_of_le_of_lt (Nat.mul_le_mul_right _ (Nat.le_of_lt hn)) (Nat.mul_lt_mul_of_pos_left h1 (Nat.pow_pos (by decide)))
    rw [ofDecimal_tiny _ n (K + 1000) hs _ (by omega), ofDecimal_tiny _ n (K + 1000) hs _ (by omega)]

/-! ## Numbers -/

theorem parse_parts (f : FloatFmt) {l : Bytes} {neg : Bool} {n : Nat} {e : Int} (h : readFloat l = some (neg, n, e)) :
    f.parse l = if f.ofDecimal n e < f.inf then some ((if neg then f.sign else 0) + f.ofDecimal n e) else none := by
  unfold FloatFmt.parse
  rw [h]; rfl

theorem signed_bits (neg : Bool) (b : Nat) (hb : b < binary64.sign) :
    ((if neg then binary64.sign else 0) + b).toUInt64.toNat = (if neg then binary64.sign else 0) + b ∧ (((if neg then binary64.sign else 0) + b) / 2 ^ 63 = 1 ↔ neg = true) := by
  have hs : binary64.sign = 2 ^ 63 := by decide
  rw [hs] at hb ⊢
  have hto (n : Nat) (h : n < 2 ^ 64) : n.toUInt64.toNat = n := Nat.mod_eq_of_lt h
  cases neg
  · rw [if_neg (by decide)]
    exact ⟨hto _ (by omega), by simp; omega⟩
  · rw [if_pos rfl]
    exact ⟨hto _ (by omega), by simp; omega⟩

theorem number_read {l : Bytes} {q : Rat} (h : NumValue l q) (hl : l.length ≤ 9000) :
    (|q| < limit64 → ∃ v, parseFloat l = some v ∧ NearestF64 q v ∧ (v.toNat / 2 ^ 63 = 1 ↔ l.head? = some 45)) ∧ (limit64 ≤ |q| → parseFloat l = none) := by
  obtain ⟨sign, ip, frac, fp, ex, x, rfl, h1, h2, h3, h4, h5⟩ := h
  have hi : AllDigits ip ∧ ip ≠ [] := by
    rcases h2 with rfl | h2
    · exact ⟨by unfold AllDigits; decide, by decide⟩
    · exact ⟨seq_digits h2.1, h2.1.1⟩
  have hfp : AllDigits fp ∧ (frac = [] ∧ fp = [] ∨ frac = 46 :: fp) := by
    rcases h3 with h3 | h3
    · exact ⟨by rw [h3.2]; exact fun c hc => (by cases hc), .inl h3⟩
    · exact ⟨seq_digits h3.1, .inr h3.2⟩
  have hex : ∃ y, floatExp ex = some y ∧ SameExp y x ∧ ∀ c, ex.head? = some c → c = 101 ∨ c = 69 := by
    rcases h4 with ⟨rfl, rfl⟩ | ⟨e, s, ds, he, hs, hd, rfl, rfl⟩
    · exact ⟨0, rfl, .inl rfl, fun c hc => by cases hc⟩
    · obtain ⟨y, hy, hyx⟩ := readExp_any s ds hs hd
      refine ⟨y, ?_, hyx, fun c hc => by cases hc; exact he⟩
      show (if e = 101 ∨ e = 69 then readExp (s ++ ds) else none) = _
      rw [if_pos he, hy]
  obtain ⟨y, hy, hyx, hh⟩ := hex
  obtain ⟨neg, rfl⟩ : ∃ neg, sign = signText neg := by
    rcases h1 with rfl | rfl
    exacts [⟨false, rfl⟩, ⟨true, rfl⟩]
  have hr := readFloat_parts neg ip frac fp ex y hi.1 hi.2 hfp.1 hfp.2 hh hy
  have hlen : (ip ++ fp).length ≤ 9000 := by
    simp only [List.length_append] at hl ⊢
    rcases hfp.2 with h | h
    · rw [h.2]; simp; omega
    · rw [h] at hl; simp at hl; omega
  have hn : decValue (ip ++ fp) < 10 ^ (ip ++ fp).length := by
    rw [decValue_eq]; exact decAcc_lt _ (digits_append hi.1 hfp.1)
  have hsame := ofDecimal_same (decValue (ip ++ fp)) fp.length _ y x hn hlen (by simp at hlen; omega) hyx
  have hq : q = if neg then -(decValue (ip ++ fp) * tenTo (x - fp.length)) else decValue (ip ++ fp) * tenTo (x - fp.length) := by
    rw [h5]
    cases neg
    · rw [if_neg (by decide), if_neg (by decide)]; ring
    · rw [if_pos (by decide), if_pos rfl]; ring
  have hnn : 0 ≤ (decValue (ip ++ fp) : Rat) * tenTo (x - fp.length) := mul_nonneg (by positivity) (Rat.le_of_lt (tenTo_pos _))
  have habs : |q| = decValue (ip ++ fp) * tenTo (x - fp.length) := by
    rw [hq]; cases neg
    · simp only [Bool.false_eq_true, if_false]; exact abs_of_nonneg hnn
    · simp only [if_true, abs_neg]; exact abs_of_nonneg hnn
  have hrange := ofDecimal_limit (decValue (ip ++ fp)) (x - fp.length)
  rw [← habs] at hrange
  have hparse : binary64.parse (signText neg ++ (ip ++ (frac ++ ex))) = if binary64.ofDecimal (decValue (ip ++ fp)) (x - fp.length) < binary64.inf then
      some ((if neg then binary64.sign else 0) + binary64.ofDecimal (decValue (ip ++ fp)) (x - fp.length)) else none := by
    rw [parse_parts binary64 hr]
    rcases hsame with e | ⟨e1, e2⟩
    · rw [e]
    · rw [if_neg e1, if_neg e2]
  constructor
  · intro hlt
    have hb := hrange.2 hlt
    rw [if_pos hb] at hparse
    have hnear := ofDecimal_nearest (f := binary64) binary64_ok.mant binary64_ok.exp neg _ _ hb
    obtain ⟨b, hB⟩ : ∃ b, b = binary64.ofDecimal (decValue (ip ++ fp)) (x - fp.length) := ⟨_, rfl⟩
    rw [← hB] at hb hparse hnear
    obtain ⟨t1, t2⟩ := signed_bits neg b (Nat.lt_trans hb (inf_le_sign _))
    refine ⟨((if neg then binary64.sign else 0) + b).toUInt64, by rw [parseFloat, hparse, Option.map_some], ?_, ?_⟩
    · unfold NearestF64
      rw [t1, hq]
      exact hnear
    · rw [t1, t2]
      cases neg
      · obtain ⟨c, ip', rfl⟩ := List.exists_cons_of_ne_nil hi.2
        have := hi.1 c List.mem_cons_self
        constructor
        · intro h; cases h
        · intro h
          have h : some c = some 45 := h
          injection h with h
          rw [h] at this
          exact absurd this (by decide)
      · exact ⟨fun _ => rfl, fun _ => rfl⟩
  · intro hge
    rw [parseFloat, hparse, if_neg (fun h => absurd (hrange.1 h) (not_lt.2 hge)), Option.map_none]

theorem numLit_value {l : Bytes} (h : NumLit l) : ∃ q, NumValue l q := by
  obtain ⟨sign, int, frac, exp, h0, h1, h2, h3, h4⟩ := h
  obtain ⟨fp, hf⟩ : ∃ fp, frac = [] ∧ fp = [] ∨ DigitSeq fp ∧ frac = 46 :: fp := by
    rcases h3 with h | ⟨ds, h, h'⟩
    · exact ⟨[], .inl ⟨h, rfl⟩⟩
    · exact ⟨ds, .inr ⟨h, h'⟩⟩
  rcases h4 with h | ⟨e, s, ds, he, hs, hd, hx⟩
  · exact ⟨_, sign, int, frac, fp, exp, 0, h0, h1, h2, hf, .inl ⟨h, rfl⟩, rfl⟩
  · exact ⟨_, sign, int, frac, fp, exp, _, h0, h1, h2, hf, .inr ⟨e, s, ds, he, hs, hd, hx, rfl⟩, rfl⟩

end Verif
