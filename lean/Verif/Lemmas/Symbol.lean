import Verif.Model.Symbol
import Verif.Lemmas.Name
import Verif.Lemmas.Strconv
import Verif.Lemmas.PrimStrict
import Verif.Lemmas.Codec
namespace Verif

/-- Upper-case letters. -/
def AllUpper (s : Bytes) : Prop := ∀ c ∈ s, 65 ≤ c.toNat ∧ c.toNat ≤ 90

theorem AllUpper.cons {c : UInt8} {s : Bytes} : AllUpper (c :: s) ↔ (65 ≤ c.toNat ∧ c.toNat ≤ 90) ∧ AllUpper s := by
  simp [AllUpper]

theorem upper_iff (c : UInt8) : (c ≥ 65 ∧ c ≤ 90) ↔ 65 ≤ c.toNat ∧ c.toNat ≤ 90 := by
  rw [ge_iff_le, UInt8.le_iff_toNat_le, UInt8.le_iff_toNat_le]; rfl

theorem pow_8 (i : Nat) : 2 ^ (8 * i) = 256 ^ i := by rw [Nat.pow_mul]

theorem rawSymbolLoop_ok (s : Bytes) (i : Nat) (rv : UInt64) (h : AllUpper s) (hi : i + s.length ≤ 7) (hrv : rv.toNat < 256 ^ (i + 1)) :
    ∃ r, rawSymbolLoop s i rv = some r ∧ r.toNat = rv.toNat + 256 ^ (i + 1) * leNat s := by
  induction s generalizing i rv with
  | nil => exact ⟨rv, rfl, by simp [leNat]⟩
  | cons c s ih =>
    rw [AllUpper.cons] at h
    simp only [List.length_cons] at hi
    have hs : (8 * (i + 1)).toUInt64.toNat = 8 * (i + 1) := by simp; omega
    have hp : 256 ^ (i + 1) * 256 ≤ 2 ^ 64 := by
      rw [← Nat.pow_succ, ← pow_8]; exact Nat.pow_le_pow_right (by decide) (by omega)
    have hb : c.toUInt64.toNat = c.toNat := by simp
    have h256 : c.toNat < 256 := c.toNat_lt
    have hmul : c.toNat * 256 ^ (i + 1) < 256 ^ (i + 1) * 256 := by
      rw [Nat.mul_comm]; exact Nat.mul_lt_mul_of_pos_left h256 (Nat.pow_pos (by decide))
    have hor : (rv ||| (c.toUInt64 <<< (8 * (i + 1)).toUInt64)).toNat = rv.toNat + 256 ^ (i + 1) * c.toNat := by
      rw [toNat_or_shift _ _ _ (by rw [hs]; omega) (by rw [hs, pow_8]; exact hrv) (by rw [hs, pow_8, hb]; omega), hs, pow_8, hb]
    obtain ⟨r, h1, h2⟩ := ih (i + 1) (rv ||| (c.toUInt64 <<< (8 * (i + 1)).toUInt64)) h.2 (by omega) (by
      rw [hor, Nat.pow_succ 256 (i + 1)]
      have : 256 ^ (i + 1) * c.toNat ≤ 256 ^ (i + 1) * 255 := Nat.mul_le_mul_left _ (by omega)
      omega)
    refine ⟨r, ?_, ?_⟩
    · simp only [rawSymbolLoop, (upper_iff c).mpr h.1]
      simpa using h1
    · rw [h2, hor, leNat, Nat.pow_succ 256 (i + 1), Nat.mul_add, Nat.mul_assoc]; omega

theorem rawSymbolLoop_bad (s : Bytes) (i : Nat) (rv : UInt64) (h : ¬AllUpper s) : rawSymbolLoop s i rv = none := by
  induction s generalizing i rv with
  | nil => exact absurd (by simp [AllUpper]) h
  | cons c s ih =>
    rw [AllUpper.cons] at h
    simp only [rawSymbolLoop]
    split
    · rfl
    · rename_i hc
      rw [upper_iff] at hc
      exact ih _ _ (fun hs => h ⟨by omega, hs⟩)

theorem gt18_iff (p : UInt8) : p > 18 ↔ 18 < p.toNat := by rw [gt_iff_lt, UInt8.lt_iff_toNat_lt]; rfl

theorem rawSymbolValue_ok (p : UInt8) (s : Bytes) (hp : p.toNat ≤ 18) (h : SymbolName s) :
    ∃ v, rawSymbolValue p s = (v, none) ∧ v.toNat = symbolBits p.toNat s := by
  obtain ⟨r, h1, h2⟩ := rawSymbolLoop_ok s 0 0 h.2 (by have := h.1; omega) (by simp)
  refine ⟨r ||| p.toUInt64, ?_, ?_⟩
  · unfold rawSymbolValue
    rw [if_neg (by rw [gt18_iff]; omega), if_neg (by have := h.1; omega), h1]
  · have hr : r.toNat = 256 * leNat s := by simpa using h2
    rw [or_add r p.toUInt64 8 (by rw [hr]; simp) (by have := p.toNat_lt; simpa using this), hr, symbolBits, leValue_eq_leNat]
    simp; omega

theorem rawSymbolValue_bad (p : UInt8) (s : Bytes) (h : ¬(p.toNat ≤ 18 ∧ SymbolName s)) : ∃ e, rawSymbolValue p s = (0, some e) := by
  unfold rawSymbolValue
  split
  · exact ⟨_, rfl⟩
  · rename_i hp
    rw [gt18_iff] at hp
    split
    · exact ⟨_, rfl⟩
    · rename_i hl
      rw [rawSymbolLoop_bad s 0 0 (fun hu => h ⟨by omega, by omega, hu⟩)]
      exact ⟨_, rfl⟩

theorem newSymbol_ok (p : UInt8) (s : Bytes) (hp : p.toNat ≤ 18) (h : SymbolName s) :
    ∃ v, newSymbol p s = (v, none) ∧ v.toNat = symbolBits p.toNat s := by
  obtain ⟨v, h1, h2⟩ := rawSymbolValue_ok p s hp h
  exact ⟨v, by simp [newSymbol, h1], h2⟩

theorem newSymbol_bad (p : UInt8) (s : Bytes) (h : ¬(p.toNat ≤ 18 ∧ SymbolName s)) : ∃ e, newSymbol p s = (0, some e) := by
  obtain ⟨e, h1⟩ := rawSymbolValue_bad p s h
  exact ⟨e, by simp [newSymbol, h1]⟩

/-! ### Accessors -/

theorem symbolBits_decimals (v : UInt64) (p : Nat) (s : Bytes) (hp : p < 256) (h : v.toNat = symbolBits p s) : Symbol.decimals v = p := by
  have : (v &&& 0xFF).toNat = v.toNat % 2 ^ 8 := by
    rw [UInt64.toNat_and]; exact Nat.and_two_pow_sub_one_eq_mod _ 8
  rw [Symbol.decimals, this, h, symbolBits]
  omega

theorem shr8 (v : UInt64) : (v >>> 8).toNat = v.toNat / 256 := by
  rw [UInt64.toNat_shiftRight]; simp [Nat.shiftRight_eq_div_pow]

theorem symbolBits_code (v : UInt64) (p : Nat) (s : Bytes) (hp : p < 256) (h : v.toNat = symbolBits p s) :
    (Symbol.code v).toNat = leValue s := by
  rw [Symbol.code, shr8, h, symbolBits]; omega

theorem runeOfByte_ascii (c : UInt8) (h : c.toNat < 128) : runeOfByte c = [c] := by
  unfold runeOfByte; rw [if_pos]; rw [UInt8.lt_iff_toNat_lt]; exact h

theorem symbolNameLoop_eq (f : Nat) (s : Bytes) (v : UInt64) (h : AllUpper s) (hf : s.length ≤ f) (hv : v.toNat = leNat s) :
    symbolNameLoop f v = s := by
  induction f generalizing s v with
  | zero =>
    have : s = [] := List.eq_nil_of_length_eq_zero (by omega)
    subst this; rfl
  | succ f ih =>
    cases s with
    | nil =>
      have : v = 0 := UInt64.toNat_inj.mp (by simpa [leNat] using hv)
      subst this; simp [symbolNameLoop]
    | cons c s =>
      rw [AllUpper.cons] at h
      simp only [leNat] at hv
      simp only [List.length_cons] at hf
      have hc : v.toUInt8 = c := by
        apply UInt8.toNat_inj.mp
        rw [UInt64.toNat_toUInt8, hv]
        have := c.toNat_lt; omega
      have hpos : v > 0 := by
        rw [gt_iff_lt, UInt64.lt_iff_toNat_lt]; simp; omega
      have ht := ih s (v >>> 8) h.2 (by omega) (by rw [shr8, hv]; have := c.toNat_lt; omega)
      simp only [symbolNameLoop, hpos, if_true, hc, runeOfByte_ascii c (by omega), ht]
      rfl

theorem symbolBits_name (v : UInt64) (p : Nat) (s : Bytes) (hp : p < 256) (hs : SymbolName s) (h : v.toNat = symbolBits p s) :
    Symbol.name v = s :=
  symbolNameLoop_eq 7 s _ hs.2 hs.1 (by
    have := symbolBits_code v p s hp h
    rw [Symbol.code] at this; rw [this, leValue_eq_leNat])

theorem toInt_mul (a b : Int64) (h1 : -2 ^ 63 ≤ a.toInt * b.toInt) (h2 : a.toInt * b.toInt < 2 ^ 63) : (a * b).toInt = a.toInt * b.toInt := by
  rw [Int64.toInt_mul, Int.bmod_eq_of_le]
  · simpa using h1
  · simpa using h2

theorem precisionLoop_eq (p : Nat) (a : Int64) (k : Nat) (hk : k + p ≤ 18) (ha : a.toInt = 10 ^ k) :
    (precisionLoop p a).toInt = 10 ^ (k + p) := by
  induction p generalizing a k with
  | zero => simpa [precisionLoop] using ha
  | succ p ih =>
    simp only [precisionLoop]
    have h10 : (10 : Int64).toInt = 10 := by decide
    have hle : (10 : Int) ^ (k + 1) ≤ 10 ^ 18 := by
      exact_mod_cast (Nat.pow_le_pow_right (by decide) (by omega : k + 1 ≤ 18) : 10 ^ (k + 1) ≤ 10 ^ 18)
    have hpos : (0 : Int) < 10 ^ (k + 1) := Int.pow_pos (by decide)
    have hm : (a * 10).toInt = 10 ^ (k + 1) := by
      rw [toInt_mul]
      · rw [ha, h10, Int.pow_succ]
      · rw [ha, h10, ← Int.pow_succ]; omega
      · rw [ha, h10, ← Int.pow_succ]; omega
    rw [ih _ (k + 1) (by omega) hm]
    congr 1; omega

theorem precision_eq (v : UInt64) (h : Symbol.decimals v ≤ 18) : (Symbol.precision v).toInt = 10 ^ (Symbol.decimals v) := by
  have := precisionLoop_eq (Symbol.decimals v) 1 0 (by omega) (by decide)
  simpa [Symbol.precision] using this

/-! ### Text -/

theorem notMem_of_allDigits {s : Bytes} (h : AllDigits s) (c : UInt8) (hc : ¬(48 ≤ c.toNat ∧ c.toNat ≤ 57)) : c ∉ s :=
  fun hm => hc (h c hm)

theorem notMem_of_symbolName {s : Bytes} (h : AllUpper s) (c : UInt8) (hc : ¬(65 ≤ c.toNat ∧ c.toNat ≤ 90)) : c ∉ s :=
  fun hm => hc (h c hm)

theorem toUInt8_of_lt (n : Nat) (h : n < 256) : n.toUInt8.toNat = n := by simp; omega

theorem newSymbolFromString_ok (d : Bytes) (p : Nat) (s : Bytes) (hp : p ≤ 18) (hc : 44 ∉ d) (hd : parseInt 8 d = ((p : Int), none))
    (hs : SymbolName s) : ∃ v, newSymbolFromString (d ++ 44 :: s) = (v, none) ∧ v.toNat = symbolBits p s := by
  have h1 : splitByte 44 (d ++ 44 :: s) = [d, s] := by
    rw [splitByte_two]; exact ⟨rfl, hc, notMem_of_symbolName hs.2 44 (by decide)⟩
  have hp8 : ((p : Int) % 256).toNat.toUInt8 = p.toUInt8 := by congr 1; omega
  obtain ⟨v, h2, h3⟩ := rawSymbolValue_ok p.toUInt8 s (by rw [toUInt8_of_lt _ (by omega)]; omega) hs
  rw [toUInt8_of_lt _ (by omega)] at h3
  refine ⟨v, ?_, h3⟩
  simp only [newSymbolFromString, h1, hd, hp8, h2]

theorem symbolString_eq (v : UInt64) (p : Nat) (s : Bytes) (hp : p < 256) (hs : SymbolName s) (h : v.toNat = symbolBits p s) :
    Symbol.string v = fmtNat p ++ 44 :: s := by
  rw [Symbol.string, symbolBits_decimals v p s hp h, symbolBits_name v p s hp hs h]
  simp

theorem symbol_text_roundtrip (v : UInt64) (p : Nat) (s : Bytes) (hp : p ≤ 18) (hs : SymbolName s) (h : v.toNat = symbolBits p s) :
    newSymbolFromString (Symbol.string v) = (v, none) := by
  rw [symbolString_eq v p s (by omega) hs h]
  obtain ⟨w, h1, h2⟩ := newSymbolFromString_ok (fmtNat p) p s hp (notMem_of_allDigits (fmtNat_spec p).1 44 (by decide))
    (parseInt_fmtNat 8 (by decide) p (by omega)) hs
  rw [h1, show w = v from UInt64.toNat_inj.mp (by rw [h2, h])]

/-! ### Asset parsing -/

theorem digit_iff (c : UInt8) : (c ≥ 48 ∧ c ≤ 57) ↔ 48 ≤ c.toNat ∧ c.toNat ≤ 57 := by
  rw [ge_iff_le, UInt8.le_iff_toNat_le, UInt8.le_iff_toNat_le]; rfl

theorem add1_toNat (p : UInt8) (h : p.toNat < 255) : (p + 1).toNat = p.toNat + 1 := by
  rw [UInt8.toNat_add]; simp; omega

/-- After the point. -/
theorem assetLoop_frac (s : Bytes) (i : Nat) (hi : i ≠ 0) (p : UInt8) (hp : p.toNat ≤ 18) (b : Bytes) (q : UInt8) (b' : Bytes) :
    assetLoop s i true p b = some (q, b') ↔ AllDigits s ∧ p.toNat + s.length ≤ 18 ∧ q.toNat = p.toNat + s.length ∧ b' = b ++ s := by
  induction s generalizing i p b with
  | nil =>
    simp only [assetLoop, Option.some.injEq, Prod.mk.injEq, AllDigits.nil, true_and, List.length_nil, Nat.add_zero, List.append_nil]
    constructor
    · rintro ⟨rfl, rfl⟩; exact ⟨hp, rfl, rfl⟩
    · rintro ⟨_, h, rfl⟩; exact ⟨(UInt8.toNat_inj.mp h).symm, rfl⟩
  | cons c s ih =>
    simp only [assetLoop, hi, and_false, if_false, AllDigits.cons, isDigit_iff]
    by_cases h46 : c = 46
    · subst h46; simp
    · rw [if_neg h46]
      simp only [if_true, true_and]
      by_cases hgt : p + 1 > 18
      · rw [if_pos hgt]
        rw [gt18_iff, add1_toNat p (by omega)] at hgt
        simp only [List.length_cons]
        constructor
        · intro h; cases h
        · rintro ⟨_, h, _⟩; omega
      · rw [if_neg hgt]
        rw [gt18_iff, add1_toNat p (by omega)] at hgt
        by_cases hd : c ≥ 48 ∧ c ≤ 57
        · rw [if_pos hd, ih (i + 1) (by omega) (p + 1) (by rw [add1_toNat p (by omega)]; omega), add1_toNat p (by omega)]
          rw [digit_iff] at hd
          simp only [hd, true_and, List.length_cons, List.append_assoc, List.cons_append, List.nil_append]
          constructor
          · rintro ⟨h1, h2, h3, h4⟩; exact ⟨h1, by omega, by omega, h4⟩
          · rintro ⟨h1, h2, h3, h4⟩; exact ⟨h1, by omega, by omega, h4⟩
        · rw [if_neg hd]
          rw [digit_iff] at hd
          simp only [hd, false_and]
          constructor
          · intro h; cases h
          · intro h; exact h.elim

/-- Before the point, not at the first character. -/
theorem assetLoop_int (s : Bytes) (i : Nat) (hi : i ≠ 0) (b : Bytes) (q : UInt8) (b' : Bytes) :
    assetLoop s i false 0 b = some (q, b') ↔ ∃ (ip fp : Bytes) (point : Bool), s = ip ++ (if point then 46 :: fp else []) ∧
      AllDigits ip ∧ AllDigits fp ∧ (point = false → fp = []) ∧ fp.length ≤ 18 ∧ q.toNat = fp.length ∧ b' = b ++ ip ++ fp := by
  induction s generalizing i b with
  | nil =>
    simp only [assetLoop, Option.some.injEq, Prod.mk.injEq]
    constructor
    · rintro ⟨rfl, rfl⟩
      exact ⟨[], [], false, rfl, AllDigits.nil, AllDigits.nil, fun _ => rfl, by simp, by simp, by simp⟩
    · rintro ⟨ip, fp, point, h1, _, _, h4, _, h6, h7⟩
      cases point with
      | true => simp at h1
      | false =>
        simp at h1
        have := h4 rfl
        subst this h1
        simp at h6 h7
        exact ⟨(UInt8.toNat_inj.mp h6).symm, h7.symm⟩
  | cons c s ih =>
    simp only [assetLoop, hi, and_false, if_false, Bool.false_eq_true, false_and]
    by_cases h46 : c = 46
    · subst h46
      rw [if_pos rfl, assetLoop_frac s (i + 1) (by omega) 0 (by decide)]
      simp only [UInt8.toNat_zero, Nat.zero_add]
      constructor
      · rintro ⟨h1, h2, h3, h4⟩
        exact ⟨[], s, true, rfl, AllDigits.nil, h1, by simp, h2, h3, by simpa using h4⟩
      · rintro ⟨ip, fp, point, h1, h2, h3, h4, h5, h6, h7⟩
        cases ip with
        | nil =>
          cases point with
          | true => simp at h1; subst h1; exact ⟨h3, h5, h6, by simpa using h7⟩
          | false => simp at h1
        | cons d ip =>
          simp at h1
          rw [AllDigits.cons, isDigit_iff, ← h1.1] at h2
          simp at h2
    · rw [if_neg h46]
      by_cases hd : c ≥ 48 ∧ c ≤ 57
      · rw [if_pos hd, ih (i + 1) (by omega)]
        rw [digit_iff] at hd
        constructor
        · rintro ⟨ip, fp, point, h1, h2, h3, h4, h5, h6, h7⟩
          exact ⟨c :: ip, fp, point, by simp [h1], by rw [AllDigits.cons, isDigit_iff]; exact ⟨hd, h2⟩, h3, h4, h5, h6, by simpa using h7⟩
        · rintro ⟨ip, fp, point, h1, h2, h3, h4, h5, h6, h7⟩
          cases ip with
          | nil =>
            cases point with
            | true => simp at h1; exact absurd h1.1 h46
            | false => simp at h1
          | cons d ip =>
            simp at h1
            rw [AllDigits.cons] at h2
            exact ⟨ip, fp, point, h1.2, h2.2, h3, h4, h5, h6, by rw [h7, h1.1]; simp⟩
      · rw [if_neg hd]
        rw [digit_iff] at hd
        constructor
        · intro h; cases h
        · rintro ⟨ip, fp, point, h1, h2, _⟩
          cases ip with
          | nil =>
            cases point with
            | true => simp at h1; exact absurd h1.1 h46
            | false => simp at h1
          | cons d ip =>
            simp at h1
            rw [AllDigits.cons, isDigit_iff, ← h1.1] at h2
            exact absurd h2.1 hd

/-- The whole loop. -/
theorem assetLoop_iff (s : Bytes) (q : UInt8) (b' : Bytes) :
    assetLoop s 0 false 0 [] = some (q, b') ↔ ∃ (neg : Bool) (ip fp : Bytes) (point : Bool),
      s = (if neg then [45] else []) ++ ip ++ (if point then 46 :: fp else []) ∧
      AllDigits ip ∧ AllDigits fp ∧ (point = false → fp = []) ∧ fp.length ≤ 18 ∧ q.toNat = fp.length ∧
      b' = (if neg then [45] else []) ++ ip ++ fp := by
  cases s with
  | nil =>
    simp only [assetLoop, Option.some.injEq, Prod.mk.injEq]
    constructor
    · rintro ⟨rfl, rfl⟩
      exact ⟨false, [], [], false, rfl, AllDigits.nil, AllDigits.nil, fun _ => rfl, by simp, by simp, by simp⟩
    · rintro ⟨neg, ip, fp, point, h1, _, _, h4, _, h6, h7⟩
      cases neg with
      | true => simp at h1
      | false =>
        cases point with
        | true => simp at h1
        | false =>
          simp at h1
          have := h4 rfl
          subst this h1
          simp at h6 h7
          exact ⟨(UInt8.toNat_inj.mp h6).symm, h7.symm⟩
  | cons c s =>
    have hlead : ∀ (ip fp : Bytes) (point : Bool), c :: s = ip ++ (if point then 46 :: fp else []) → AllDigits ip →
        c = 46 ∨ (48 ≤ c.toNat ∧ c.toNat ≤ 57) := by
      intro ip fp point h1 h2
      cases ip with
      | nil =>
        cases point with
        | true => simp at h1; exact Or.inl h1.1
        | false => simp at h1
      | cons d ip =>
        simp at h1
        rw [AllDigits.cons, isDigit_iff, ← h1.1] at h2
        exact Or.inr h2.1
    by_cases h45 : c = 45
    · subst h45
      have he : assetLoop (45 :: s) 0 false 0 [] = assetLoop s 1 false 0 [45] := by simp [assetLoop]
      rw [he, assetLoop_int s 1 (by decide)]
      constructor
      · rintro ⟨ip, fp, point, h1, h2, h3, h4, h5, h6, h7⟩
        exact ⟨true, ip, fp, point, by simp [h1], h2, h3, h4, h5, h6, by simpa using h7⟩
      · rintro ⟨neg, ip, fp, point, h1, h2, h3, h4, h5, h6, h7⟩
        cases neg with
        | true => simp at h1; exact ⟨ip, fp, point, h1, h2, h3, h4, h5, h6, by simpa using h7⟩
        | false =>
          simp at h1
          have := hlead ip fp point h1 h2
          simp at this
    · have he : assetLoop (c :: s) 0 false 0 [] = assetLoop (c :: s) 1 false 0 [] := by
        simp only [assetLoop, h45, false_and, if_false]
        by_cases h46 : c = 46
        · subst h46
          simp only [if_true, Bool.false_eq_true, if_false]
          apply Option.ext
          rintro ⟨q, b⟩
          rw [assetLoop_frac s _ (by decide) 0 (by decide), assetLoop_frac s _ (by decide) 0 (by decide)]
        · simp only [h46, if_false, Bool.false_eq_true, false_and]
          split
          · apply Option.ext
            rintro ⟨q, b⟩
            rw [assetLoop_int s _ (by decide), assetLoop_int s _ (by decide)]
          · rfl
      rw [he, assetLoop_int (c :: s) 1 (by decide)]
      constructor
      · rintro ⟨ip, fp, point, h1, h2, h3, h4, h5, h6, h7⟩
        exact ⟨false, ip, fp, point, by simpa using h1, h2, h3, h4, h5, h6, by simpa using h7⟩
      · rintro ⟨neg, ip, fp, point, h1, h2, h3, h4, h5, h6, h7⟩
        cases neg with
        | true => simp at h1; exact absurd h1.1 h45
        | false => exact ⟨ip, fp, point, by simpa using h1, h2, h3, h4, h5, h6, by simpa using h7⟩

theorem int64_ofInt_toInt (v : Int) (h1 : -2 ^ 63 ≤ v) (h2 : v < 2 ^ 63) : (Int64.ofInt v).toInt = v := by
  rw [Int64.toInt_ofInt, Int.bmod_eq_of_le]
  · simpa using h1
  · simpa using h2

/-- Signed digit strings and ParseInt. -/
theorem parseInt64_signed (neg : Bool) (ds : Bytes) (h : AllDigits ds) (v : Int) :
    parseInt 64 ((if neg then [45] else []) ++ ds) = (v, none) ↔
      ds ≠ [] ∧ v = (if neg then -(decValue ds : Int) else decValue ds) ∧ -2 ^ 63 ≤ v ∧ v < 2 ^ 63 := by
  cases neg with
  | true =>
    simp only [if_true, List.cons_append, List.nil_append]
    rw [parseInt_neg 64 (by decide) ds h]
    constructor
    · rintro ⟨h1, h2, h3⟩; exact ⟨h1, h3, by omega, by omega⟩
    · rintro ⟨h1, h2, h3, h4⟩; exact ⟨h1, by omega, h2⟩
  | false =>
    simp only [Bool.false_eq_true, if_false, List.nil_append]
    rw [parseInt_digits 64 (by decide) ds h]
    constructor
    · rintro ⟨h1, h2, h3⟩; exact ⟨h1, h3, by omega, by omega⟩
    · rintro ⟨h1, h2, h3, h4⟩; exact ⟨h1, by omega, h2⟩

theorem newAsset_iff (s : Bytes) (a : Asset) :
    newAssetFromString s = (some a, none) ↔
      ∃ d name, AssetText s a.value.toInt d name ∧ a.symbol.toNat = symbolBits d name := by
  constructor
  · intro h
    unfold newAssetFromString at h
    split at h
    · rename_i p0 p1 hsplit
      split at h
      · simp at h
      · rename_i hne
        split at h
        · simp at h
        · rename_i prec builder hloop
          rw [assetLoop_iff] at hloop
          obtain ⟨neg, ip, fp, point, e1, e2, e3, e4, e5, e6, e7⟩ := hloop
          split at h
          · simp at h
          · rename_i units hparse
            rw [e7, List.append_assoc, parseInt64_signed neg (ip ++ fp) (AllDigits.append.mpr ⟨e2, e3⟩)] at hparse
            obtain ⟨p1', p2, p3, p4⟩ := hparse
            split at h
            · simp at h
            · rename_i sym hsym
              simp at h
              subst h
              have hs : prec.toNat ≤ 18 ∧ SymbolName p1 := by
                refine Decidable.byContradiction fun hc => ?_
                obtain ⟨e, he⟩ := newSymbol_bad prec p1 hc
                rw [he] at hsym; simp at hsym
              obtain ⟨v, hv1, hv2⟩ := newSymbol_ok prec p1 hs.1 hs.2
              rw [hv1] at hsym
              simp at hsym
              subst hsym
              rw [splitByte_two] at hsplit
              refine ⟨fp.length, p1, ⟨neg, ip, fp, point, ?_, e2, e3, e4, p1', e5, rfl, hs.2, fun h0 => hne (Or.inr h0), ?_, ?_, ?_⟩, ?_⟩
              · rw [hsplit.1, e1]
              · simp only [int64_ofInt_toInt _ p3 p4]; exact p2
              · simp only [int64_ofInt_toInt _ p3 p4]; exact p3
              · simp only [int64_ofInt_toInt _ p3 p4]; exact p4
              · simp only [hv2, e6]
    · simp at h
  · rintro ⟨d, name, ⟨neg, ip, fp, point, h1, h2, h3, h4, h5, h6, h7, h8, h9, h10, h11, h12⟩, hsym⟩
    have hno : (32 : UInt8) ∉ (if neg then [45] else []) ++ ip ++ (if point then 46 :: fp else []) := by
      have a1 := notMem_of_allDigits h2 32 (by decide)
      have a2 := notMem_of_allDigits h3 32 (by decide)
      cases neg <;> cases point <;> simp [a1, a2]
    have hsplit : splitByte 32 s = [(if neg then [45] else []) ++ ip ++ (if point then 46 :: fp else []), name] := by
      rw [splitByte_two]
      exact ⟨h1, hno, notMem_of_symbolName h8.2 32 (by decide)⟩
    have hne : ¬((if neg then [45] else []) ++ ip ++ (if point then 46 :: fp else []) = [] ∨ name = []) := by
      rintro (hh | hh)
      · apply h5
        simp at hh
        cases point with
        | true => simp at hh
        | false => simp [hh.2.1, h4 rfl]
      · exact h9 hh
    have hloop := (assetLoop_iff _ fp.length.toUInt8 ((if neg then [45] else []) ++ ip ++ fp)).mpr
      ⟨neg, ip, fp, point, rfl, h2, h3, h4, h6, toUInt8_of_lt _ (by omega), rfl⟩
    have hparse := (parseInt64_signed neg (ip ++ fp) (AllDigits.append.mpr ⟨h2, h3⟩) a.value.toInt).mpr ⟨h5, h10, h11, h12⟩
    rw [← List.append_assoc] at hparse
    obtain ⟨v, hv1, hv2⟩ := newSymbol_ok fp.length.toUInt8 name (by rw [toUInt8_of_lt _ (by omega)]; exact h6) h8
    rw [toUInt8_of_lt _ (by omega), ← h7] at hv2
    have hv : v = a.symbol := UInt64.toNat_inj.mp (by rw [hv2, hsym])
    simp only [newAssetFromString, hsplit, hne, if_false, hloop, hparse, hv1, hv, Int64.ofInt_toInt]

theorem newAsset_error (s : Bytes) (h : ∀ a, newAssetFromString s ≠ (some a, none)) : ∃ e, newAssetFromString s = (none, some e) := by
  unfold newAssetFromString at h ⊢
  split
  · rename_i p0 p1 hsplit
    split
    · exact ⟨_, rfl⟩
    · split
      · exact ⟨_, rfl⟩
      · split
        · exact ⟨_, rfl⟩
        · split
          · exact ⟨_, rfl⟩
          · exfalso
            rename_i hne _ _ _ hl _ _ hp _ _ hn
            simp only [hsplit, hne, if_false, hl, hp, hn] at h
            exact h _ rfl
  · exact ⟨_, rfl⟩

/-! ### Printing -/

theorem precision_zero_iff (v : UInt64) : Symbol.precision v = 0 ↔ 64 ≤ Symbol.decimals v := by
  have hall : ∀ p : Fin 256, precisionLoop p.val 1 = 0 ↔ 64 ≤ p.val := by decide +kernel
  have hlt : Symbol.decimals v < 256 := by
    have : (v &&& 0xFF).toNat = v.toNat % 2 ^ 8 := by
      rw [UInt64.toNat_and]; exact Nat.and_two_pow_sub_one_eq_mod _ 8
    rw [Symbol.decimals, this]; omega
  exact hall ⟨Symbol.decimals v, hlt⟩

theorem int64_bounds (v : Int64) : -2 ^ 63 ≤ v.toInt ∧ v.toInt < 2 ^ 63 := ⟨v.le_toInt, v.toInt_lt⟩

theorem int64_neg_iff (v : Int64) : v < 0 ↔ v.toInt < 0 := by rw [Int64.lt_iff_toInt_lt]; rfl

theorem int64_abs (v : Int64) (h : v.toInt ≠ -2 ^ 63) : (if v < 0 then -v else v).toInt = v.toInt.natAbs := by
  have hb := int64_bounds v
  by_cases hn : v < 0
  · rw [if_pos hn, Int64.toInt_neg, Int.bmod_eq_of_le (by simp; omega) (by simp; omega)]
    rw [int64_neg_iff] at hn
    omega
  · rw [if_neg hn]
    rw [int64_neg_iff] at hn
    omega

theorem fmtInt_nat (n : Nat) : fmtInt (n : Int) = fmtNat n := by
  unfold fmtInt; rw [if_neg (by omega)]; rfl

theorem int64_div_nat (a b : Int64) (m n : Nat) (ha : a.toInt = m) (hb : b.toInt = n) : (a / b).toInt = (m / n : Nat) := by
  have h1 := int64_bounds a
  rw [ha] at h1
  rw [Int64.toInt_div, ha, hb]
  have : (m : Int).tdiv n = (m / n : Nat) := by simp
  rw [this]
  have hle : m / n ≤ m := Nat.div_le_self _ _
  generalize m / n = q at *
  rw [Int.bmod_eq_of_le (by omega) (by omega)]

theorem int64_mod_nat (a b : Int64) (m n : Nat) (ha : a.toInt = m) (hb : b.toInt = n) : (a % b).toInt = (m % n : Nat) := by
  rw [Int64.toInt_mod, ha, hb]
  simp [Int.tmod_eq_emod_of_nonneg]

theorem decAcc_replicate_zero (k : Nat) (s : Bytes) : decAcc 0 (List.replicate k 48 ++ s) = decAcc 0 s := by
  induction k with
  | zero => simp
  | succ k ih =>
    rw [List.replicate_succ, List.cons_append, decAcc_cons]
    simpa using ih

theorem allDigits_replicate (k : Nat) : AllDigits (List.replicate k 48) := by
  intro c hc
  rw [List.mem_replicate] at hc
  rw [hc.2]; decide

/-- What String prints for at most 18 decimals. -/
theorem assetString_eq (a : Asset) (hd : Symbol.decimals a.symbol ≤ 18) (hv : a.value.toInt ≠ -2 ^ 63) :
    ∃ ip fp : Bytes, a.string = .val ((if decide (a.value.toInt < 0) then [45] else []) ++ ip ++
        (if decide (0 < Symbol.decimals a.symbol) then 46 :: fp else []) ++ 32 :: Symbol.name a.symbol) ∧
      AllDigits ip ∧ AllDigits fp ∧ fp.length = Symbol.decimals a.symbol ∧ ip ≠ [] ∧
      ip = fmtNat (a.value.toInt.natAbs / 10 ^ Symbol.decimals a.symbol) ∧ decValue (ip ++ fp) = a.value.toInt.natAbs := by
  have hprec := precision_eq a.symbol hd
  have hp0 : ¬ Symbol.precision a.symbol = 0 := by rw [precision_zero_iff]; omega
  have habs := int64_abs a.value hv
  generalize hD : Symbol.decimals a.symbol = d at *
  generalize hN : a.value.toInt.natAbs = n at *
  have hprec' : (Symbol.precision a.symbol).toInt = ((10 ^ d : Nat) : Int) := by rw [hprec]; simp
  have hdiv := int64_div_nat _ _ n (10 ^ d) habs hprec'
  have hmod := int64_mod_nat _ _ n (10 ^ d) habs hprec'
  have hs1 := fmtNat_spec (n / 10 ^ d)
  have hs2 := fmtNat_spec (n % 10 ^ d)
  have hpow : 0 < 10 ^ d := Nat.pow_pos (by decide)
  have hmodlt : n % 10 ^ d < 10 ^ d := Nat.mod_lt _ hpow
  by_cases h0 : d = 0
  · refine ⟨fmtNat (n / 10 ^ d), [], ?_, hs1.1, AllDigits.nil, by simp [h0], hs1.2.2.1, rfl, ?_⟩
    · simp only [Asset.string, hp0, if_false, hD, hdiv, fmtInt_nat, h0]
      simp [int64_neg_iff]
    · rw [List.append_nil, decValue_eq, hs1.2.1, h0]; simp
  · have hlen := fmtNat_length (n % 10 ^ d) d hmodlt (by omega)
    refine ⟨fmtNat (n / 10 ^ d), List.replicate (d - (fmtNat (n % 10 ^ d)).length) 48 ++ fmtNat (n % 10 ^ d), ?_, hs1.1, ?_, ?_,
      hs1.2.2.1, rfl, ?_⟩
    · have hd0 : 0 < d := by omega
      simp only [Asset.string, hp0, if_false, hD, hdiv, hmod, fmtInt_nat, hd0]
      simp [int64_neg_iff]
    · exact AllDigits.append.mpr ⟨allDigits_replicate _, hs2.1⟩
    · simp; omega
    · rw [decValue_eq, decAcc_append, decAcc_split, decAcc_replicate_zero, hs1.2.1, hs2.2.1, List.length_append, List.length_replicate,
        Nat.sub_add_cancel hlen]
      have := Nat.div_add_mod n (10 ^ d)
      rw [Nat.mul_comm] at this
      exact this

theorem precisionLoop_bmod (p : Nat) (a : Int64) : (precisionLoop p a).toInt = (a.toInt * 10 ^ p).bmod (2 ^ 64) := by
  induction p generalizing a with
  | zero =>
    have := int64_bounds a
    rw [precisionLoop, Int.pow_zero, Int.mul_one, Int.bmod_eq_of_le (by simp; omega) (by simp; omega)]
  | succ p ih =>
    rw [precisionLoop, ih, Int64.toInt_mul, Int.bmod_mul_bmod, Int.mul_assoc, Int.pow_succ, Int.mul_comm (10 ^ p)]
    rfl
theorem precision_bmod (v : UInt64) : (Symbol.precision v).toInt = ((10 : Int) ^ Symbol.decimals v).bmod (2 ^ 64) := by
  rw [Symbol.precision, precisionLoop_bmod]
  exact congrArg (Int.bmod · (2 ^ 64)) (Int.one_mul _)

theorem fmtInt_neg (k : Nat) (h : 0 < k) : fmtInt (-(k : Int)) = 45 :: fmtNat k := by
  unfold fmtInt
  rw [if_pos (by omega), Int.natAbs_neg, Int.natAbs_natCast]

theorem lt_pow10 {n d : Nat} (h : n < 2 ^ 63) (hd : 19 ≤ d) : n < 10 ^ d :=
  Nat.lt_of_lt_of_le h (Nat.le_trans (by decide : 2 ^ 63 ≤ 10 ^ 19) (Nat.pow_le_pow_right (by decide) hd))

theorem natAbs_tdiv_le (n : Nat) (P : Int) : ((n : Int).tdiv P).natAbs ≤ n := by
  rw [Int.natAbs_tdiv]; exact Nat.div_le_self _ _

theorem int64_tdiv (x p : Int64) (n : Nat) (P : Int) (hx : x.toInt = n) (hp : p.toInt = P) : (x / p).toInt = (n : Int).tdiv P := by
  have h1 := natAbs_tdiv_le n P
  have hb := int64_bounds x
  rw [Int64.toInt_div, hx, hp]
  generalize (n : Int).tdiv P = q at h1
  by_cases hq : q.natAbs < 2 ^ 63
  · rw [Int.bmod_eq_of_le (by simp; omega) (by simp; omega)]
  · omega
theorem int64_tmod (x p : Int64) (n : Nat) (P : Int) (hx : x.toInt = n) (hp : p.toInt = P) : (x % p).toInt = ((n % P.natAbs : Nat) : Int) := by
  rw [Int64.toInt_mod, hx, hp]
  have e1 : ((n : Int).tmod P).natAbs = n % P.natAbs := by rw [Int.natAbs_tmod, Int.natAbs_natCast]
  have e2 : 0 ≤ (n : Int).tmod P := Int.tmod_nonneg _ (by omega)
  rw [← e1]
  omega

theorem assetString_any (a : Asset) (d n : Nat) (P : Int) (hD : Symbol.decimals a.symbol = d) (h1 : 19 ≤ d) (hN : a.value.toInt.natAbs = n) (hn : n < 2 ^ 63)
    (hv : a.value.toInt ≠ -2 ^ 63) (hP : (Symbol.precision a.symbol).toInt = P) (hp0 : ¬ Symbol.precision a.symbol = 0) :
    ∃ ip fp : Bytes, ∃ k : Int, a.string = .val ((if a.value.toInt < 0 then [45] else []) ++ ip ++ 46 :: fp ++ 32 :: Symbol.name a.symbol) ∧
      ip = fmtInt k ∧ k.natAbs = n / P.natAbs ∧ AllDigits fp ∧ fp.length = d ∧ decValue fp = n % P.natAbs := by
  have habs := int64_abs a.value hv
  rw [hN] at habs
  have hdiv := int64_tdiv _ _ n P habs hP
  have hmod := int64_tmod _ _ n P habs hP
  have hs2 := fmtNat_spec (n % P.natAbs)
  have hle : n % P.natAbs ≤ n := Nat.mod_le _ _
  have hlen := fmtNat_length (n % P.natAbs) d (Nat.lt_of_le_of_lt hle (lt_pow10 hn h1)) (by omega)
  have hd0 : 0 < d := by omega
  refine ⟨fmtInt ((n : Int).tdiv P), List.replicate (d - (fmtNat (n % P.natAbs)).length) 48 ++ fmtNat (n % P.natAbs), (n : Int).tdiv P, ?_, rfl,
    by rw [Int.natAbs_tdiv, Int.natAbs_natCast]; rfl, AllDigits.append.mpr ⟨allDigits_replicate _, hs2.1⟩,
    by rw [List.length_append, List.length_replicate]; omega, ?_⟩
  · have e := int64_neg_iff a.value
    unfold Asset.string
    simp only [hp0, if_false, hD, hdiv, hmod, fmtInt_nat, hd0, if_true]
    by_cases hneg : a.value < 0
    · simp [hneg, e.1 hneg]
    · simp [hneg, show ¬ a.value.toInt < 0 from fun h => hneg (e.2 h)]
  · rw [decValue_eq, decAcc_replicate_zero, hs2.2.1]

/-- What String prints for 19 to 63 decimals. -/
theorem assetString_wide (a : Asset) (h1 : 19 ≤ Symbol.decimals a.symbol) (h2 : Symbol.decimals a.symbol ≤ 63) (hv : a.value.toInt ≠ -2 ^ 63) :
    ∃ ip fp : Bytes, ∃ k : Int, a.string = .val ((if a.value.toInt < 0 then [45] else []) ++ ip ++ 46 :: fp ++ 32 :: Symbol.name a.symbol) ∧
      ip = fmtInt k ∧ k.natAbs = a.value.toInt.natAbs / (((10 : Int) ^ Symbol.decimals a.symbol).bmod (2 ^ 64)).natAbs ∧
      AllDigits fp ∧ fp.length = Symbol.decimals a.symbol ∧
      decValue fp = a.value.toInt.natAbs % (((10 : Int) ^ Symbol.decimals a.symbol).bmod (2 ^ 64)).natAbs :=
  have hb := int64_bounds a.value
  assetString_any a _ _ _ rfl h1 rfl (by omega) hv (precision_bmod a.symbol) (by rw [precision_zero_iff]; omega)

/-! ### Binary -/

theorem symbol_unmarshal_reads (v old : UInt64) : (Symbol.unmarshal old).Reads (leBytes 8 v.toNat) v := by
  intro fin rest
  simp [Symbol.unmarshal, readUint64_reads v fin rest]

theorem name_unmarshal_reads (v old : UInt64) : (Name.unmarshal old).Reads (leBytes 8 v.toNat) v := by
  intro fin rest
  simp [Name.unmarshal, readUint64_reads v fin rest]

theorem asset_unmarshal_reads (a old : Asset) :
    (Asset.unmarshal old).Reads (leBytes 8 a.value.toUInt64.toNat ++ leBytes 8 a.symbol.toNat) a :=
  (readInt64_reads a.value).bind ((symbol_unmarshal_reads a.symbol 0).last rfl)

theorem asset_marshal_writes (a : Asset) :
    (Asset.marshal a).Writes (leBytes 8 a.value.toUInt64.toNat ++ leBytes 8 a.symbol.toNat) :=
  Enc.Writes.bind (writeBytes_writes _) (writeBytes_writes _)

theorem extendedAsset_unmarshal_reads (a old : ExtendedAsset) :
    (ExtendedAsset.unmarshal old).Reads
      (leBytes 8 a.quantity.value.toUInt64.toNat ++ leBytes 8 a.quantity.symbol.toNat ++ leBytes 8 a.contract.toNat) a :=
  (asset_unmarshal_reads a.quantity old.quantity).bind ((name_unmarshal_reads a.contract old.contract).last rfl)

theorem extendedAsset_marshal_writes (a : ExtendedAsset) :
    (ExtendedAsset.marshal a).Writes
      (leBytes 8 a.quantity.value.toUInt64.toNat ++ leBytes 8 a.quantity.symbol.toNat ++ leBytes 8 a.contract.toNat) :=
  (asset_marshal_writes a.quantity).bind (writeBytes_writes _)

theorem symbol_unmarshal_strict (s : Bool) (old : UInt64) : (Symbol.unmarshal old).Strict s := by
  intro P h; strict_try (readUint64_strict s P h); trivial
theorem name_unmarshal_strict (s : Bool) (old : UInt64) : (Name.unmarshal old).Strict s := by
  intro P h; strict_try (readUint64_strict s P h); trivial
theorem asset_unmarshal_strict (s : Bool) (old : Asset) : (Asset.unmarshal old).Strict s := by
  intro P h
  strict_try (readInt64_strict s P h)
  refine Dec.StrictP.bind (symbol_unmarshal_strict s 0 P h) ?_ (fun _ _ h => h)
  intro r; trivial
theorem extendedAsset_unmarshal_strict (s : Bool) (old : ExtendedAsset) : (ExtendedAsset.unmarshal old).Strict s := by
  intro P h
  strict_try (asset_unmarshal_strict s _ P h)
  refine Dec.StrictP.bind (name_unmarshal_strict s _ P h) ?_ (fun _ _ h => h)
  intro r; trivial

theorem asset_marshal_strict (a : Asset) : (Asset.marshal a).Strict := (writeInt64_strict _).seq (writeUint64_strict _)
theorem extendedAsset_marshal_strict (a : ExtendedAsset) : (ExtendedAsset.marshal a).Strict :=
  (asset_marshal_strict _).seq (writeUint64_strict _)

end Verif
