import Verif.Model.Name
import Verif.Spec.Name
import Verif.Lemmas.Prim
import Mathlib.Tactic.IntervalCases
import Mathlib.Tactic.NormNum
namespace Verif

/-! ### Characters -/

theorem nameDigit_eq (c : UInt8) : nameDigit c = (charToSymbol c).toNat :=
  forall_byte (P := fun c => nameDigit c = (charToSymbol c).toNat) (by decide +kernel) c

theorem charToSymbol_lt (c : UInt8) : (charToSymbol c).toNat < 32 :=
  forall_byte (P := fun c => (charToSymbol c).toNat < 32) (by decide +kernel) c

theorem nameDigit_lt (c : UInt8) : nameDigit c < 32 := by rw [nameDigit_eq]; exact charToSymbol_lt c

/-- i-th digit character. -/
def alphaChar (d : Nat) : UInt8 := base32Alphabet.getD d 0

theorem nameDigit_alphaChar : ∀ d, d < 32 → nameDigit (alphaChar d) = d := by decide +kernel

theorem alphaChar_nameDigit (c : UInt8) (h : ∃ a ∈ nameAlphabet, c.toNat = a.toNat) : alphaChar (nameDigit c) = c := by
  revert h
  exact forall_byte (P := fun c => (∃ a ∈ nameAlphabet, c.toNat = a.toNat) → alphaChar (nameDigit c) = c) (by decide +kernel) c

theorem alphaChar_mem : ∀ d, d < 32 → ∃ a ∈ nameAlphabet, (alphaChar d).toNat = a.toNat := by decide +kernel
theorem alphaChar_mem16 : ∀ d, d < 16 → ∃ a ∈ nameAlphabet.take 16, (alphaChar d).toNat = a.toNat := by decide +kernel
theorem alphaChar_lt : ∀ d, d < 32 → ∀ e, e < 32 → (decide (alphaChar d < alphaChar e) = decide (d < e)) := by decide +kernel
theorem nameDigit_mem16 (c : UInt8) (h : ∃ a ∈ nameAlphabet.take 16, c.toNat = a.toNat) : nameDigit c < 16 := by
  revert h
  exact forall_byte (P := fun c => (∃ a ∈ nameAlphabet.take 16, c.toNat = a.toNat) → nameDigit c < 16) (by decide +kernel) c
theorem alphaChar_zero : ∀ d, d < 32 → (alphaChar d = 46 ↔ d = 0) := by decide +kernel

/-! ### Digits of a number -/

/-- digit `i` of the 64-bit number `v` -/
def digitOf (v i : Nat) : Nat := if i < 12 then v / 2 ^ (59 - 5 * i) % 32 else v % 16

theorem digitOf_lt (v i : Nat) : digitOf v i < 32 := by unfold digitOf; split <;> omega

theorem nameLoop_eq (value : UInt64) :
    nameLoop 13 0 value [] = (List.range 13).map (fun i => alphaChar (digitOf value.toNat i)) := by
  have h5 : ∀ x : UInt64, (x >>> 5).toNat = x.toNat / 32 := by
    intro x; rw [UInt64.toNat_shiftRight]; simp [Nat.shiftRight_eq_div_pow]
  have h4 : ∀ x : UInt64, (x >>> 4).toNat = x.toNat / 16 := by
    intro x; rw [UInt64.toNat_shiftRight]; simp [Nat.shiftRight_eq_div_pow]
  have h1f : ∀ x : UInt64, (x &&& 0x1f).toNat = x.toNat % 32 := by
    intro x; rw [UInt64.toNat_and]; exact Nat.and_two_pow_sub_one_eq_mod x.toNat 5
  have hf : ∀ x : UInt64, (x &&& 0x0f).toNat = x.toNat % 16 := by
    intro x; rw [UInt64.toNat_and]; exact Nat.and_two_pow_sub_one_eq_mod x.toNat 4
  simp only [nameLoop, if_true, if_false, Nat.add_eq_zero_iff, one_ne_zero, and_false, h1f, h5, h4, hf]
  simp only [List.range, List.range.loop, List.map, digitOf, alphaChar, Nat.div_div_eq_div_mul]
  rfl

/-! ### The loop of stringToName -/

/-- digit `i` of a string as stringToName sees it -/
def strDigit (s : Bytes) (i : Nat) : Nat := if i < 12 then nameDigit (s.getD i 46) else nameDigit (s.getD i 46) % 16

theorem or_add (x y : UInt64) (k : Nat) (hx : x.toNat % 2 ^ k = 0) (hy : y.toNat < 2 ^ k) : (x ||| y).toNat = x.toNat + y.toNat := by
  rw [UInt64.toNat_or]
  have : x.toNat = 2 ^ k * (x.toNat / 2 ^ k) := by
    have := Nat.div_add_mod x.toNat (2 ^ k); omega
  rw [this, ← Nat.two_pow_add_eq_or_of_lt hy]

/-- partial sums of the name value -/
def partSum (s : Bytes) (n : Nat) : Nat := ((List.range n).map (fun i => strDigit s i * nameWeight i)).sum

theorem partSum_succ (s : Bytes) (n : Nat) : partSum s (n + 1) = partSum s n + strDigit s n * nameWeight n := by
  simp [partSum, List.range_succ]

theorem stringToNameLoop_step (s : Bytes) (hs : s.length < 2 ^ 32) (left i : Nat) (rv : UInt64) (hi : i + left = 13)
    (hrv : rv.toNat = partSum s i) (hdiv : i ≤ 12 → rv.toNat % 2 ^ (64 - 5 * i) = 0) :
    (stringToNameLoop s s.length.toUInt32 left i rv).toNat = partSum s 13 := by
  induction left generalizing i rv with
  | zero =>
    have : i = 13 := by omega
    subst this
    simpa [stringToNameLoop] using hrv
  | succ left ih =>
    simp only [stringToNameLoop]
    have hlen : s.length.toUInt32.toNat = s.length := by simp; omega
    rw [hlen]
    have hc : (if i < s.length then (charToSymbol (s.getD i 0)).toUInt64 else (0 : UInt64)).toNat = nameDigit (s.getD i 46) := by
      split
      · rename_i h
        rw [UInt8.toNat_toUInt64, nameDigit_eq]
        simp [List.getD_eq_getElem?_getD, List.getElem?_eq_getElem h]
      · rename_i h
        rw [List.getD_eq_getElem?_getD, List.getElem?_eq_none (by omega)]
        rfl
    generalize (if i < s.length then (charToSymbol (s.getD i 0)).toUInt64 else (0 : UInt64)) = c at hc ⊢
    have hd := nameDigit_lt (s.getD i 46)
    by_cases h12 : i < 12
    · rw [if_pos h12]
      have h1f : (c &&& 0x1f).toNat = nameDigit (s.getD i 46) := by
        rw [UInt64.toNat_and, hc]
        rw [show (0x1f : UInt64).toNat = 2 ^ 5 - 1 from rfl, Nat.and_two_pow_sub_one_eq_mod, Nat.mod_eq_of_lt hd]
      have hsh : ((64 - 5 * (i + 1)).toUInt64).toNat = 59 - 5 * i := by simp; omega
      have hpow : 2 ^ (64 - 5 * i) = 32 * 2 ^ (59 - 5 * i) := by
        rw [show 64 - 5 * i = 5 + (59 - 5 * i) by omega, Nat.pow_add]
      have hle : 2 ^ (59 - 5 * i) ≤ 2 ^ 59 := Nat.pow_le_pow_right (by decide) (by omega)
      have hlt : nameDigit (s.getD i 46) * 2 ^ (59 - 5 * i) < 32 * 2 ^ (59 - 5 * i) :=
        Nat.mul_lt_mul_of_pos_right hd (Nat.pow_pos (by decide))
      have hval : ((c &&& 0x1f) <<< (64 - 5 * (i + 1)).toUInt64).toNat = nameDigit (s.getD i 46) * 2 ^ (59 - 5 * i) := by
        rw [UInt64.toNat_shiftLeft, hsh, h1f, Nat.mod_eq_of_lt (show 59 - 5 * i < 64 by omega), Nat.shiftLeft_eq,
          Nat.mod_eq_of_lt (by omega)]
      have hor := or_add rv ((c &&& 0x1f) <<< (64 - 5 * (i + 1)).toUInt64) (64 - 5 * i) (hdiv (by omega))
        (by rw [hval, hpow]; exact hlt)
      apply ih (i + 1) _ (by omega)
      · rw [hor, hval, hrv, partSum_succ, strDigit, if_pos h12, nameWeight, if_pos h12]
      · intro h13
        rw [hor, hval, show 64 - 5 * (i + 1) = 59 - 5 * i by omega]
        have := hdiv (by omega)
        rw [hpow, Nat.mul_comm] at this
        rw [Nat.add_mul_mod_self_right]
        exact Nat.mod_eq_zero_of_dvd (Nat.dvd_trans (Nat.dvd_mul_right _ _) (Nat.dvd_of_mod_eq_zero this))
    · rw [if_neg h12]
      have hi12 : i = 12 := by omega
      subst hi12
      have hf : (c &&& 0x0f).toNat = nameDigit (s.getD 12 46) % 16 := by
        rw [UInt64.toNat_and, hc]
        rw [show (0x0f : UInt64).toNat = 2 ^ 4 - 1 from rfl, Nat.and_two_pow_sub_one_eq_mod]
      have hor := or_add rv (c &&& 0x0f) 4 (hdiv (by omega)) (by rw [hf]; omega)
      have hl : left = 0 := by omega
      subst hl
      apply ih 13 _ (by omega)
      · rw [hor, hf, hrv, partSum_succ s 12, strDigit, if_neg h12, nameWeight, if_neg h12]; omega
      · omega

theorem stringToName_toNat (s : Bytes) (hs : s.length < 2 ^ 32) : (stringToName s).toNat = nameValue s := by
  have := stringToNameLoop_step s hs 13 0 0 (by omega) rfl (by intro _; rfl)
  simpa [stringToName, partSum, nameValue, strDigit] using this

/-! ### Digits determine the number and conversely -/

theorem partSum_expand (s : Bytes) : nameValue s =
    strDigit s 0 * 2 ^ 59 + strDigit s 1 * 2 ^ 54 + strDigit s 2 * 2 ^ 49 + strDigit s 3 * 2 ^ 44 + strDigit s 4 * 2 ^ 39 +
    strDigit s 5 * 2 ^ 34 + strDigit s 6 * 2 ^ 29 + strDigit s 7 * 2 ^ 24 + strDigit s 8 * 2 ^ 19 + strDigit s 9 * 2 ^ 14 +
    strDigit s 10 * 2 ^ 9 + strDigit s 11 * 2 ^ 4 + strDigit s 12 := by
  show partSum s 13 = _
  simp only [partSum_succ]
  simp [nameWeight, partSum]

theorem strDigit_lt (s : Bytes) (i : Nat) : strDigit s i < 32 := by
  unfold strDigit; have := nameDigit_lt (s.getD i 46); split <;> omega
theorem strDigit_lt16 (s : Bytes) : strDigit s 12 < 16 := by
  unfold strDigit; simp; omega

theorem digitOf_nameValue (s : Bytes) (i : Nat) (hi : i < 13) : digitOf (nameValue s) i = strDigit s i := by
  rw [partSum_expand]
  have h0 := strDigit_lt s 0; have h1 := strDigit_lt s 1; have h2 := strDigit_lt s 2; have h3 := strDigit_lt s 3
  have h4 := strDigit_lt s 4; have h5 := strDigit_lt s 5; have h6 := strDigit_lt s 6; have h7 := strDigit_lt s 7
  have h8 := strDigit_lt s 8; have h9 := strDigit_lt s 9; have h10 := strDigit_lt s 10; have h11 := strDigit_lt s 11
  have h12 := strDigit_lt16 s
  unfold digitOf
  interval_cases i <;> simp <;> omega

theorem nameValue_of_digits (s : Bytes) (v : Nat) (hv : v < 2 ^ 64) (h : ∀ i, i < 13 → strDigit s i = digitOf v i) : nameValue s = v := by
  rw [partSum_expand]
  rw [h 0 (by omega), h 1 (by omega), h 2 (by omega), h 3 (by omega), h 4 (by omega), h 5 (by omega), h 6 (by omega),
    h 7 (by omega), h 8 (by omega), h 9 (by omega), h 10 (by omega), h 11 (by omega), h 12 (by omega)]
  simp only [digitOf]
  simp
  have e : ∀ a b, v / (a * b) = v / a / b := fun a b => (Nat.div_div_eq_div_mul v a b).symm
  have e1 := e 16 32; have e2 := e 512 32; have e3 := e 16384 32; have e4 := e 524288 32; have e5 := e 16777216 32
  have e6 := e 536870912 32; have e7 := e 17179869184 32; have e8 := e 549755813888 32; have e9 := e 17592186044416 32
  have e10 := e 562949953421312 32; have e11 := e 18014398509481984 32
  simp only [Nat.reduceMul] at e1 e2 e3 e4 e5 e6 e7 e8 e9 e10 e11
  have e12 : v / 576460752303423488 < 32 := by omega
  have e0 : v = 16 * (v / 16) + v % 16 := (Nat.div_add_mod v 16).symm
  generalize v % 16 = r0 at *
  generalize v / 576460752303423488 = q12 at *
  generalize v / 18014398509481984 = q11 at *
  generalize v / 562949953421312 = q10 at *
  generalize v / 17592186044416 = q9 at *
  generalize v / 549755813888 = q8 at *
  generalize v / 17179869184 = q7 at *
  generalize v / 536870912 = q6 at *
  generalize v / 16777216 = q5 at *
  generalize v / 524288 = q4 at *
  generalize v / 16384 = q3 at *
  generalize v / 512 = q2 at *
  generalize v / 16 = q1 at *
  subst e0
  omega

/-! ### Trimming -/

theorem trimUpTo_le (a : Bytes) (n : Nat) : trimUpTo a n ≤ n := by
  induction n with
  | zero => simp [trimUpTo]
  | succ n ih => simp only [trimUpTo]; split <;> omega

theorem trimUpTo_dots (a : Bytes) (n i : Nat) (h1 : trimUpTo a n ≤ i) (h2 : i < n) : a.getD i 0 = 46 := by
  induction n with
  | zero => omega
  | succ n ih =>
    simp only [trimUpTo] at h1
    split at h1
    · rename_i h
      by_cases hi : i = n
      · rw [hi]; exact h
      · exact ih h1 (by omega)
    · omega

theorem trimUpTo_last (a : Bytes) (n : Nat) (h : trimUpTo a n ≠ 0) : a.getD (trimUpTo a n - 1) 0 ≠ 46 := by
  induction n with
  | zero => simp [trimUpTo] at h
  | succ n ih =>
    simp only [trimUpTo] at h ⊢
    split
    · rename_i h'; rw [if_pos h'] at h; exact ih h
    · simpa using ‹_›

theorem trimUpTo_unique (a : Bytes) (n m : Nat) (hm : m ≤ n) (h1 : ∀ i, m ≤ i → i < n → a.getD i 0 = 46)
    (h2 : m ≠ 0 → a.getD (m - 1) 0 ≠ 46) : trimUpTo a n = m := by
  induction n with
  | zero => simp [trimUpTo]; omega
  | succ n ih =>
    simp only [trimUpTo]
    by_cases hmn : m = n + 1
    · rw [if_neg]
      · exact hmn.symm
      · have := h2 (by omega); rw [hmn] at this; simpa using this
    · rw [if_pos (h1 n (by omega) (by omega))]
      exact ih (by omega) (fun i a b => h1 i a (by omega))

end Verif

namespace Verif

/-! ### Strings of names -/

theorem length_nameLoop (v : UInt64) : (nameLoop 13 0 v []).length = 13 := by rw [nameLoop_eq]; simp

theorem nameLoop_getD (v : UInt64) (i : Nat) (hi : i < 13) (z : UInt8) :
    (nameLoop 13 0 v []).getD i z = alphaChar (digitOf v.toNat i) := by
  rw [nameLoop_eq, List.getD_eq_getElem?_getD, List.getElem?_map, List.getElem?_range hi]; rfl

theorem length_nameToString (v : UInt64) : (nameToString v).length = trimUpTo (nameLoop 13 0 v []) 13 := by
  unfold nameToString trimRightDots
  have := trimUpTo_le (nameLoop 13 0 v []) 13
  simp [length_nameLoop]; omega

theorem nameToString_getD (v : UInt64) (i : Nat) (hi : i < 13) : (nameToString v).getD i 46 = alphaChar (digitOf v.toNat i) := by
  rw [← nameLoop_getD v i hi 0]
  by_cases h : i < trimUpTo (nameLoop 13 0 v []) 13
  · unfold nameToString trimRightDots
    simp only [List.getD_eq_getElem?_getD, List.getElem?_take, h, if_true]
    rw [List.getElem?_eq_getElem (by rw [length_nameLoop]; exact hi)]; rfl
  · rw [trimUpTo_dots _ 13 i (by omega) hi, List.getD_eq_getElem?_getD,
      List.getElem?_eq_none (by rw [length_nameToString]; omega)]
    rfl

theorem strDigit_nameToString (v : UInt64) (i : Nat) (hi : i < 13) : strDigit (nameToString v) i = digitOf v.toNat i := by
  unfold strDigit
  rw [nameToString_getD v i hi, nameDigit_alphaChar _ (digitOf_lt _ _)]
  split
  · rfl
  · rename_i h
    simp only [digitOf, h, if_false]; omega

theorem nameValue_nameToString (v : UInt64) : nameValue (nameToString v) = v.toNat :=
  nameValue_of_digits _ _ v.toNat_lt (strDigit_nameToString v)

theorem padName_nameToString (v : UInt64) : padName (nameToString v) = nameLoop 13 0 v [] := by
  have hl := trimUpTo_le (nameLoop 13 0 v []) 13
  apply List.ext_getElem?
  intro i
  unfold padName
  by_cases hi : i < 13
  · have e1 : (nameLoop 13 0 v [])[i]? = some (alphaChar (digitOf v.toNat i)) := by
      rw [nameLoop_eq, List.getElem?_map, List.getElem?_range hi]; rfl
    rw [e1]
    have e2 := nameToString_getD v i hi
    by_cases h : i < (nameToString v).length
    · rw [List.getElem?_append_left h]
      rw [List.getD_eq_getElem?_getD, List.getElem?_eq_getElem h] at e2
      rw [List.getElem?_eq_getElem h]
      simpa using e2
    · rw [List.getD_eq_getElem?_getD, List.getElem?_eq_none (by omega)] at e2
      rw [List.getElem?_append_right (by omega), List.getElem?_replicate, if_pos (by omega)]
      simpa using e2
  · rw [List.getElem?_eq_none, List.getElem?_eq_none]
    · rw [length_nameLoop]; omega
    · simp; rw [length_nameToString]; omega

/-- Mixed-radix value of a digit list whose last digit is a hex digit and whose other digits are base 32. -/
def radixVal : List Nat → Nat
  | [] => 0
  | d :: ds => d * (if ds.length = 0 then 1 else 16 * 32 ^ (ds.length - 1)) + radixVal ds

def RadixOk : List Nat → Prop
  | [] => True
  | d :: ds => d < (if ds.length = 0 then 16 else 32) ∧ RadixOk ds

theorem radixVal_lt (ds : List Nat) (h : RadixOk ds) : radixVal ds < (if ds.length = 0 then 1 else 16 * 32 ^ (ds.length - 1)) := by
  induction ds with
  | nil => simp [radixVal]
  | cons d ds ih =>
    obtain ⟨h1, h2⟩ := h
    have := ih h2
    simp only [radixVal, List.length_cons, Nat.add_one_ne_zero, if_false, Nat.add_sub_cancel]
    by_cases hl : ds.length = 0
    · simp only [hl, if_true, Nat.pow_zero] at *; omega
    · simp only [hl, if_false] at this h1 ⊢
      obtain ⟨k, hk⟩ : ∃ k, ds.length = k + 1 := ⟨ds.length - 1, by omega⟩
      rw [hk] at this ⊢
      simp only [Nat.add_sub_cancel] at this ⊢
      rw [Nat.pow_succ]
      have hm : d * (16 * 32 ^ k) ≤ 31 * (16 * 32 ^ k) := Nat.mul_le_mul_right _ (by omega)
      omega

theorem lexLt_radix (ds es : List Nat) (hl : ds.length = es.length) (hd : RadixOk ds) (he : RadixOk es) :
    lexLt (ds.map alphaChar) (es.map alphaChar) = true ↔ radixVal ds < radixVal es := by
  induction ds generalizing es with
  | nil =>
    have : es = [] := List.eq_nil_of_length_eq_zero hl.symm
    subst this; simp [lexLt, radixVal]
  | cons d ds ih =>
    cases es with
    | nil => simp at hl
    | cons e es =>
      have hl' : ds.length = es.length := by simpa using hl
      have hvd := radixVal_lt ds hd.2
      have hve := radixVal_lt es he.2
      have hd32 : d < 32 := by have := hd.1; split at this <;> omega
      have he32 : e < 32 := by have := he.1; split at this <;> omega
      have hlt := alphaChar_lt d hd32 e he32
      have hgt := alphaChar_lt e he32 d hd32
      simp only [List.map_cons, lexLt, radixVal, Bool.or_eq_true, Bool.and_eq_true, ih es hl' hd.2 he.2, hlt, decide_eq_true_eq,
        beq_iff_eq]
      rw [← hl'] at hve ⊢
      generalize (if ds.length = 0 then 1 else 16 * 32 ^ (ds.length - 1)) = w at hvd hve ⊢
      rcases Nat.lt_trichotomy d e with h | h | h
      · have hm : (d + 1) * w ≤ e * w := Nat.mul_le_mul_right _ h
        rw [Nat.add_mul] at hm
        simp [h]; omega
      · subst h
        simp
      · have hm : (e + 1) * w ≤ d * w := Nat.mul_le_mul_right _ h
        rw [Nat.add_mul] at hm
        have hne : alphaChar d ≠ alphaChar e := by
          intro heq
          rw [heq] at hgt
          simp at hgt; omega
        simp [hne]
        omega

theorem radixVal_13 (a b c d e f g h i j k l m : Nat) : radixVal [a, b, c, d, e, f, g, h, i, j, k, l, m] =
    a * 2 ^ 59 + b * 2 ^ 54 + c * 2 ^ 49 + d * 2 ^ 44 + e * 2 ^ 39 + f * 2 ^ 34 + g * 2 ^ 29 + h * 2 ^ 24 + i * 2 ^ 19 + j * 2 ^ 14 +
    k * 2 ^ 9 + l * 2 ^ 4 + m := by
  simp only [radixVal, List.length_cons, List.length_nil]
  norm_num
  ring

theorem radix_digits (v : Nat) (hv : v < 2 ^ 64) : radixVal ((List.range 13).map (digitOf v)) = v := by
  have h : ∀ i, i < 13 → strDigit (nameToString v.toUInt64) i = digitOf v i := by
    intro i hi
    have hv' : v.toUInt64.toNat = v := by simp; omega
    rw [strDigit_nameToString _ i hi, hv']
  have hval := nameValue_of_digits (nameToString v.toUInt64) v hv h
  rw [partSum_expand, h 0 (by omega), h 1 (by omega), h 2 (by omega), h 3 (by omega), h 4 (by omega), h 5 (by omega), h 6 (by omega),
    h 7 (by omega), h 8 (by omega), h 9 (by omega), h 10 (by omega), h 11 (by omega), h 12 (by omega)] at hval
  simp only [List.range, List.range.loop, List.map]
  rw [radixVal_13]
  exact hval

theorem radixOk_digits (v : Nat) : RadixOk ((List.range 13).map (digitOf v)) := by
  have h12 : digitOf v 12 < 16 := by unfold digitOf; simp; omega
  simp only [List.range, List.range.loop, List.map, RadixOk, List.length_cons, List.length_nil]
  simp [digitOf_lt, h12]

end Verif
