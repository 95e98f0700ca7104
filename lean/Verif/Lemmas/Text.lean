import Verif.Lemmas.Numbers
import Verif.Lemmas.Symbol
import Verif.Lemmas.Encoding
namespace Verif

/-- The part of ParseInt after the sign. -/
def parseSigned (bits : Nat) (neg : Bool) (r : Nat × Option Err) : Int × Option Err :=
  if r.2 ≠ none ∧ r.2 ≠ some errRange then (0, r.2)
  else if ¬neg ∧ r.1 ≥ 2 ^ (bits - 1) then (2 ^ (bits - 1) - 1, some errRange)
  else if neg ∧ r.1 > 2 ^ (bits - 1) then (-2 ^ (bits - 1), some errRange)
  else (if neg then -(r.1 : Int) else r.1, none)

theorem parseInt_split (bits : Nat) (s : Bytes) :
    parseInt bits s = if s = [] then (0, some errSyntax) else parseSigned bits (splitSign s).1 (parseUint bits (splitSign s).2) := by
  unfold parseInt parseSigned
  by_cases hs : s = []
  · simp [hs]
  · rw [if_neg hs, if_neg hs]
    cases s with
    | nil => exact absurd rfl hs
    | cons c t =>
      by_cases h43 : c = 43
      · subst h43; rfl
      · by_cases h45 : c = 45
        · subst h45; rfl
        · rw [splitSign_other c t h43 h45]
          split
          rename_i neg s' heq
          have : (neg, s') = (false, c :: t) := by
            rw [← heq]
            split
            · rename_i h2; simp only [List.cons.injEq] at h2; exact absurd h2.1 h43
            · rename_i h2; simp only [List.cons.injEq] at h2; exact absurd h2.1 h45
            · rfl
          simp only [Prod.mk.injEq] at this
          obtain ⟨rfl, rfl⟩ := this
          rfl

theorem parseUint_err (bits : Nat) (s : Bytes) (v : Nat) (h : parseUint bits s = (v, some errRange)) : v = 2 ^ bits - 1 := by
  unfold parseUint at h
  split at h
  · simp [errSyntax, errRange] at h
  · by_cases hd : AllDigits s
    · rw [parseUintLoop_digits _ _ _ hd (Nat.zero_le _)] at h
      split at h
      · simp at h
      · simp at h; omega
    · obtain ⟨v', e, h1, h2⟩ := parseUintLoop_bad (2 ^ bits - 1) s 0 hd
      rw [h1] at h
      simp only [Prod.mk.injEq, Option.some.injEq] at h
      obtain ⟨rfl, rfl⟩ := h
      rcases h2 with ⟨h2, _⟩ | ⟨_, h2⟩
      · exact absurd h2 (by decide)
      · exact h2

/-- Exact behaviour of ParseInt. -/
theorem parseInt_iff (bits : Nat) (hb : 1 < bits) (s : Bytes) (v : Int) :
    parseInt bits s = (v, none) ↔ DecimalText s v ∧ -2 ^ (bits - 1) ≤ v ∧ v < 2 ^ (bits - 1) := by
  have hpow : 2 ^ bits = 2 * 2 ^ (bits - 1) := by
    obtain ⟨k, rfl⟩ : ∃ k, bits = k + 1 := ⟨bits - 1, by omega⟩
    rw [Nat.pow_succ, Nat.add_sub_cancel, Nat.mul_comm]
  have h2 : 2 ≤ 2 ^ (bits - 1) := by
    have : 2 ^ 1 ≤ 2 ^ (bits - 1) := Nat.pow_le_pow_right (by decide) (by omega)
    omega
  rw [parseInt_split, ← setString_iff, setString, setDigits_iff]
  have hcast : ((2 ^ (bits - 1) : Nat) : Int) = (2 : Int) ^ (bits - 1) := by norm_cast
  rw [← hcast]
  generalize hM : 2 ^ (bits - 1) = M at *
  by_cases hs : s = []
  · subst hs; simp [splitSign]
  · rw [if_neg hs]
    rcases splitSign s with ⟨neg, ds⟩
    simp only
    rcases hp : parseUint bits ds with ⟨un, e⟩
    cases e with
    | some e =>
      have hne : ¬(ds ≠ [] ∧ AllDigits ds ∧ decValue ds < 2 ^ bits) := by
        rintro ⟨a, b, c⟩
        have := (parseUint_iff bits ds _).mpr ⟨a, b, c, rfl⟩
        rw [hp] at this; simp at this
      constructor
      · intro h
        exfalso
        unfold parseSigned at h
        by_cases he : e = errRange
        · subst he
          have := parseUint_err _ _ _ hp
          rw [hM] at h
          simp only [ne_eq, reduceCtorEq, not_false_eq_true, not_true_eq_false, and_false, if_false] at h
          cases neg with
          | false =>
            rw [if_pos ⟨by simp, by omega⟩] at h
            simp at h
          | true =>
            rw [if_neg (by simp), if_pos ⟨rfl, by omega⟩] at h
            simp at h
        · rw [if_pos ⟨by simp, by simpa using he⟩] at h
          simp at h
      · rintro ⟨⟨a, b, c⟩, d, f⟩
        exfalso
        apply hne
        refine ⟨a, b, ?_⟩
        subst c
        cases neg <;> simp only [Bool.false_eq_true, if_false, if_true] at d f <;> omega
    | none =>
      rw [parseUint_iff] at hp
      obtain ⟨a, b, c, rfl⟩ := hp
      unfold parseSigned
      rw [hM]
      simp only [ne_eq, not_true_eq_false, false_and, if_false, a, b, not_false_eq_true, true_and]
      cases neg with
      | false =>
        simp only [Bool.false_eq_true, not_false_eq_true, true_and, false_and, if_false]
        split
        · constructor
          · intro h; simp at h
          · rintro ⟨rfl, _, _⟩; omega
        · constructor
          · intro h; simp only [Prod.mk.injEq, and_true] at h; subst h; exact ⟨rfl, by omega, by omega⟩
          · rintro ⟨rfl, _, _⟩; rfl
      | true =>
        simp only [not_true_eq_false, false_and, if_false, true_and, if_true]
        split
        · constructor
          · intro h; simp at h
          · rintro ⟨rfl, _, _⟩; omega
        · constructor
          · intro h; simp only [Prod.mk.injEq, and_true] at h; subst h; exact ⟨rfl, by omega, by omega⟩
          · rintro ⟨rfl, _, _⟩; rfl

/-! ### Padded decimal numbers compare like the numbers -/

theorem blockNum_string (v : UInt32) : (BlockNum.string v).length = 10 ∧ AllDigits (BlockNum.string v) ∧ decAcc 0 (BlockNum.string v) = v.toNat := by
  have hl := fmtNat_length v.toNat 10 (by have := v.toNat_lt; omega) (by decide)
  obtain ⟨h1, h2, _, _⟩ := fmtNat_spec v.toNat
  unfold BlockNum.string
  refine ⟨by rw [List.length_append, List.length_replicate]; omega, AllDigits.append.mpr ⟨allDigits_replicate _, h1⟩, ?_⟩
  rw [decAcc_replicate_zero, h2]

/-- Byte-wise lexicographic order on digit strings of one length is the order of their values. -/
theorem digits_lt (s t : Bytes) (hs : AllDigits s) (ht : AllDigits t) (hl : s.length = t.length) : s < t ↔ decAcc 0 s < decAcc 0 t := by
  induction s generalizing t with
  | nil =>
    have : t = [] := List.eq_nil_of_length_eq_zero hl.symm
    subst this; simp [decAcc]
  | cons c s ih =>
    cases t with
    | nil => simp at hl
    | cons d t =>
      simp only [List.length_cons, Nat.add_right_cancel_iff] at hl
      rw [AllDigits.cons, isDigit_iff] at hs ht
      rw [List.cons_lt_cons_iff, ih t hs.2 ht.2 hl, decAcc_cons, decAcc_cons, decAcc_split (10 * 0 + (c.toNat - 48)), decAcc_split (10 * 0 + (d.toNat - 48)), hl,
        UInt8.lt_iff_toNat_lt, ← UInt8.toNat_inj]
      have l1 := decAcc_lt s hs.2
      have l2 := decAcc_lt t ht.2
      rw [hl] at l1
      generalize decAcc 0 s = a at *
      generalize decAcc 0 t = b at *
      generalize hk : 10 ^ t.length = k at *
      obtain ⟨x, hx⟩ : ∃ x, c.toNat = x + 48 := ⟨c.toNat - 48, by omega⟩
      obtain ⟨y, hy⟩ : ∃ y, d.toNat = y + 48 := ⟨d.toNat - 48, by omega⟩
      rw [hx, hy]
      simp only [Nat.mul_zero, Nat.zero_add, Nat.add_sub_cancel]
      rcases Nat.lt_trichotomy x y with h | h | h
      · have : (x + 1) * k ≤ y * k := Nat.mul_le_mul_right k h
        rw [Nat.add_mul] at this
        constructor
        · intro _; omega
        · intro _; left; omega
      · subst h; constructor
        · rintro (h | ⟨_, h⟩) <;> omega
        · intro h; right; exact ⟨rfl, by omega⟩
      · have : (y + 1) * k ≤ x * k := Nat.mul_le_mul_right k h
        rw [Nat.add_mul] at this
        constructor
        · rintro (h | ⟨h, _⟩) <;> omega
        · intro _; omega

end Verif
