import Verif.Go.Strconv
import Verif.Spec.Text
import Verif.Lemmas.Byte
namespace Verif

theorem isDigit_iff (c : UInt8) : isDigit c = true ↔ 48 ≤ c.toNat ∧ c.toNat ≤ 57 :=
  forall_byte (P := fun c => isDigit c = true ↔ 48 ≤ c.toNat ∧ c.toNat ≤ 57) (by decide +kernel) c

theorem AllDigits.cons {c : UInt8} {s : Bytes} : AllDigits (c :: s) ↔ isDigit c = true ∧ AllDigits s := by
  simp only [AllDigits, isDigit_iff, List.mem_cons, forall_eq_or_imp]

theorem AllDigits.nil : AllDigits [] := by simp [AllDigits]

theorem AllDigits.append {s t : Bytes} : AllDigits (s ++ t) ↔ AllDigits s ∧ AllDigits t := by
  simp only [AllDigits, List.mem_append]
  constructor
  · intro h; exact ⟨fun c hc => h c (Or.inl hc), fun c hc => h c (Or.inr hc)⟩
  · rintro ⟨h1, h2⟩ c (hc | hc)
    · exact h1 c hc
    · exact h2 c hc

theorem digitChar_spec : ∀ d, d < 10 → isDigit (digitChar d) = true ∧ (digitChar d).toNat - 48 = d := by decide +kernel

/-- accumulate digits -/
def decAcc (n : Nat) (s : Bytes) : Nat := s.foldl (fun n c => 10 * n + (c.toNat - 48)) n

theorem decAcc_cons (n : Nat) (c : UInt8) (s : Bytes) : decAcc n (c :: s) = decAcc (10 * n + (c.toNat - 48)) s := by
  simp only [decAcc, List.foldl_cons]
theorem decAcc_nil (n : Nat) : decAcc n [] = n := rfl
theorem decValue_eq (s : Bytes) : decValue s = decAcc 0 s := rfl

theorem decAcc_append (n : Nat) (s t : Bytes) : decAcc n (s ++ t) = decAcc (decAcc n s) t := by
  simp [decAcc, List.foldl_append]

theorem decAcc_split (n : Nat) (s : Bytes) : decAcc n s = n * 10 ^ s.length + decAcc 0 s := by
  induction s generalizing n with
  | nil => simp [decAcc]
  | cons c s ih =>
    rw [decAcc_cons, ih, decAcc_cons, ih (10 * 0 + _), List.length_cons, Nat.pow_succ]
    have : (10 * n + (c.toNat - 48)) * 10 ^ s.length = n * (10 ^ s.length * 10) + (c.toNat - 48) * 10 ^ s.length := by
      rw [Nat.add_mul]; congr 1; rw [Nat.mul_comm 10 n, Nat.mul_assoc, Nat.mul_comm 10]
    rw [this, Nat.mul_zero, Nat.zero_add]; omega

theorem decAcc_mono (n : Nat) (s : Bytes) : n ≤ decAcc n s := by
  rw [decAcc_split]
  have : n * 1 ≤ n * 10 ^ s.length := Nat.mul_le_mul_left _ (Nat.one_le_pow _ _ (by decide))
  omega

theorem decAcc_lt (s : Bytes) (h : AllDigits s) : decAcc 0 s < 10 ^ s.length := by
  induction s with
  | nil => simp [decAcc]
  | cons c s ih =>
    rw [AllDigits.cons, isDigit_iff] at h
    rw [decAcc_cons, decAcc_split, List.length_cons, Nat.pow_succ]
    have h1 := ih h.2
    have h2 : (10 * 0 + (c.toNat - 48)) * 10 ^ s.length ≤ 9 * 10 ^ s.length := Nat.mul_le_mul_right _ (by omega)
    omega

/-! ### Formatting -/

theorem fmtNatAux_spec (fuel n : Nat) (acc : Bytes) (hf : n < fuel) :
    ∃ ds, fmtNatAux fuel n acc = ds ++ acc ∧ AllDigits ds ∧ decAcc 0 ds = n ∧ ds ≠ [] ∧ (n ≠ 0 → ds.head? ≠ some 48) := by
  induction fuel generalizing n acc with
  | zero => omega
  | succ f ih =>
    simp only [fmtNatAux]
    split
    · rename_i h
      obtain ⟨h1, h2⟩ := digitChar_spec n h
      refine ⟨[digitChar n], rfl, ?_, ?_, by simp, ?_⟩
      · rw [AllDigits.cons]; exact ⟨h1, AllDigits.nil⟩
      · simp [decAcc, h2]
      · intro hn hh
        simp at hh
        rw [hh] at h2; simp at h2; omega
    · rename_i h
      obtain ⟨ds, e1, e2, e3, e4, e5⟩ := ih (n / 10) (digitChar (n % 10) :: acc) (by omega)
      obtain ⟨h1, h2⟩ := digitChar_spec (n % 10) (by omega)
      refine ⟨ds ++ [digitChar (n % 10)], by rw [e1]; simp, ?_, ?_, by simp, ?_⟩
      · rw [AllDigits.append]; exact ⟨e2, by rw [AllDigits.cons]; exact ⟨h1, AllDigits.nil⟩⟩
      · rw [decAcc_append, e3, decAcc_cons, decAcc_nil, h2]; omega
      · intro _
        cases ds with
        | nil => exact absurd rfl e4
        | cons d ds => simpa using e5 (by omega)

theorem fmtNat_spec (n : Nat) : AllDigits (fmtNat n) ∧ decAcc 0 (fmtNat n) = n ∧ fmtNat n ≠ [] ∧ (n ≠ 0 → (fmtNat n).head? ≠ some 48) := by
  obtain ⟨ds, e1, e2, e3, e4, e5⟩ := fmtNatAux_spec (n + 1) n [] (by omega)
  unfold fmtNat
  rw [e1, List.append_nil]
  exact ⟨e2, e3, e4, e5⟩

theorem fmtNat_length (n d : Nat) (h : n < 10 ^ d) (hd : 0 < d) : (fmtNat n).length ≤ d := by
  obtain ⟨h1, h2, h3, h4⟩ := fmtNat_spec n
  refine Decidable.byContradiction fun hc => ?_
  cases hs : fmtNat n with
  | nil => exact h3 hs
  | cons c s =>
    rw [hs] at h2 hc h1 h4
    rw [AllDigits.cons, isDigit_iff] at h1
    simp at hc
    rw [decAcc_cons, decAcc_split] at h2
    have hpow : 10 ^ d ≤ 10 ^ s.length := Nat.pow_le_pow_right (by decide) (by omega)
    by_cases hn : n = 0
    · have : fmtNat 0 = [48] := by decide
      rw [hn, this] at hs
      simp at hs
      rw [hs.2] at hc; simp at hc; omega
    · have h5 : c.toNat ≠ 48 := by
        intro he
        apply h4 hn
        simp
        exact UInt8.toNat_inj.mp he
      have : 1 * 10 ^ s.length ≤ (10 * 0 + (c.toNat - 48)) * 10 ^ s.length := Nat.mul_le_mul_right _ (by omega)
      omega

/-! ### Parsing -/

theorem parseUintLoop_digits (max : Nat) (s : Bytes) (n : Nat) (h : AllDigits s) (hn : n ≤ max) :
    parseUintLoop max s n = if decAcc n s ≤ max then (decAcc n s, none) else (max, some errRange) := by
  induction s generalizing n with
  | nil => simp [parseUintLoop, decAcc, hn]
  | cons c s ih =>
    rw [AllDigits.cons] at h
    simp only [parseUintLoop, h.1, if_true, decAcc_cons]
    have hval : n * 10 + digitVal c = 10 * n + (c.toNat - 48) := by unfold digitVal; omega
    rw [hval]
    split
    · rename_i hc
      rw [if_neg]
      have := decAcc_mono (10 * n + (c.toNat - 48)) s
      omega
    · exact ih _ h.2 (by omega)

theorem parseUintLoop_bad (max : Nat) (s : Bytes) (n : Nat) (h : ¬AllDigits s) :
    ∃ v e, parseUintLoop max s n = (v, some e) ∧ (e = errSyntax ∧ v = 0 ∨ e = errRange ∧ v = max) := by
  induction s generalizing n with
  | nil => exact absurd AllDigits.nil h
  | cons c s ih =>
    rw [AllDigits.cons] at h
    simp only [parseUintLoop]
    by_cases hc : isDigit c = true
    · simp only [hc, if_true]
      split
      · exact ⟨_, _, rfl, Or.inr ⟨rfl, rfl⟩⟩
      · exact ih _ (fun hs => h ⟨hc, hs⟩)
    · simp only [hc]
      exact ⟨_, _, rfl, Or.inl ⟨rfl, rfl⟩⟩

theorem parseUint_digits (bits : Nat) (s : Bytes) (h : AllDigits s) (hs : s ≠ []) :
    parseUint bits s = if decValue s < 2 ^ bits then (decValue s, none) else (2 ^ bits - 1, some errRange) := by
  unfold parseUint
  rw [if_neg hs, parseUintLoop_digits _ _ _ h (by omega), decValue_eq]
  have : 0 < 2 ^ bits := Nat.pow_pos (by decide)
  by_cases hc : decAcc 0 s < 2 ^ bits
  · rw [if_pos hc, if_pos (by omega)]
  · rw [if_neg hc, if_neg (by omega)]

/-- ParseUint succeeds exactly on non-empty digit strings in range. -/
theorem parseUint_iff (bits : Nat) (s : Bytes) (v : Nat) :
    parseUint bits s = (v, none) ↔ s ≠ [] ∧ AllDigits s ∧ decValue s < 2 ^ bits ∧ v = decValue s := by
  by_cases hs : s = []
  · subst hs; simp [parseUint]
  · by_cases h : AllDigits s
    · rw [parseUint_digits bits s h hs]
      constructor
      · intro hh
        split at hh
        · simp at hh; exact ⟨hs, h, by assumption, hh.symm⟩
        · simp at hh
      · rintro ⟨_, _, h3, rfl⟩
        rw [if_pos h3]
    · obtain ⟨v', e, h1, _⟩ := parseUintLoop_bad (2 ^ bits - 1) s 0 h
      unfold parseUint
      rw [if_neg hs, h1]
      simp [h]

theorem parseUint_fmtNat (bits n : Nat) (h : n < 2 ^ bits) : parseUint bits (fmtNat n) = (n, none) := by
  obtain ⟨h1, h2, h3, _⟩ := fmtNat_spec n
  rw [parseUint_digits bits _ h1 h3, decValue_eq, h2, if_pos h]

theorem errRange_ne : (some errRange : Option Err) ≠ some errSyntax := by decide

theorem parseInt_unsigned (bits : Nat) (s : Bytes) (h : AllDigits s) (hs : s ≠ []) :
    parseInt bits s = match parseUint bits s with
    | (un, err) =>
      if err ≠ none ∧ err ≠ some errRange then (0, err)
      else if un ≥ 2 ^ (bits - 1) then (2 ^ (bits - 1) - 1, some errRange)
      else ((un : Int), none) := by
  cases s with
  | nil => exact absurd rfl hs
  | cons c t =>
    rw [AllDigits.cons, isDigit_iff] at h
    have h43 : c ≠ 43 := by rintro rfl; simp at h
    have h45 : c ≠ 45 := by rintro rfl; simp at h
    unfold parseInt
    rw [if_neg hs]
    split
    rename_i neg s' heq
    have : (neg, s') = (false, c :: t) := by
      rw [← heq]
      split
      · rename_i h2; simp only [List.cons.injEq] at h2; exact absurd h2.1 h43
      · rename_i h2; simp only [List.cons.injEq] at h2; exact absurd h2.1 h45
      · rfl
    simp only [Prod.mk.injEq] at this
    obtain ⟨rfl, rfl⟩ := this
    simp

/-- ParseInt of a digit string without sign. -/
theorem parseInt_digits (bits : Nat) (hb : 0 < bits) (s : Bytes) (h : AllDigits s) (v : Int) :
    parseInt bits s = (v, none) ↔ s ≠ [] ∧ decValue s < 2 ^ (bits - 1) ∧ v = decValue s := by
  by_cases hs : s = []
  · subst hs; simp [parseInt]
  · have hpow : 2 ^ bits = 2 * 2 ^ (bits - 1) := by
      obtain ⟨k, rfl⟩ : ∃ k, bits = k + 1 := ⟨bits - 1, by omega⟩
      rw [Nat.pow_succ, Nat.add_sub_cancel, Nat.mul_comm]
    rw [parseInt_unsigned bits s h hs]
    rw [parseUint_digits bits s h hs]
    have hpos : 0 < 2 ^ (bits - 1) := Nat.pow_pos (by decide)
    by_cases hc : decValue s < 2 ^ bits
    · rw [if_pos hc]
      simp only [ne_eq, not_true_eq_false, false_and, if_false]
      by_cases hc2 : decValue s < 2 ^ (bits - 1)
      · rw [if_neg (by omega)]; simp [hs, hc2, eq_comm]
      · rw [if_pos (by omega)]; simp [hc2]
    · rw [if_neg hc]
      have h1 : ¬ decValue s < 2 ^ (bits - 1) := by omega
      simp only [ne_eq, not_true_eq_false, and_false, if_false]
      rw [if_pos (by omega)]; simp [h1]

/-- ParseInt of a digit string after a minus sign. -/
theorem parseInt_neg (bits : Nat) (hb : 1 < bits) (s : Bytes) (h : AllDigits s) (v : Int) :
    parseInt bits (45 :: s) = (v, none) ↔ s ≠ [] ∧ decValue s ≤ 2 ^ (bits - 1) ∧ v = -(decValue s : Int) := by
  have hpow : 2 ^ bits = 2 * 2 ^ (bits - 1) := by
    obtain ⟨k, rfl⟩ : ∃ k, bits = k + 1 := ⟨bits - 1, by omega⟩
    rw [Nat.pow_succ, Nat.add_sub_cancel, Nat.mul_comm]
  have hpos : 0 < 2 ^ (bits - 1) := Nat.pow_pos (by decide)
  unfold parseInt
  simp only [reduceCtorEq, if_false]
  by_cases hs : s = []
  · subst hs
    simp [parseUint, errSyntax, errRange]
  · rw [parseUint_digits bits s h hs]
    by_cases hc : decValue s < 2 ^ bits
    · simp only [hc, if_true]
      by_cases hc2 : decValue s ≤ 2 ^ (bits - 1)
      · have : ¬ (2 ^ (bits - 1) < decValue s) := by omega
        simp [hs, hc2, eq_comm, this]
      · have : 2 ^ (bits - 1) < decValue s := by omega
        simp [hc2, this]
    · simp only [hc, if_false]
      have h1 : ¬ decValue s ≤ 2 ^ (bits - 1) := by omega
      by_cases h2 : 2 ^ (bits - 1) < 2 ^ bits - 1
      · simp [h1, h2]
      · exfalso
        have : 2 ^ 1 ≤ 2 ^ (bits - 1) := Nat.pow_le_pow_right (by decide) (by omega)
        omega

theorem parseInt_fmtNat (bits : Nat) (hb : 0 < bits) (n : Nat) (h : n < 2 ^ (bits - 1)) : parseInt bits (fmtNat n) = ((n : Int), none) := by
  obtain ⟨h1, h2, h3, _⟩ := fmtNat_spec n
  rw [parseInt_digits bits hb _ h1]
  exact ⟨h3, by rw [decValue_eq, h2]; exact h, by rw [decValue_eq, h2]⟩

/-! ### Splitting -/

theorem splitByte_not_mem (sep : UInt8) (s : Bytes) (h : sep ∉ s) : splitByte sep s = [s] := by
  induction s with
  | nil => rfl
  | cons c s ih =>
    simp at h
    simp only [splitByte, ih h.2]
    rw [if_neg (fun hc => h.1 hc.symm)]

theorem splitByte_append (sep : UInt8) (a b : Bytes) (h : sep ∉ a) : splitByte sep (a ++ sep :: b) = a :: splitByte sep b := by
  induction a with
  | nil => simp [splitByte]
  | cons c a ih =>
    simp at h
    simp only [List.cons_append, splitByte, ih h.2]
    rw [if_neg (fun hc => h.1 hc.symm)]

theorem splitByte_ne_nil (sep : UInt8) (s : Bytes) : splitByte sep s ≠ [] := by
  cases s with
  | nil => simp [splitByte]
  | cons c s => simp only [splitByte]; split <;> (try split) <;> simp

theorem splitByte_one (sep : UInt8) (s p : Bytes) (h : splitByte sep s = [p]) : s = p ∧ sep ∉ s := by
  induction s generalizing p with
  | nil => simp [splitByte] at h; simp [h]
  | cons c s ih =>
    simp only [splitByte] at h
    split at h
    · simp at h; exact absurd h.2 (splitByte_ne_nil _ _)
    · rename_i hc
      split at h
      · rename_i h2; exact absurd h2 (splitByte_ne_nil _ _)
      · rename_i q qs h2
        simp at h
        obtain ⟨rfl, rfl⟩ := h
        obtain ⟨h3, h4⟩ := ih q h2
        subst h3
        exact ⟨rfl, by simp [h4]; exact fun hh => hc hh.symm⟩

theorem splitByte_two (sep : UInt8) (s p q : Bytes) : splitByte sep s = [p, q] ↔ s = p ++ sep :: q ∧ sep ∉ p ∧ sep ∉ q := by
  constructor
  · intro h
    induction s generalizing p with
    | nil => simp [splitByte] at h
    | cons c s ih =>
      simp only [splitByte] at h
      split at h
      · rename_i hc
        simp at h
        obtain ⟨rfl, h⟩ := h
        obtain ⟨h3, h4⟩ := splitByte_one _ _ _ h
        subst h3
        exact ⟨by simp [hc], by simp, h4⟩
      · rename_i hc
        split at h
        · simp at h
        · rename_i r rs h2
          simp at h
          obtain ⟨rfl, rfl⟩ := h
          obtain ⟨h3, h4, h5⟩ := ih r h2
          exact ⟨by simp [h3], by simp [h4]; exact fun hh => hc hh.symm, h5⟩
  · rintro ⟨rfl, h1, h2⟩
    rw [splitByte_append _ _ _ h1, splitByte_not_mem _ _ h2]

end Verif
