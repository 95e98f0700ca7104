import Verif.Lemmas.FloatRound
import Verif.Lemmas.JsonText
import Verif.Lemmas.JsonSyntax
import Verif.Lemmas.Strconv
/-! # The texts of floats -/
namespace Verif

theorem digit_range (c : UInt8) (h : 48 ≤ c.toNat ∧ c.toNat ≤ 57) : c ∈ asc "0123456789" := by
  rw [← digit_mem, isDigit_iff']; exact h

theorem digitsNat_eq (n : Nat) (s : Bytes) : digitsNat s n = decAcc n s := by
  induction s generalizing n with
  | nil => rfl
  | cons c s ih => rw [digitsNat, ih, decAcc_cons]
theorem digitsNat_value (s : Bytes) : digitsNat s 0 = decValue s := digitsNat_eq 0 s

theorem expNat_eq (s : Bytes) (n : Nat) (h : decAcc n s < 100000) : expNat s n = decAcc n s := by
  induction s generalizing n with
  | nil => rfl
  | cons c s ih =>
    rw [decAcc_cons] at h
    have := decAcc_mono (10 * n + (c.toNat - 48)) s
    rw [expNat, decAcc_cons, if_pos (by omega), ih _ h]

theorem digit_of (s : Bytes) (h : AllDigits s) : ∀ c ∈ s, isDigit c = true := fun c hc => by
  have := h c hc
  simp only [isDigit, Bool.and_eq_true, decide_eq_true_eq, UInt8.le_iff_toNat_le]
  exact this
theorem span_digits (ip r : Bytes) (h : AllDigits ip) (hr : ∀ c, r.head? = some c → isDigit c = false) :
    (ip ++ r).takeWhile isDigit = ip ∧ (ip ++ r).dropWhile isDigit = r := by
  have hd := digit_of ip h
  rw [List.takeWhile_append_of_pos hd, List.dropWhile_append_of_pos hd]
  cases r with
  | nil => simp
  | cons c r => simp [List.takeWhile, List.dropWhile, hr c rfl]

/-- The text of a sign -/
def signText (neg : Bool) : Bytes := if neg then [45] else []

theorem floatSign_text (neg : Bool) (t : Bytes) (h : ∀ c, t.head? = some c → c ≠ 45 ∧ c ≠ 43) : floatSign (signText neg ++ t) = (neg, t) := by
  cases neg with
  | true => rfl
  | false =>
    show floatSign t = _
    unfold floatSign
    split
    · exact absurd rfl (h 45 rfl).1
    · exact absurd rfl (h 43 rfl).2
    · rfl

/-- The exponent of a text after the fraction: nothing, or `e`, a sign and digits -/
inductive ExpText : Bytes → Int → Prop
  | none : ExpText [] 0
  | plain (c : UInt8) (ds : Bytes) : c = 101 ∨ c = 69 → AllDigits ds → ds ≠ [] → decValue ds < 100000 → ExpText (c :: ds) (decValue ds)
  | plus (c : UInt8) (ds : Bytes) : c = 101 ∨ c = 69 → AllDigits ds → ds ≠ [] → decValue ds < 100000 → ExpText (c :: 43 :: ds) (decValue ds)
  | minus (c : UInt8) (ds : Bytes) : c = 101 ∨ c = 69 → AllDigits ds → ds ≠ [] → decValue ds < 100000 → ExpText (c :: 45 :: ds) (-decValue ds)

theorem digits_head {ds : Bytes} (h : AllDigits ds) : ∀ c, ds.head? = some c → c ≠ 45 ∧ c ≠ 43 := by
  intro c hc
  have := h c (List.mem_of_head? hc)
  constructor <;> (rintro rfl; revert this; decide)

theorem readExp_digits (neg : Bool) (ds : Bytes) (h : AllDigits ds) (h0 : ds ≠ []) (hb : decValue ds < 100000) :
    readExp (signText neg ++ ds) = some (if neg then -(decValue ds : Int) else decValue ds) := by
  unfold readExp
  rw [floatSign_text neg ds (digits_head h)]
  dsimp only
  rw [if_pos ⟨h0, List.all_eq_true.2 (digit_of ds h)⟩, expNat_eq ds 0 hb, ← decValue_eq]
theorem readExp_plus (ds : Bytes) (h : AllDigits ds) (h0 : ds ≠ []) (hb : decValue ds < 100000) : readExp (43 :: ds) = some (decValue ds : Int) := by
  show (if ds ≠ [] ∧ ds.all isDigit = true then some (if false = true then -(expNat ds 0 : Int) else expNat ds 0) else none) = _
  rw [if_pos ⟨h0, List.all_eq_true.2 (digit_of ds h)⟩, expNat_eq ds 0 hb, ← decValue_eq]
  rfl

/-- strconv.readFloat of a number -/
theorem readFloat_parts (neg : Bool) (ip frac fp ex : Bytes) (x : Int) (hi : AllDigits ip) (hi0 : ip ≠ []) (hf : AllDigits fp) (hfr : frac = [] ∧ fp = [] ∨ frac = 46 :: fp)
    (hex' : ∀ c, ex.head? = some c → c = 101 ∨ c = 69) (hexp : floatExp ex = some x) :
    readFloat (signText neg ++ (ip ++ (frac ++ ex))) = some (neg, decValue (ip ++ fp), x - fp.length) := by
  have hex : ∀ c, ex.head? = some c → isDigit c = false ∧ c ≠ 46 := by
    intro c hc
    rcases hex' c hc with rfl | rfl <;> decide
  have hne : ip ++ fp ≠ [] := by simp [hi0]
  have hfrac : floatFrac (frac ++ ex) = (fp, ex) := by
    rcases hfr with ⟨rfl, rfl⟩ | rfl
    · show floatFrac ex = _
      unfold floatFrac
      split
      · exact absurd rfl (hex 46 rfl).2
      · rfl
    · obtain ⟨e3, e4⟩ := span_digits fp ex hf (fun c hc => (hex c hc).1)
      show ((fp ++ ex).takeWhile isDigit, (fp ++ ex).dropWhile isDigit) = _
      rw [e3, e4]
  obtain ⟨e1, e2⟩ := span_digits ip (frac ++ ex) hi (fun c hc => by
    rcases hfr with ⟨rfl, rfl⟩ | rfl
    · exact (hex c hc).1
    · cases hc; decide)
  unfold readFloat
  rw [floatSign_text neg _ (by
    intro c hc
    cases ip with
    | nil => exact absurd rfl hi0
    | cons d ip => exact digits_head hi c hc)]
  dsimp only
  rw [e1, e2, hfrac]
  dsimp only
  rw [if_neg hne, hexp, digitsNat_value]
  rfl

/-! ## The magnitude nearest to a decimal number -/
theorem readFloat_text (neg : Bool) (ip frac fp ex : Bytes) (x : Int) (hi : AllDigits ip) (hi0 : ip ≠ []) (hf : AllDigits fp) (hfr : frac = [] ∧ fp = [] ∨ frac = 46 :: fp) (hx : ExpText ex x) :
    readFloat (signText neg ++ (ip ++ (frac ++ ex))) = some (neg, decValue (ip ++ fp), x - fp.length) := by
  refine readFloat_parts neg ip frac fp ex x hi hi0 hf hfr (fun c hc => ?_) ?_
  · cases hx with
    | none => cases hc
    | plain d ds h => cases hc; exact h
    | plus d ds h => cases hc; exact h
    | minus d ds h => cases hc; exact h
  · cases hx with
    | none => rfl
    | plain c ds h h1 h2 h3 =>
      show (if c = 101 ∨ c = 69 then readExp ds else none) = _
      rw [if_pos h]; exact readExp_digits false ds h1 h2 h3
    | plus c ds h h1 h2 h3 =>
      show (if c = 101 ∨ c = 69 then readExp (43 :: ds) else none) = _
      rw [if_pos h]; exact readExp_plus ds h1 h2 h3
    | minus c ds h h1 h2 h3 =>
      show (if c = 101 ∨ c = 69 then readExp (45 :: ds) else none) = _
      rw [if_pos h]; exact readExp_digits true ds h1 h2 h3

variable (f : FloatFmt)

/-- With a common denominator -/
theorem ofDecimal_eq (hf : 0 < f.mant) (n : Nat) (e : Int) (k : Nat) (h : 0 ≤ e + k) : f.ofDecimal n e = f.round (n * 10 ^ (e + k).toNat * 2 ^ f.shift) (10 ^ k) := by
  unfold FloatFmt.ofDecimal
  refine round_congr f hf _ _ _ _ (Nat.pow_pos (by decide)) (Nat.pow_pos (by decide)) ?_
  have : e.toNat + k = (e + k).toNat + (-e).toNat := by omega
  have e10 : 10 ^ e.toNat * 10 ^ k = 10 ^ (e + k).toNat * 10 ^ (-e).toNat := by rw [← Nat.pow_add, ← Nat.pow_add, this]
  calc n * 10 ^ e.toNat * 2 ^ f.shift * 10 ^ k = n * 2 ^ f.shift * (10 ^ e.toNat * 10 ^ k) := by ring
    _ = _ := by rw [e10]; ring
/-- Zeros at the end do not count. -/
theorem ofDecimal_zeros (hf : 0 < f.mant) (n z : Nat) (e : Int) : f.ofDecimal (n * 10 ^ z) e = f.ofDecimal n (e + z) := by
  rw [ofDecimal_eq f hf (n * 10 ^ z) e (-e).toNat (by omega), ofDecimal_eq f hf n (e + z) (-e).toNat (by omega)]
  congr 1
  rw [show (e + z + (-e).toNat).toNat = z + (e + (-e).toNat).toNat by omega, Nat.pow_add]
  ring

theorem between_iff (even : Bool) (lo x hi : Nat) : between even lo x hi = true ↔ (lo < x ∨ (even = true ∧ lo = x)) ∧ (x < hi ∨ (even = true ∧ x = hi)) := by
  cases even <;> simp [between] <;> omega

theorem shortestFrom_in (even : Bool) (lo x hi start : Nat) (h : between even lo x hi = true) :
    between even lo ((shortestFrom even lo x hi start).1 * 10 ^ (shortestFrom even lo x hi start).2) hi = true ∧ (shortestFrom even lo x hi start).2 ≤ start := by
  induction start with
  | zero => exact ⟨by simpa [shortestFrom] using h, Nat.le_refl _⟩
  | succ j ih =>
    rw [shortestFrom]
    split
    · rename_i h1 h2
      refine ⟨?_, Nat.le_refl _⟩
      rcases roundDiv_cases x (10 ^ (j + 1)) with ⟨e, _⟩ | ⟨e, _⟩ <;> simp only [e]
      · exact h1
      · exact h2
    · rename_i h1 h2; exact ⟨h1, Nat.le_refl _⟩
    · rename_i h1 h2; exact ⟨h2, Nat.le_refl _⟩
    · exact ⟨ih.1, by omega⟩

theorem float_between (b : Nat) (hb : 0 < b) : between (b % 2 == 0) ((f.scaled (b - 1) + f.scaled b) * 5 ^ (f.shift + 1)) (2 * f.scaled b * 5 ^ (f.shift + 1))
    ((f.scaled b + f.scaled (b + 1)) * 5 ^ (f.shift + 1)) = true := by
  have h1 := scaled_mono f (show b - 1 < b by omega)
  have h2 := scaled_mono f (show b < b + 1 by omega)
  have h5 : 0 < 5 ^ (f.shift + 1) := Nat.pow_pos (by decide)
  rw [between_iff]
  exact ⟨.inl (Nat.mul_lt_mul_of_pos_right (by omega) h5), .inl (Nat.mul_lt_mul_of_pos_right (by omega) h5)⟩

/-- The digits chosen are nearer to the float than to its neighbours. -/
theorem ofDecimal_between (hf : 0 < f.mant) (b c j : Nat) (hb : 0 < b)
    (h : between (b % 2 == 0) ((f.scaled (b - 1) + f.scaled b) * 5 ^ (f.shift + 1)) (c * 10 ^ j) ((f.scaled b + f.scaled (b + 1)) * 5 ^ (f.shift + 1)) = true) :
    f.ofDecimal c (j - (f.shift + 1 : Nat)) = b := by
  rw [ofDecimal_eq f hf c _ (f.shift + 1) (by omega), show ((j : Int) - (f.shift + 1 : Nat) + (f.shift + 1 : Nat)).toNat = j by omega]
  have hd : 0 < 10 ^ (f.shift + 1) := Nat.pow_pos (by decide)
  refine near_unique f _ _ _ _ hd (round_near f hf _ _ hd) ?_
  rw [between_iff] at h
  obtain ⟨h1, h2⟩ := h
  have hn : 2 * (c * 10 ^ j * 2 ^ f.shift) = c * 10 ^ j * 2 ^ (f.shift + 1) := by rw [Nat.pow_succ]; ring
  have hm : ∀ a, a * 10 ^ (f.shift + 1) = a * 5 ^ (f.shift + 1) * 2 ^ (f.shift + 1) := fun a => by
    rw [Nat.mul_assoc, ← Nat.mul_pow]
  have h2p := two_pow_pos (f.shift + 1)
  refine near_between f _ _ b hd (fun _ => ?_) ?_
  · rw [hn, hm]
    rcases h1 with h1 | ⟨he, h1⟩
    · exact .inl (Nat.mul_lt_mul_of_pos_right h1 h2p)
    · exact .inr ⟨by simpa using he, by rw [h1]⟩
  · rw [hn, hm]
    rcases h2 with h2 | ⟨he, h2⟩
    · exact .inl (Nat.mul_lt_mul_of_pos_right h2 h2p)
    · exact .inr ⟨by simpa using he, by rw [h2]⟩

/-- The shortest digits are read as the float. -/
theorem shortest_back (hf : 0 < f.mant) (b : Nat) (hb : 0 < b) : f.ofDecimal (f.shortest b).1 ((f.shortest b).2 - (f.shift + 1 : Nat)) = b :=
  ofDecimal_between f hf b _ _ hb (shortestFrom_in _ _ _ _ _ (float_between f b hb)).1

theorem ofDecimal_zero (hf : 0 < f.mant) (e : Int) : f.ofDecimal 0 e = 0 := by
  have h := round_scaled f hf 0 (10 ^ (-e).toNat) (Nat.pow_pos (by decide))
  rw [scaled_zero, Nat.zero_mul] at h
  unfold FloatFmt.ofDecimal
  rw [Nat.zero_mul, Nat.zero_mul]
  exact h

end Verif
