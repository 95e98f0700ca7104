import Verif.Lemmas.Calendar
import Verif.Lemmas.Strconv
import Verif.Model.TimeText
/-! # Formatting and parsing time stamps -/
namespace Verif

/-! ### Digits -/

theorem decAcc_zeros (k : Nat) (s : Bytes) : decAcc 0 (List.replicate k 48 ++ s) = decAcc 0 s := by
  induction k with
  | zero => rfl
  | succ k ih => rw [List.replicate_succ, List.cons_append, decAcc_cons]; exact ih

theorem padInt_digits (n w : Nat) (h : n < 10 ^ w) (hw : 0 < w) : Digits w n (padInt n w) := by
  obtain ⟨h1, h2, h3, h4⟩ := fmtNat_spec n
  have hl := fmtNat_length n w h hw
  have hp : padInt n w = List.replicate (w - (fmtNat n).length) 48 ++ fmtNat n := by
    unfold padInt
    rw [if_neg (by omega)]; rfl
  rw [hp]
  refine ⟨by simp; omega, ?_, ?_⟩
  · rw [AllDigits.append]
    refine ⟨?_, h1⟩
    intro c hc
    rw [List.eq_of_mem_replicate hc]; decide
  · rw [decValue_eq, decAcc_zeros, h2]

theorem digits_two (n : Nat) (s : Bytes) : Digits 2 n s ↔ ∃ a b, s = [a, b] ∧ isDigit a = true ∧ isDigit b = true ∧ n = digitVal a * 10 + digitVal b := by
  unfold Digits
  constructor
  · rintro ⟨h1, h2, h3⟩
    match s, h1 with
    | [a, b], _ =>
      rw [AllDigits.cons, AllDigits.cons] at h2
      refine ⟨a, b, rfl, h2.1, h2.2.1, ?_⟩
      rw [← h3]; simp only [decValue, List.foldl, digitVal]; omega
  · rintro ⟨a, b, rfl, h1, h2, rfl⟩
    refine ⟨rfl, ?_, ?_⟩
    · rw [AllDigits.cons, AllDigits.cons]; exact ⟨h1, h2, AllDigits.nil⟩
    · simp only [decValue, List.foldl, digitVal]; omega

theorem digits_one (n : Nat) (s : Bytes) : Digits 1 n s ↔ ∃ a, s = [a] ∧ isDigit a = true ∧ n = digitVal a := by
  unfold Digits
  constructor
  · rintro ⟨h1, h2, h3⟩
    match s, h1 with
    | [a], _ =>
      rw [AllDigits.cons] at h2
      refine ⟨a, rfl, h2.1, ?_⟩
      rw [← h3]; simp only [decValue, List.foldl, digitVal]; omega
  · rintro ⟨a, rfl, h1, rfl⟩
    refine ⟨rfl, ?_, ?_⟩
    · rw [AllDigits.cons]; exact ⟨h1, AllDigits.nil⟩
    · simp only [decValue, List.foldl, digitVal]; omega

theorem skipByte_iff (c : UInt8) (s r : Bytes) : skipByte c s = some r ↔ s = c :: r := by
  cases s with
  | nil => simp [skipByte]
  | cons b s =>
    simp only [skipByte]
    split
    · rename_i h; simp [h]
    · rename_i h; simp [h]

theorem getnum_fixed (s r : Bytes) (n : Nat) : getnum true s = some (n, r) ↔ ∃ p, s = p ++ r ∧ Digits 2 n p := by
  simp only [digits_two]
  constructor
  · intro h
    match s, h with
    | [a], h => simp [getnum] at h
    | a :: b :: s, h =>
      simp only [getnum] at h
      split at h
      · rename_i ha
        split at h
        · rename_i hb
          simp only [Option.some.injEq, Prod.mk.injEq] at h
          exact ⟨[a, b], by rw [← h.2]; rfl, a, b, rfl, ha, hb, h.1.symm⟩
        · simp at h
      · simp at h
  · rintro ⟨p, rfl, a, b, rfl, ha, hb, rfl⟩
    simp [getnum, ha, hb]

theorem getnum_loose (s r : Bytes) (n : Nat) :
    getnum false s = some (n, r) ↔ ∃ p, s = p ++ r ∧ (Digits 2 n p ∨ Digits 1 n p ∧ ∀ c, r.head? = some c → isDigit c = false) := by
  simp only [digits_two, digits_one]
  constructor
  · intro h
    match s, h with
    | [a], h =>
      simp only [getnum] at h
      split at h
      · rename_i ha
        simp only [Option.some.injEq, Prod.mk.injEq] at h
        exact ⟨[a], by rw [← h.2]; rfl, .inr ⟨⟨a, rfl, ha.1, h.1.symm⟩, by rw [← h.2]; simp⟩⟩
      · simp at h
    | a :: b :: s, h =>
      simp only [getnum] at h
      split at h
      · rename_i ha
        split at h
        · rename_i hb
          simp only [Option.some.injEq, Prod.mk.injEq] at h
          exact ⟨[a, b], by rw [← h.2]; rfl, .inl ⟨a, b, rfl, ha, hb, h.1.symm⟩⟩
        · rename_i hb
          simp only [Bool.false_eq_true, if_false, Option.some.injEq, Prod.mk.injEq] at h
          exact ⟨[a], by rw [← h.2]; rfl, .inr ⟨⟨a, rfl, ha, h.1.symm⟩, by rw [← h.2]; intro c hc; simp at hc; rw [← hc]; simpa using hb⟩⟩
      · simp at h
  · rintro ⟨p, rfl, ⟨a, b, rfl, ha, hb, rfl⟩ | ⟨⟨a, rfl, ha, rfl⟩, hr⟩⟩
    · simp [getnum, ha, hb]
    · cases r with
      | nil => simp [getnum, ha]
      | cons c r => simp [getnum, ha, hr c rfl]

theorem digitsOnly_iff (s : Bytes) (n v : Nat) : digitsOnly s n = some v ↔ AllDigits s ∧ decAcc n s = v := by
  induction s generalizing n with
  | nil => simp [digitsOnly, decAcc_nil, AllDigits.nil]
  | cons c s ih =>
    simp only [digitsOnly]
    rw [AllDigits.cons, decAcc_cons]
    split
    · rename_i h
      rw [ih, show n * 10 + digitVal c = 10 * n + (c.toNat - 48) by unfold digitVal; omega]
      simp [h]
    · rename_i h; simp [h]

theorem timeAtoi_digit (c : UInt8) (s : Bytes) (h : isDigit c = true) (v : Int) :
    timeAtoi (c :: s) = some v ↔ AllDigits (c :: s) ∧ v = decValue (c :: s) := by
  have h1 : c ≠ 45 := by rintro rfl; simp [isDigit] at h
  have h2 : c ≠ 43 := by rintro rfl; simp [isDigit] at h
  unfold timeAtoi
  split
  · rename_i heq; simp only [List.cons.injEq] at heq; exact absurd heq.1 h1
  · rename_i heq; simp only [List.cons.injEq] at heq; exact absurd heq.1 h2
  · simp only [Option.map_eq_some_iff]
    constructor
    · rintro ⟨n, hn, rfl⟩
      rw [digitsOnly_iff] at hn
      exact ⟨hn.1, by rw [decValue_eq, hn.2]; rfl⟩
    · rintro ⟨hd, rfl⟩
      exact ⟨_, (digitsOnly_iff _ _ _).2 ⟨hd, rfl⟩, rfl⟩

theorem parseYear_iff (s r : Bytes) (y : Int) : parseYear s = some (y, r) ↔ ∃ p, s = p ++ r ∧ 0 ≤ y ∧ Digits 4 y.toNat p := by
  unfold parseYear
  constructor
  · intro h
    match s, h with
    | c :: s, h =>
      simp only at h
      split at h
      · simp at h
      · rename_i hc
        have hlen : ¬ (c :: s).length < 4 := fun h => hc (.inl h)
        have hd : isDigit c = true := by cases hd : isDigit c with | true => rfl | false => exact absurd (.inr (by simp [hd])) hc
        rw [Option.map_eq_some_iff] at h
        obtain ⟨z, hz, he⟩ := h
        simp only [Prod.mk.injEq] at he
        obtain ⟨rfl, rfl⟩ := he
        rw [show List.take 4 (c :: s) = c :: s.take 3 from rfl, timeAtoi_digit c _ hd] at hz
        refine ⟨c :: s.take 3, by simp, by rw [hz.2]; omega, ?_, hz.1, ?_⟩
        · simp at hlen ⊢; omega
        · rw [hz.2]; rfl
  · rintro ⟨p, rfl, h0, h1, h2, h3⟩
    match p, h1 with
    | [a, b, c, d], _ =>
      have ha := (AllDigits.cons.1 h2).1
      simp only [List.cons_append, List.nil_append, List.length_cons]
      rw [if_neg (by simp [ha])]
      simp only [List.take, List.drop]
      rw [(timeAtoi_digit a [b, c, d] ha y).2 ⟨h2, by rw [h3]; omega⟩]
      rfl

/-! ### Fractions -/

theorem commaOrPeriod_iff (c : UInt8) : commaOrPeriod c = true ↔ c = 46 ∨ c = 44 := by simp [commaOrPeriod]

theorem milli_atoi (s : Bytes) (hs : s.length = 3) (v : Nat) : timeAtoi s = some (v : Int) ↔ MilliText v s := by
  match s, hs with
  | [a, b, c], _ =>
    unfold MilliText
    by_cases hm : a = 45
    · subst hm
      simp only [timeAtoi, Option.map_eq_some_iff, digitsOnly_iff]
      constructor
      · rintro ⟨n, ⟨hd, hn⟩, he⟩
        have he' : -(n : Int) = v := he
        have hn0 : n = 0 := by omega
        have hv : v = 0 := by omega
        subst hn0; subst hv
        refine .inr (.inr ⟨?_, rfl⟩)
        rw [AllDigits.cons, AllDigits.cons, isDigit_iff, isDigit_iff] at hd
        rw [decAcc_cons, decAcc_cons, decAcc_nil] at hn
        have hb : b = 48 := UInt8.toNat_inj.mp (show b.toNat = 48 by omega)
        have hc : c = 48 := UInt8.toNat_inj.mp (show c.toNat = 48 by omega)
        rw [hb, hc]
      · rintro (⟨-, h, -⟩ | ⟨t, h, -⟩ | ⟨h, rfl⟩)
        · rw [AllDigits.cons] at h; simp [isDigit] at h
        · simp at h
        · simp only [List.cons.injEq, true_and, and_true] at h
          obtain ⟨rfl, rfl⟩ := h
          exact ⟨0, ⟨by decide, by decide⟩, by simp⟩
    · by_cases hp : a = 43
      · subst hp
        simp only [timeAtoi, Option.map_eq_some_iff, digitsOnly_iff]
        constructor
        · rintro ⟨n, ⟨hd, hn⟩, he⟩
          have : n = v := Int.ofNat.inj he
          subst this
          exact .inr (.inl ⟨[b, c], rfl, rfl, hd, hn⟩)
        · rintro (⟨-, h, -⟩ | ⟨t, h, h2⟩ | ⟨h, rfl⟩)
          · rw [AllDigits.cons] at h; simp [isDigit] at h
          · simp only [List.cons.injEq, true_and] at h
            subst h
            exact ⟨v, ⟨h2.2.1, h2.2.2⟩, rfl⟩
          · simp at h
      · have : timeAtoi [a, b, c] = (digitsOnly [a, b, c] 0).map Int.ofNat := by
          unfold timeAtoi
          split
          · rename_i heq; simp only [List.cons.injEq] at heq; exact absurd heq.1 hm
          · rename_i heq; simp only [List.cons.injEq] at heq; exact absurd heq.1 hp
          · rfl
        rw [this, Option.map_eq_some_iff]
        constructor
        · rintro ⟨n, hn, he⟩
          have : n = v := Int.ofNat.inj he
          subst this
          rw [digitsOnly_iff] at hn
          exact .inl ⟨rfl, hn.1, hn.2⟩
        · rintro (⟨-, h1, h2⟩ | ⟨t, h, h2⟩ | ⟨h, rfl⟩)
          · exact ⟨v, (digitsOnly_iff _ _ _).2 ⟨h1, h2⟩, rfl⟩
          · simp only [List.cons.injEq] at h; exact absurd h.1 hp
          · simp only [List.cons.injEq] at h; exact absurd h.1 hm

theorem MilliText.length {v : Nat} {s : Bytes} (h : MilliText v s) : s.length = 3 := by
  rcases h with h | ⟨t, rfl, h⟩ | ⟨rfl, -⟩
  · exact h.1
  · simp [h.1]
  · rfl

theorem leadingDigits_spec (s : Bytes) : leadingDigits s ≤ s.length ∧ AllDigits (s.take (leadingDigits s)) := by
  induction s with
  | nil => simp [leadingDigits, AllDigits.nil]
  | cons c s ih =>
    simp only [leadingDigits]
    split
    · rename_i h
      exact ⟨by simp; exact ih.1, by rw [List.take_succ_cons, AllDigits.cons]; exact ⟨h, ih.2⟩⟩
    · exact ⟨by simp, by simp [AllDigits.nil]⟩

theorem leadingDigits_all (s : Bytes) (h : AllDigits s) : leadingDigits s = s.length := by
  induction s with
  | nil => rfl
  | cons c s ih => rw [AllDigits.cons] at h; simp [leadingDigits, h.1, ih h.2]

theorem parseNanoseconds_digits (c : UInt8) (t : Bytes) (hc : c = 46 ∨ c = 44) (hd : AllDigits t) (ht : t ≠ []) :
    parseNanoseconds (c :: t) = some (decValue (t.take 9) * 10 ^ (9 - t.length)) := by
  unfold parseNanoseconds
  simp only [(commaOrPeriod_iff c).2 hc, if_true]
  cases t with
  | nil => exact absurd rfl ht
  | cons d t =>
    have h1 : List.drop 1 (List.take 10 (c :: d :: t)) = d :: t.take 8 := rfl
    have hd' : AllDigits (d :: t.take 8) := by
      intro x hx; exact hd x (List.mem_of_mem_take (i := 9) (by simpa using hx))
    have := (timeAtoi_digit d (t.take 8) (AllDigits.cons.1 hd).1 _).2 ⟨hd', rfl⟩
    rw [h1, this]
    simp only
    rw [if_neg (by omega), Int.toNat_natCast]
    congr 3
    simp; omega

theorem parseFraction_iff (milli : Bool) (s : Bytes) (ns : Nat) : parseFraction milli s = some (ns, []) ↔ FractionText milli ns s := by
  cases milli with
  | true =>
    simp only [parseFraction, FractionText, if_true]
    constructor
    · intro h
      split at h
      · simp at h
      · rename_i hl
        rw [Option.map_eq_some_iff] at h
        obtain ⟨n, hn, he⟩ := h
        simp only [Prod.mk.injEq, List.drop_eq_nil_iff] at he
        obtain ⟨rfl, hle⟩ := he
        match s, (show s.length = 4 by omega) with
        | [c, x, y, z], _ =>
          simp only [List.take, parseNanoseconds] at hn
          split at hn
          · rename_i hc
            simp only [List.drop] at hn
            split at hn
            · simp at hn
            · rename_i i hi
              split at hn
              · simp at hn
              · simp only [List.length_cons, List.length_nil, Option.some.injEq] at hn
                refine ⟨c, [x, y, z], i.toNat, rfl, (commaOrPeriod_iff c).1 hc, ?_, by rw [← hn]⟩
                rw [← milli_atoi _ rfl, hi]
                congr 1; omega
          · simp at hn
    · rintro ⟨c, t, v, rfl, hc, hm, rfl⟩
      have hl := hm.length
      match t, hl with
      | [x, y, z], _ =>
        have ha := (milli_atoi [x, y, z] rfl v).2 hm
        simp only [List.length_cons, List.length_nil, Nat.lt_irrefl, if_false, List.take, parseNanoseconds, (commaOrPeriod_iff c).2 hc, if_true, List.drop, ha]
        rw [if_neg (by omega)]
        simp
  | false =>
    simp only [parseFraction, FractionText, Bool.false_eq_true, if_false]
    cases s with
    | nil => simp [eq_comm]
    | cons c t =>
      simp only
      constructor
      · intro h
        split at h
        · rename_i hc
          rw [Option.map_eq_some_iff] at h
          obtain ⟨n, hn, he⟩ := h
          simp only [Prod.mk.injEq, List.drop_succ_cons, List.drop_eq_nil_iff] at he
          obtain ⟨rfl, hle⟩ := he
          obtain ⟨h1, h2⟩ := leadingDigits_spec t
          have hle' : leadingDigits t = t.length := by omega
          rw [hle', List.take_length] at h2
          have ht : t ≠ [] := by rintro rfl; simp [leadingDigits] at hc
          rw [hle', List.take_succ_cons, List.take_length, parseNanoseconds_digits c t ((commaOrPeriod_iff c).1 hc.1) h2 ht, Option.some.injEq] at hn
          exact .inr ⟨c, t, rfl, (commaOrPeriod_iff c).1 hc.1, ht, h2, hn.symm⟩
        · simp at h
      · rintro (⟨h, -⟩ | ⟨c', t', h, hc, ht, hd, rfl⟩)
        · simp at h
        · simp only [List.cons.injEq] at h
          obtain ⟨rfl, rfl⟩ := h
          have hl := leadingDigits_all t hd
          rw [if_pos ⟨(commaOrPeriod_iff c).2 hc, by rw [hl]; exact List.length_pos_iff.2 ht⟩, hl, List.take_succ_cons, List.take_length,
            parseNanoseconds_digits c t hc hd ht]
          simp

theorem parseFraction_some {milli : Bool} {s : Bytes} {ns : Nat} {r : Bytes} (h : parseFraction milli s = some (ns, r)) (hr : r = []) :
    FractionText milli ns s := by subst hr; exact (parseFraction_iff _ _ _).1 h

/-! ### The whole stamp -/

theorem timeParse_iff (milli : Bool) (s : Bytes) (t : GoTime) :
    timeParse milli s = some t ↔ ∃ (d : Day) (hour min sec ns : Nat), StampIn milli s d hour min sec ns ∧
      t = ⟨(dateDays d.year d.month d.day - unixDays) * 86400 + (hour * 3600 + min * 60 + sec : Nat), ns⟩ := by
  constructor
  · intro h
    unfold timeParse at h
    simp only [bind, Option.bind_eq_some_iff, Prod.exists] at h
    obtain ⟨y, v1, h1, v2, h2, m, v3, h3, h⟩ := h
    split at h
    · simp at h
    rename_i hm
    simp only [bind, Option.bind_eq_some_iff, Prod.exists] at h
    obtain ⟨v4, h4, d, v5, h5, v6, h6, hh, v7, h7, h⟩ := h
    split at h
    · simp at h
    rename_i hhr
    simp only [bind, Option.bind_eq_some_iff, Prod.exists] at h
    obtain ⟨v8, h8, mi, v9, h9, h⟩ := h
    split at h
    · simp at h
    rename_i hmi
    simp only [bind, Option.bind_eq_some_iff, Prod.exists] at h
    obtain ⟨v10, h10, se, v11, h11, h⟩ := h
    split at h
    · simp at h
    rename_i hse
    simp only [bind, Option.bind_eq_some_iff, Prod.exists] at h
    obtain ⟨ns, v12, h12, h⟩ := h
    split at h
    · simp at h
    rename_i hv
    split at h
    · simp at h
    rename_i hday
    simp only [Option.some.injEq] at h
    rw [parseYear_iff] at h1
    rw [skipByte_iff] at h2 h4 h6 h8 h10
    rw [getnum_fixed] at h3 h5 h9 h11
    rw [getnum_loose] at h7
    obtain ⟨Y, rfl, hy0, hY⟩ := h1
    obtain ⟨M, rfl, hM⟩ := h3
    obtain ⟨D, rfl, hD⟩ := h5
    obtain ⟨H, rfl, hH⟩ := h7
    obtain ⟨MI, rfl, hMI⟩ := h9
    obtain ⟨SE, rfl, hSE⟩ := h11
    subst h2 h4 h6 h8 h10
    have hf := parseFraction_some h12 (by simpa using hv)
    refine ⟨⟨y, m, d⟩, hh, mi, se, ns, ⟨Y, M, D, H, MI, SE, v11, by simp, hy0, hY, hM, hD, ⟨by dsimp only; omega, by dsimp only; omega,
      by dsimp only; omega, ?_⟩, hH.imp id (·.1), by omega, hMI, by omega, hSE, by omega, hf⟩, h.symm⟩
    dsimp only
    rw [← daysIn_eq y m (by omega) (by omega)]
    omega
  · rintro ⟨⟨y, m, d⟩, hh, mi, se, ns, ⟨Y, M, D, H, MI, SE, F, rfl, hy0, hY, hM, hD, ⟨hv1, hv2, hv3, hv4⟩, hH, hhr, hMI, hmi, hSE, hse, hF⟩, rfl⟩
    dsimp only at *
    unfold timeParse
    have e1 : ∀ r, parseYear (Y ++ r) = some (y, r) := fun r => (parseYear_iff _ _ _).2 ⟨Y, rfl, hy0, hY⟩
    have e2 : ∀ c r, skipByte c (c :: r) = some r := fun c r => (skipByte_iff _ _ _).2 rfl
    have e3 : ∀ r, getnum true (M ++ r) = some (m, r) := fun r => (getnum_fixed _ _ _).2 ⟨M, rfl, hM⟩
    have e4 : ∀ r, getnum true (D ++ r) = some (d, r) := fun r => (getnum_fixed _ _ _).2 ⟨D, rfl, hD⟩
    have e5 : ∀ r, getnum false (H ++ 58 :: r) = some (hh, 58 :: r) := fun r => (getnum_loose _ _ _).2 ⟨H, rfl, hH.imp id fun h =>
      ⟨h, by intro c hc; simp at hc; rw [← hc]; decide⟩⟩
    have e6 : ∀ r, getnum true (MI ++ r) = some (mi, r) := fun r => (getnum_fixed _ _ _).2 ⟨MI, rfl, hMI⟩
    have e7 : ∀ r, getnum true (SE ++ r) = some (se, r) := fun r => (getnum_fixed _ _ _).2 ⟨SE, rfl, hSE⟩
    have e8 := (parseFraction_iff milli F ns).2 hF
    have ed := daysIn_eq y m hv1 hv2
    simp only [List.append_assoc, List.cons_append, List.nil_append]
    rw [e1]
    simp only [bind, Option.bind_some, e2, e3]
    rw [if_neg (by omega)]
    simp only [bind, Option.bind_some, e2, e4, e5]
    rw [if_neg (by omega)]
    simp only [bind, Option.bind_some, e2, e6]
    rw [if_neg (by omega)]
    simp only [bind, Option.bind_some, e2, e7]
    rw [if_neg (by omega)]
    simp only [bind, Option.bind_some, e8]
    rw [if_neg (by simp), if_neg (by omega)]

end Verif
