import Verif.Lemmas.FloatText
/-! # Floats are read back from their texts -/
namespace Verif

theorem decAcc_replicate (n k : Nat) : decAcc n (List.replicate k 48) = n * 10 ^ k := by
  induction k generalizing n with
  | zero => simp [decAcc]
  | succ k ih =>
    rw [List.replicate_succ, decAcc_cons, ih, Nat.pow_succ]
    show (10 * n + 0) * _ = _
    ring
theorem digits_zeros (k : Nat) : AllDigits (List.replicate k 48) := fun c hc => by
  rw [List.eq_of_mem_replicate hc]; decide
theorem digits_append {s t : Bytes} (h : AllDigits s) (h' : AllDigits t) : AllDigits (s ++ t) := fun c hc => by
  rcases List.mem_append.1 hc with h1 | h1
  · exact h c h1
  · exact h' c h1
theorem digits_part {s t : Bytes} (h : AllDigits s) (ht : ∀ c ∈ t, c ∈ s) : AllDigits t := fun c hc => h c (ht c hc)

/-- Integers of JSON numbers -/
def IntPart (ip : Bytes) : Prop := AllDigits ip ∧ ip ≠ [] ∧ (ip = asc "0" ∨ ip.head? ≠ some 48)
/-- Fractions -/
def FracPart (frac fp : Bytes) : Prop := AllDigits fp ∧ (frac = [] ∧ fp = [] ∨ frac = 46 :: fp ∧ fp ≠ [])

theorem fmtF_parts (ds : Bytes) (dp : Int) (hd : AllDigits ds) (h0 : ds ≠ []) (hh : ds.head? ≠ some 48) : ∃ ip frac fp z, fmtF ds dp = ip ++ (frac ++ []) ∧ IntPart ip ∧ FracPart frac fp ∧
    decValue (ip ++ fp) = decValue ds * 10 ^ z ∧ 0 - (fp.length : Int) + (z : Nat) = dp - ds.length := by
  unfold fmtF
  split
  · rename_i hdp
    refine ⟨asc "0", 46 :: (List.replicate (-dp).toNat 48 ++ ds), List.replicate (-dp).toNat 48 ++ ds, 0, by simp [asc], ⟨by decide, by decide, .inl rfl⟩,
      ⟨digits_append (digits_zeros _) hd, .inr ⟨rfl, by simp [h0]⟩⟩, ?_, ?_⟩
    · rw [decValue_eq, decValue_eq, decAcc_append, decAcc_append, decAcc_replicate, show decAcc 0 (asc "0") = 0 by decide]
      simp
    · simp; omega
  · rename_i hdp
    split
    · rename_i hl
      refine ⟨ds ++ List.replicate (dp.toNat - ds.length) 48, [], [], dp.toNat - ds.length, by simp, ⟨digits_append hd (digits_zeros _), by simp [h0], .inr ?_⟩, ⟨fun c hc => (by cases hc), .inl ⟨rfl, rfl⟩⟩, ?_, ?_⟩
      · cases ds with
        | nil => exact absurd rfl h0
        | cons c ds => exact hh
      · rw [List.append_nil, decValue_eq, decValue_eq, decAcc_append, decAcc_replicate]
      · simp; omega
    · rename_i hl
      have hdrop : ds.drop dp.toNat ≠ [] := by
        intro h; have := congrArg List.length h; simp at this; omega
      have htake : ds.take dp.toNat ≠ [] := by
        intro h; have := congrArg List.length h; simp at this; rcases this with h | h
        · omega
        · exact h0 h
      refine ⟨ds.take dp.toNat, 46 :: ds.drop dp.toNat, ds.drop dp.toNat, 0, by simp, ⟨digits_part hd fun c => List.mem_of_mem_take, htake, .inr ?_⟩,
        ⟨digits_part hd fun c => List.mem_of_mem_drop, .inr ⟨rfl, hdrop⟩⟩, ?_, ?_⟩
      · rw [List.head?_take, if_neg (by omega)]; exact hh
      · rw [List.take_append_drop]; simp
      · simp; omega

theorem cleanExp_text (pre es : Bytes) (s : UInt8) (hd : AllDigits es) (hl : 2 ≤ es.length) :
    ∃ es', cleanExp (pre ++ 101 :: s :: es) = pre ++ 101 :: s :: es' ∧ AllDigits es' ∧ es' ≠ [] ∧ decValue es' = decValue es := by
  unfold cleanExp
  split
  · rename_i d t h
    have hr : es.reverse ++ s :: 101 :: pre.reverse = d :: 48 :: 45 :: 101 :: t := by rw [← h]; simp
    generalize hes : es.reverse = r at hr
    have hlr : 2 ≤ r.length := by rw [← hes]; simpa using hl
    match r, hr, hlr with
    | x :: y :: [], hr, _ =>
      have he : es = [y, x] := by rw [← List.reverse_reverse es, hes]; rfl
      simp at hr
      obtain ⟨rfl, rfl, rfl, rfl⟩ := hr
      refine ⟨[x], by simp, fun c hc => hd c (by rw [he]; simp at hc; simp [hc]), by simp, ?_⟩
      rw [he]
      simp [decValue]
    | x :: y :: z :: r, hr, _ =>
      simp at hr
      have hz : z ∈ es := by rw [← List.mem_reverse, hes]; simp
      have := hd z hz
      rw [hr.2.2.1] at this
      exact absurd this (by decide)
  · exact ⟨es, rfl, hd, by rintro rfl; simp at hl, rfl⟩

theorem fmtE_parts (ds : Bytes) (dp : Int) (hd : AllDigits ds) (h0 : ds ≠ []) (hh : ds.head? ≠ some 48) (hx : (dp - 1).natAbs < 100000) :
    ∃ ip frac fp ex x, cleanExp (fmtE ds dp) = ip ++ (frac ++ ex) ∧ IntPart ip ∧ FracPart frac fp ∧ ExpText ex x ∧ decValue (ip ++ fp) = decValue ds ∧ x - (fp.length : Int) = dp - ds.length ∧
      ex.head? = some 101 := by
  obtain ⟨e1, e2, e3, _⟩ := fmtNat_spec (dp - 1).natAbs
  have hes : ∃ es, (if (fmtNat (dp - 1).natAbs).length < 2 then 48 :: fmtNat (dp - 1).natAbs else fmtNat (dp - 1).natAbs) = es ∧ AllDigits es ∧ 2 ≤ es.length ∧ decValue es = (dp - 1).natAbs := by
    refine ⟨_, rfl, ?_⟩
    split
    · refine ⟨fun c hc => ?_, ?_, ?_⟩
      · rcases List.mem_cons.1 hc with rfl | hc
        · decide
        · exact e1 c hc
      · have := List.length_pos_iff.2 e3; rw [List.length_cons]; omega
      · rw [decValue_eq, decAcc_cons]; exact e2
    · exact ⟨e1, by omega, e2⟩
  obtain ⟨es, he, hed, hel, hev⟩ := hes
  obtain ⟨c, ds', rfl⟩ := List.exists_cons_of_ne_nil h0
  have hsplit : ∃ frac fp, (if (c :: ds').length ≤ 1 then [] else 46 :: (c :: ds').drop 1) = frac ∧ FracPart frac fp ∧ fp = ds' := by
    refine ⟨_, ds', rfl, ?_, rfl⟩
    cases ds' with
    | nil => exact ⟨fun c hc => (by cases hc), .inl ⟨rfl, rfl⟩⟩
    | cons d ds' => exact ⟨fun x hx => hd x (by simp at hx ⊢; exact .inr hx), .inr ⟨rfl, by simp⟩⟩
  obtain ⟨frac, fp, hfr, hfp, rfl⟩ := hsplit
  have hfmt : fmtE (c :: fp) dp = ([c] ++ frac) ++ 101 :: (if dp - 1 < 0 then 45 else 43) :: es := by
    unfold fmtE
    dsimp only
    rw [hfr, he]
    simp
  obtain ⟨es', h1, h2, h3, h4⟩ := cleanExp_text ([c] ++ frac) es (if dp - 1 < 0 then 45 else 43) hed hel
  refine ⟨[c], frac, fp, 101 :: (if dp - 1 < 0 then 45 else 43) :: es', dp - 1, by rw [hfmt, h1]; simp, ⟨fun x hx => hd x (by simp at hx; simp [hx]), by simp, .inr hh⟩, hfp, ?_, rfl, by simp; omega, rfl⟩
  split
  · rename_i hneg
    have := ExpText.minus 101 es' (.inl rfl) h2 h3 (by omega)
    rwa [h4, hev, show -(((dp - 1).natAbs : Nat) : Int) = dp - 1 by omega] at this
  · have := ExpText.plus 101 es' (.inl rfl) h2 h3 (by omega)
    rwa [h4, hev, show (((dp - 1).natAbs : Nat) : Int) = dp - 1 by omega] at this

/-- What is used of a format: it holds of float32 and float64. -/
structure FloatFmt.Ok (f : FloatFmt) : Prop where
  mant : 0 < f.mant
  exp : 2 ≤ f.exp
  size : 2 * f.scaled f.inf * 5 ^ (f.shift + 1) < 10 ^ (2 * (f.shift + 1))
  shift : f.shift ≤ 5000
theorem binary64_ok : binary64.Ok := ⟨by decide, by decide, by decide +kernel, by decide +kernel⟩
theorem binary32_ok : binary32.Ok := ⟨by decide, by decide, by decide +kernel, by decide +kernel⟩

variable {f : FloatFmt}

/-- The shape of the text of a magnitude and what strconv.ParseFloat makes of it -/
theorem magText_parts (hf : f.Ok) (b : Nat) (hb : b < f.inf) : ∃ ip frac fp ex x, f.magText b = ip ++ (frac ++ ex) ∧ IntPart ip ∧ FracPart frac fp ∧ ExpText ex x ∧
    f.ofDecimal (decValue (ip ++ fp)) (x - fp.length) = b ∧ (b = 0 → decValue (ip ++ fp) = 0) ∧
    (b ≠ 0 → ∃ z : Nat, decValue (ip ++ fp) = (f.shortest b).1 * 10 ^ z ∧ x - fp.length + z = (f.shortest b).2 - (f.shift + 1 : Nat)) ∧
    (if b ≠ 0 ∧ (b < f.ofDecimal 1 (-6) ∨ f.ofDecimal 1 21 ≤ b) then ex.head? = some 101 else ex = []) := by
  unfold FloatFmt.magText
  split
  · rename_i h
    refine ⟨asc "0", [], [], [], 0, rfl, ⟨by decide, by decide, .inl rfl⟩, ⟨fun c hc => (by cases hc), .inl ⟨rfl, rfl⟩⟩, .none, ?_, fun _ => rfl, fun h' => (h' h).elim, by rw [if_neg fun h' => h'.1 h]⟩
    rw [show decValue (asc "0" ++ []) = 0 by decide, ofDecimal_zero f hf.mant, h]
  · rename_i h
    have hb0 : 0 < b := by omega
    have hback := shortest_back f hf.mant b hb0
    obtain ⟨hin, hj⟩ := shortestFrom_in (b % 2 == 0) ((f.scaled (b - 1) + f.scaled b) * 5 ^ (f.shift + 1)) (2 * f.scaled b * 5 ^ (f.shift + 1)) ((f.scaled b + f.scaled (b + 1)) * 5 ^ (f.shift + 1))
      (2 * (f.shift + 1)) (float_between f b hb0)
    replace hin : between (b % 2 == 0) ((f.scaled (b - 1) + f.scaled b) * 5 ^ (f.shift + 1)) ((f.shortest b).1 * 10 ^ (f.shortest b).2) ((f.scaled b + f.scaled (b + 1)) * 5 ^ (f.shift + 1)) = true := hin
    replace hj : (f.shortest b).2 ≤ 2 * (f.shift + 1) := hj
    generalize f.shortest b = cj at hback hin hj ⊢
    obtain ⟨c, j⟩ := cj
    dsimp only at hback hin hj ⊢
    rw [between_iff] at hin
    have h10 : 0 < 10 ^ j := Nat.pow_pos (by decide)
    have hc0 : c ≠ 0 := by
      rintro rfl
      have := scaled_mono f (show b - 1 < b by omega)
      have h5 : 0 < 5 ^ (f.shift + 1) := Nat.pow_pos (by decide)
      have : 0 < (f.scaled (b - 1) + f.scaled b) * 5 ^ (f.shift + 1) := Nat.mul_pos (by omega) h5
      omega
    have hcs : c < 10 ^ (2 * (f.shift + 1)) := by
      have h1 : c ≤ c * 10 ^ j := Nat.le_mul_of_pos_right c h10
      have h2 : (f.scaled b + f.scaled (b + 1)) * 5 ^ (f.shift + 1) ≤ 2 * f.scaled f.inf * 5 ^ (f.shift + 1) :=
        Nat.mul_le_mul_right _ (by have := scaled_le f (show b ≤ f.inf by omega); have := scaled_le f (show b + 1 ≤ f.inf by omega); omega)
      have h3 : c * 10 ^ j ≤ (f.scaled b + f.scaled (b + 1)) * 5 ^ (f.shift + 1) := by omega
      exact Nat.lt_of_le_of_lt (h1.trans (h3.trans h2)) hf.size
    obtain ⟨d1, d2, d3, d4⟩ := fmtNat_spec c
    have hlen := fmtNat_length c (2 * (f.shift + 1)) hcs (by omega)
    have hshift := hf.shift
    have hlen0 := List.length_pos_iff.2 d3
    split
    · rename_i hthr
      obtain ⟨ip, frac, fp, ex, x, g1, g2, g3, g4, g5, g6, g7⟩ := fmtE_parts (fmtNat c) ((fmtNat c).length + j - (f.shift + 1)) d1 d3 (d4 hc0) (by omega)
      refine ⟨ip, frac, fp, ex, x, g1, g2, g3, g4, ?_, fun h' => (h h').elim, fun _ => ⟨0, by rw [g5, decValue_eq, d2]; simp, by rw [g6]; push_cast; omega⟩, by rw [if_pos ⟨h, hthr⟩]; exact g7⟩
      rw [g5, g6, decValue_eq, d2]
      refine Eq.trans ?_ hback
      congr 1
      push_cast; omega
    · rename_i hthr
      obtain ⟨ip, frac, fp, z, g1, g2, g3, g5, g6⟩ := fmtF_parts (fmtNat c) ((fmtNat c).length + j - (f.shift + 1)) d1 d3 (d4 hc0)
      refine ⟨ip, frac, fp, [], 0, g1, g2, g3, .none, ?_, fun h' => (h h').elim, fun _ => ⟨z, by rw [g5, decValue_eq, d2], by rw [g6]; push_cast; omega⟩, by rw [if_neg fun h' => hthr h'.2]⟩
      rw [g5, ofDecimal_zeros f hf.mant, g6, decValue_eq, d2]
      refine Eq.trans ?_ hback
      congr 1
      push_cast; omega

theorem inf_le_sign (f : FloatFmt) : f.inf < f.sign := by
  unfold FloatFmt.inf FloatFmt.sign
  rw [Nat.pow_add, Nat.mul_comm]
  exact Nat.mul_lt_mul_of_pos_left (by have := two_pow_pos f.exp; omega) (two_pow_pos f.mant)

theorem floatText_split (f : FloatFmt) (neg : Bool) (b : Nat) (hb : b < f.sign) : f.text ((if neg then f.sign else 0) + b) = signText neg ++ f.magText b := by
  have hs : 0 < f.sign := two_pow_pos _
  unfold FloatFmt.text
  cases neg with
  | true =>
    rw [show (if true = true then f.sign else 0) = f.sign from rfl, Nat.add_mod_left, Nat.mod_eq_of_lt hb, Nat.add_div_left b hs, Nat.div_eq_of_lt hb]
    rfl
  | false =>
    rw [show (if false = true then f.sign else 0) = 0 from rfl, Nat.zero_add, Nat.mod_eq_of_lt hb, Nat.div_eq_of_lt hb]
    rfl

/-- Finite floats are read back from their texts. -/
theorem floatText_back (hf : f.Ok) (neg : Bool) (b : Nat) (hb : b < f.inf) :
    f.parse (f.text ((if neg then f.sign else 0) + b)) = some ((if neg then f.sign else 0) + b) := by
  obtain ⟨ip, frac, fp, ex, x, g1, g2, g3, g4, g5, _⟩ := magText_parts hf b hb
  rw [floatText_split f neg b (Nat.lt_trans hb (inf_le_sign f)), g1]
  unfold FloatFmt.parse
  rw [readFloat_text neg ip frac fp ex x g2.1 g2.2.1 g3.1 (by rcases g3.2 with h | h; exacts [.inl h, .inr h.1]) g4]
  show (if f.ofDecimal _ _ < f.inf then some _ else none) = _
  rw [g5, if_pos hb]

theorem int_lit {ip : Bytes} (h : IntPart ip) : ip = asc "0" ∨ (DigitSeq ip ∧ ip.head? ≠ some 48) := by
  obtain ⟨h1, h2, h3 | h3⟩ := h
  · exact .inl h3
  · exact .inr ⟨⟨h2, fun c hc => digit_range c (h1 c hc)⟩, h3⟩
theorem exp_lit {ex : Bytes} {x : Int} (h : ExpText ex x) : ex = [] ∨ ∃ e s ds, (e = 101 ∨ e = 69) ∧ (s = [] ∨ s = asc "+" ∨ s = asc "-") ∧ DigitSeq ds ∧ ex = e :: (s ++ ds) := by
  cases h with
  | none => exact .inl rfl
  | plain c ds h h1 h2 => exact .inr ⟨c, [], ds, h, .inl rfl, ⟨h2, fun c hc => digit_range c (h1 c hc)⟩, rfl⟩
  | plus c ds h h1 h2 => exact .inr ⟨c, asc "+", ds, h, .inr (.inl rfl), ⟨h2, fun c hc => digit_range c (h1 c hc)⟩, rfl⟩
  | minus c ds h h1 h2 => exact .inr ⟨c, asc "-", ds, h, .inr (.inr rfl), ⟨h2, fun c hc => digit_range c (h1 c hc)⟩, rfl⟩

/-- Texts of finite floats are JSON numbers. -/
theorem floatText_lit (hf : f.Ok) (neg : Bool) (b : Nat) (hb : b < f.inf) : NumLit (f.text ((if neg then f.sign else 0) + b)) := by
  obtain ⟨ip, frac, fp, ex, x, g1, g2, g3, g4, g5, _⟩ := magText_parts hf b hb
  rw [floatText_split f neg b (Nat.lt_trans hb (inf_le_sign f)), g1]
  refine ⟨signText neg, ip, frac, ex, rfl, by cases neg; exacts [.inl rfl, .inr rfl], int_lit g2, ?_, exp_lit g4⟩
  rcases g3.2 with h | h
  · exact .inl h.1
  · exact .inr ⟨fp, ⟨h.2, fun c hc => digit_range c (g3.1 c hc)⟩, h.1⟩

/-- Which texts have an exponent -/
theorem floatText_exp (hf : f.Ok) (neg : Bool) (b : Nat) (hb : b < f.inf) :
    101 ∈ f.text ((if neg then f.sign else 0) + b) ↔ b ≠ 0 ∧ (b < f.ofDecimal 1 (-6) ∨ f.ofDecimal 1 21 ≤ b) := by
  obtain ⟨ip, frac, fp, ex, x, g1, g2, g3, g4, _, _, _, g7⟩ := magText_parts hf b hb
  have hno {ds : Bytes} (h : AllDigits ds) : (101 : UInt8) ∉ ds := fun h' => absurd (h 101 h') (by decide)
  have hsign : (101 : UInt8) ∉ signText neg := by cases neg <;> decide
  have hfr : (101 : UInt8) ∉ frac := by
    rcases g3.2 with ⟨rfl, _⟩ | ⟨rfl, _⟩
    · simp
    · intro h
      rcases List.mem_cons.1 h with h | h
      · cases h
      · exact hno g3.1 h
  rw [floatText_split f neg b (Nat.lt_trans hb (inf_le_sign f)), g1]
  simp only [List.mem_append, hsign, hno g2.1, hfr, false_or]
  split at g7
  · rename_i h
    exact ⟨fun _ => h, fun _ => List.mem_of_head? g7⟩
  · rename_i h
    rw [g7]
    exact ⟨fun h' => (by cases h'), fun h' => (h h').elim⟩

end Verif
