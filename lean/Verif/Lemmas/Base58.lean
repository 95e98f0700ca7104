import Verif.Model.Base58
import Verif.Spec.Base58
import Verif.Lemmas.Numbers
import Verif.Lemmas.Ripemd
import Verif.Lemmas.Byte
namespace Verif

/-! ## positional notation -/

theorem posVal_append (B : Nat) (a b : List Nat) : posVal B (a ++ b) = posVal B a * B ^ b.length + posVal B b := by
  have key : ∀ (b : List Nat) (n : Nat), b.foldl (fun a d => a * B + d) n = n * B ^ b.length + b.foldl (fun a d => a * B + d) 0 := by
    intro b
    induction b with
    | nil => intro n; simp
    | cons d t ih =>
      intro n
      simp only [List.foldl_cons, List.length_cons]
      rw [ih (n * B + d), ih (0 * B + d), Nat.pow_succ, Nat.add_mul, Nat.zero_mul, Nat.zero_add, Nat.mul_assoc, Nat.mul_comm B, Nat.add_assoc]
  unfold posVal
  rw [List.foldl_append, key]

theorem posVal_cons (B d : Nat) (t : List Nat) : posVal B (d :: t) = d * B ^ t.length + posVal B t := by
  have := posVal_append B [d] t
  simpa [posVal] using this

theorem posVal_zeros (B z : Nat) (t : List Nat) : posVal B (List.replicate z 0 ++ t) = posVal B t := by
  induction z with
  | zero => rfl
  | succ z ih => rw [List.replicate_succ, List.cons_append, posVal_cons, ih]; simp

theorem posVal_lt (B : Nat) (ds : List Nat) (h : ∀ d ∈ ds, d < B) : posVal B ds < B ^ ds.length := by
  induction ds with
  | nil => simp [posVal]
  | cons d t ih =>
    rw [posVal_cons, List.length_cons, Nat.pow_succ]
    have h1 := ih (fun x hx => h x (by simp [hx]))
    have h2 : d + 1 ≤ B := h d (by simp)
    have := Nat.mul_le_mul_right (B ^ t.length) h2
    rw [Nat.add_mul, Nat.one_mul, Nat.mul_comm B] at this
    omega

theorem posVal_ge (B d : Nat) (t : List Nat) (hd : d ≠ 0) : B ^ t.length ≤ posVal B (d :: t) := by
  rw [posVal_cons]
  have := Nat.mul_le_mul_right (B ^ t.length) (show 1 ≤ d by omega)
  omega

theorem posVal_inj (B : Nat) : ∀ (a b : List Nat), a.length = b.length → (∀ d ∈ a, d < B) → (∀ d ∈ b, d < B) → posVal B a = posVal B b → a = b
  | [], [], _, _, _, _ => rfl
  | d :: t, e :: u, hl, ha, hb, hv => by
    have hl' : t.length = u.length := by simpa using hl
    have h1 := posVal_lt B t (fun x hx => ha x (by simp [hx]))
    have h2 := posVal_lt B u (fun x hx => hb x (by simp [hx]))
    rw [posVal_cons, posVal_cons, hl'] at hv
    rw [hl'] at h1
    have hp : 0 < B ^ u.length := by omega
    have e1 : (d * B ^ u.length + posVal B t) / B ^ u.length = d := by
      rw [Nat.add_comm, Nat.add_mul_div_right _ _ hp, Nat.div_eq_of_lt h1, Nat.zero_add]
    have e2 : (e * B ^ u.length + posVal B u) / B ^ u.length = e := by
      rw [Nat.add_comm, Nat.add_mul_div_right _ _ hp, Nat.div_eq_of_lt h2, Nat.zero_add]
    have hde : d = e := by rw [← e1, hv, e2]
    subst hde
    have := posVal_inj B t u hl' (fun x hx => ha x (by simp [hx])) (fun x hx => hb x (by simp [hx])) (by omega)
    rw [this]

theorem canonical_unique (B : Nat) (hB : 1 < B) (a b : List Nat) (ha : Canonical B a) (hb : Canonical B b) (hv : posVal B a = posVal B b) : a = b := by
  have hlen : ∀ (a b : List Nat), Canonical B a → Canonical B b → posVal B a = posVal B b → a.length ≤ b.length := by
    intro a b ha hb hv
    refine Decidable.byContradiction fun hc => ?_
    cases a with
    | nil => simp at hc
    | cons d t =>
      have hd : d ≠ 0 := fun h => ha.2 t (by rw [h])
      have h1 := posVal_ge B d t hd
      have h2 := posVal_lt B b hb.1
      have h3 : B ^ b.length ≤ B ^ t.length := Nat.pow_le_pow_right (by omega) (by simp at hc; omega)
      omega
  exact posVal_inj B a b (Nat.le_antisymm (hlen a b ha hb hv) (hlen b a hb ha hv.symm)) ha.1 hb.1 hv

theorem beNat_cons (c : UInt8) (t : Bytes) : beNat (c :: t) = c.toNat * 256 ^ t.length + beNat t := by
  have := beNat_append [c] t
  rw [List.singleton_append] at this
  rw [this]
  simp [beNat, leNat]

theorem beNat_posVal (b : Bytes) : beNat b = posVal 256 (b.map UInt8.toNat) := by
  induction b with
  | nil => rfl
  | cons c t ih => rw [beNat_cons, List.map_cons, posVal_cons, ih, List.length_map]

theorem map_toNat_inj (a b : Bytes) (h : a.map UInt8.toNat = b.map UInt8.toNat) : a = b :=
  (List.map_inj_right (fun _ _ h => UInt8.toNat_inj.1 h)).1 h

theorem map_toNat_lt (b : Bytes) : ∀ d ∈ b.map UInt8.toNat, d < 256 := by
  intro d hd
  obtain ⟨c, _, rfl⟩ := List.mem_map.1 hd
  exact c.toNat_lt

/-- big.Int.Bytes gives the base-256 digits without leading zero. -/
theorem bigBytes_canonical (n : Nat) : Canonical 256 ((bigBytes n).map UInt8.toNat) := by
  refine ⟨map_toNat_lt _, fun t ht => ?_⟩
  have hv := bigBytes_nat n
  rw [beNat_posVal, ht, posVal_cons, Nat.zero_mul, Nat.zero_add] at hv
  have hl := bigBytes_length n
  have hlen : t.length + 1 = (bitLen n + 7) / 8 := by
    rw [← hl, ← List.length_map (f := UInt8.toNat), ht, List.length_cons]
  have h1 := posVal_lt 256 t (fun d hd => map_toNat_lt (bigBytes n) d (by rw [ht]; simp [hd]))
  rw [hv] at h1
  have h2 : bitLen n ≤ 8 * t.length := by
    rw [bitLen_le_iff]
    have : (256 : Nat) ^ t.length = 2 ^ (8 * t.length) := by rw [show (256 : Nat) = 2 ^ 8 from rfl, ← Nat.pow_mul]
    rw [← this]; exact h1
  omega

/-! ## the alphabet -/

theorem letter58_table : ∀ d, d < 58 → b58Alphabet[d]? = some (letter58 d) ∧ (letter58 d).toNat < 128 ∧ b58Table[(letter58 d).toNat]? = some d.toUInt8 ∧
    (letter58 d = 49 ↔ d = 0) := by decide +kernel

theorem letter58_inj (d e : Nat) (hd : d < 58) (he : e < 58) (h : letter58 d = letter58 e) : d = e := by
  have h1 := (letter58_table d hd).2.2.1
  have h2 := (letter58_table e he).2.2.1
  rw [h, h2] at h1
  have := congrArg UInt8.toNat (Option.some.inj h1)
  simp at this
  omega

/-! ## Encode -/

theorem i64_toInt (k : Nat) (h : k < 2 ^ 63) : (Int64.ofNat k).toInt = k := Int64.toInt_ofNat_of_lt (by omega)

theorem i64_char (k : Nat) (h : k < 2 ^ 63) : b58Char (Int64.ofNat k) = some (letter58 (k % 58)) := by
  have e : (Int64.ofNat k % 58).toInt = (k % 58 : Nat) := by
    rw [Int64.toInt_mod, i64_toInt k h]
    rfl
  have hn : ¬ Int64.ofNat k % 58 < 0 := by
    rw [Int64.lt_iff_toInt_lt, e]
    have : (0 : Int64).toInt = 0 := rfl
    omega
  unfold b58Char
  rw [if_neg hn, e, Int.toNat_natCast]
  exact (letter58_table _ (Nat.mod_lt _ (by decide))).1

theorem i64_div (k : Nat) (h : k < 2 ^ 63) : Int64.ofNat k / 58 = Int64.ofNat (k / 58) := by
  apply Int64.toInt_inj.1
  rw [i64_toInt _ (by omega), Int64.toInt_div_of_ne_right _ _ (by decide), i64_toInt k h]
  rfl

theorem i64_pos (k : Nat) (h : k < 2 ^ 63) : Int64.ofNat k > 0 ↔ 0 < k := by
  rw [gt_iff_lt, Int64.lt_iff_toInt_lt, i64_toInt k h]
  have : (0 : Int64).toInt = 0 := rfl
  omega

/-- Ten digits, least significant first. -/
theorem b58Ten_spec (n k : Nat) (ans : Bytes) (h : k < 2 ^ 63) :
    ∃ ds, b58Ten n (Int64.ofNat k) ans = .val (ans ++ (ds.map letter58).reverse) ∧ ds.length = n ∧ (∀ d ∈ ds, d < 58) ∧ posVal 58 ds = k % 58 ^ n := by
  induction n generalizing k ans with
  | zero => exact ⟨[], by simp [b58Ten], rfl, by simp, by simp [posVal, Nat.mod_one]⟩
  | succ n ih =>
    obtain ⟨ds, h1, h2, h3, h4⟩ := ih (k / 58) (ans ++ [letter58 (k % 58)]) (by omega)
    refine ⟨ds ++ [k % 58], ?_, by simp [h2], ?_, ?_⟩
    · simp only [b58Ten, i64_char k h, i64_div k h, h1]; simp
    · intro d hd
      rcases List.mem_append.1 hd with hd | hd
      · exact h3 d hd
      · have : d = k % 58 := by simpa using hd
        omega
    · rw [posVal_append, h4]
      have hc : posVal 58 [k % 58] = k % 58 := by simp [posVal]
      rw [hc, List.length_singleton, Nat.pow_one, Nat.pow_succ, Nat.mul_comm (58 ^ n) 58, Nat.mod_mul, Nat.mul_comm, Nat.add_comm]

theorem canonical_snoc (B : Nat) (ds : List Nat) (d : Nat) (h : Canonical B ds) (hd : d < B) (h0 : posVal B ds = 0 → d ≠ 0) : Canonical B (ds ++ [d]) := by
  refine ⟨?_, ?_⟩
  · intro x hx
    rcases List.mem_append.1 hx with hx | hx
    · exact h.1 x hx
    · have : x = d := by simpa using hx
      omega
  · intro t ht
    cases ds with
    | nil => simp at ht; exact h0 rfl ht.1
    | cons e u =>
      simp at ht
      exact h.2 u (by rw [ht.1])

/-- The remaining digits without leading zero. -/
theorem b58Rest_spec (f k : Nat) (ans : Bytes) (h : k < 2 ^ 63) (hf : k < 58 ^ f) :
    ∃ ds, b58Rest f (Int64.ofNat k) ans = .val (ans ++ (ds.map letter58).reverse) ∧ Canonical 58 ds ∧ posVal 58 ds = k := by
  induction f generalizing k ans with
  | zero => exact ⟨[], by simp [b58Rest], ⟨by simp, by simp⟩, by simp [posVal]; omega⟩
  | succ f ih =>
    unfold b58Rest
    by_cases hk : 0 < k
    · rw [if_pos ((i64_pos k h).2 hk)]
      obtain ⟨ds, h1, h2, h3⟩ := ih (k / 58) (ans ++ [letter58 (k % 58)]) (by omega) (by rw [Nat.pow_succ] at hf; exact Nat.div_lt_of_lt_mul (by rw [Nat.mul_comm]; exact hf))
      refine ⟨ds ++ [k % 58], ?_, canonical_snoc _ _ _ h2 (Nat.mod_lt _ (by decide)) (by omega), ?_⟩
      · simp only [i64_char k h, i64_div k h, h1]; simp
      · rw [posVal_append, h3]
        simp [posVal]
        omega
    · rw [if_neg (fun hc => hk ((i64_pos k h).1 hc))]
      exact ⟨[], by simp, ⟨by simp, by simp⟩, by simp [posVal]; omega⟩

theorem bigRadix10_eq : bigRadix10 = 58 ^ 10 := by decide

theorem canonical_append (B : Nat) (ds es : List Nat) (h : Canonical B ds) (h0 : ds ≠ []) (he : ∀ d ∈ es, d < B) : Canonical B (ds ++ es) := by
  refine ⟨?_, ?_⟩
  · intro x hx
    rcases List.mem_append.1 hx with hx | hx
    · exact h.1 x hx
    · exact he x hx
  · intro t ht
    cases ds with
    | nil => exact h0 rfl
    | cons e u =>
      simp at ht
      exact h.2 u (by rw [ht.1])

theorem b58EncLoop_spec (f x : Nat) (ans : Bytes) (hf : x < bigRadix10 ^ f) :
    ∃ ds, b58EncLoop f x ans = .val (ans ++ (ds.map letter58).reverse) ∧ Canonical 58 ds ∧ posVal 58 ds = x := by
  have h63 : bigRadix10 < 2 ^ 63 := by decide
  have hpos : 0 < bigRadix10 := by decide
  have h11 : bigRadix10 ≤ 58 ^ 11 := by decide
  have hR := bigRadix10_eq
  induction f generalizing x ans with
  | zero =>
    rw [Nat.pow_zero] at hf
    exact ⟨[], by simp [b58EncLoop], ⟨by simp, by simp⟩, by simp [posVal]; omega⟩
  | succ f ih =>
    unfold b58EncLoop
    by_cases hx : x > 0
    · rw [if_pos hx]
      simp only
      have hm : x % bigRadix10 < bigRadix10 := Nat.mod_lt _ hpos
      have hdm : bigRadix10 * (x / bigRadix10) + x % bigRadix10 = x := Nat.div_add_mod x bigRadix10
      by_cases hq : x / bigRadix10 = 0
      · rw [if_pos hq]
        obtain ⟨ds, h1, h2, h3⟩ := b58Rest_spec 11 (x % bigRadix10) ans (by omega) (by omega)
        refine ⟨ds, h1, h2, ?_⟩
        rw [hq, Nat.mul_zero] at hdm
        omega
      · rw [if_neg hq]
        obtain ⟨es, g1, g2, g3, g4⟩ := b58Ten_spec 10 (x % bigRadix10) ans (by omega)
        obtain ⟨ds, h1, h2, h3⟩ := ih (x / bigRadix10) (ans ++ (es.map letter58).reverse) (by
          rw [Nat.pow_succ] at hf
          exact Nat.div_lt_of_lt_mul (by rw [Nat.mul_comm]; exact hf))
        refine ⟨ds ++ es, ?_, canonical_append _ _ _ h2 ?_ g3, ?_⟩
        · simp only [g1, h1]; simp
        · intro hn
          rw [hn] at h3
          exact hq h3.symm
        · rw [posVal_append, h3, g4, g2, ← hR, Nat.mod_eq_of_lt hm, Nat.mul_comm]
          exact hdm
    · rw [if_neg hx]
      exact ⟨[], by simp, ⟨by simp, by simp⟩, by simp [posVal]; omega⟩

/-- Splitting off leading zero bytes. -/
theorem split_zeros (b : Bytes) : ∃ z bs, b = List.replicate z 0 ++ bs ∧ Canonical 256 (bs.map UInt8.toNat) ∧ b58Zeros b = List.replicate z 49 := by
  induction b with
  | nil => exact ⟨0, [], rfl, ⟨by simp, by simp⟩, rfl⟩
  | cons c t ih =>
    by_cases hc : c = 0
    · subst hc
      obtain ⟨z, bs, h1, h2, h3⟩ := ih
      refine ⟨z + 1, bs, by rw [List.replicate_succ, List.cons_append, ← h1], h2, ?_⟩
      unfold b58Zeros
      rw [if_neg (by decide), h3]; rfl
    · refine ⟨0, c :: t, rfl, ⟨map_toNat_lt _, ?_⟩, ?_⟩
      · intro u hu
        simp at hu
        exact hc (UInt8.toNat_inj.1 hu.1)
      · unfold b58Zeros
        rw [if_pos (by simpa using hc)]; rfl

theorem b58Encode_text (b : Bytes) : ∃ s, b58Encode b = .val s ∧ Base58Text s b := by
  have hlt : beNat b < bigRadix10 ^ b.length :=
    Nat.lt_of_lt_of_le (beNat_lt b) (Nat.pow_le_pow_left (by decide) _)
  obtain ⟨ds, h1, h2, h3⟩ := b58EncLoop_spec b.length (beNat b) [] hlt
  obtain ⟨z, bs, g1, g2, g3⟩ := split_zeros b
  refine ⟨List.replicate z 49 ++ ds.map letter58, ?_, z, ds, bs, rfl, g1, h2, g2, ?_⟩
  · unfold b58Encode
    simp [h1, g3]
  · rw [h3, beNat_posVal, g1, List.map_append, List.map_replicate]
    exact posVal_zeros _ _ _

/-! ## Decode -/

theorem b58Text_string (s b : Bytes) (h : Base58Text s b) : Base58String s := by
  obtain ⟨z, ds, bs, h1, _, h3, _, _⟩ := h
  intro c hc
  rw [h1] at hc
  rcases List.mem_append.1 hc with hc | hc
  · exact ⟨0, by decide, (List.mem_replicate.1 hc).2⟩
  · obtain ⟨d, hd, rfl⟩ := List.mem_map.1 hc
    exact ⟨d, h3.1 d hd, rfl⟩

/-- Every string over the alphabet is the image of a digit list. -/
theorem b58String_digits (s : Bytes) (h : Base58String s) : ∃ ds : List Nat, s = ds.map letter58 ∧ ∀ d ∈ ds, d < 58 := by
  induction s with
  | nil => exact ⟨[], rfl, by simp⟩
  | cons c t ih =>
    obtain ⟨ds, h1, h2⟩ := ih (fun x hx => h x (by simp [hx]))
    obtain ⟨d, hd, rfl⟩ := h c (by simp)
    refine ⟨d :: ds, by rw [h1]; rfl, ?_⟩
    intro x hx
    rcases List.mem_cons.1 hx with hx | hx
    · omega
    · exact h2 x hx

theorem split_digits (ds : List Nat) (h : ∀ d ∈ ds, d < 58) : ∃ z es, ds = List.replicate z 0 ++ es ∧ Canonical 58 es := by
  induction ds with
  | nil => exact ⟨0, [], rfl, ⟨by simp, by simp⟩⟩
  | cons c t ih =>
    by_cases hc : c = 0
    · subst hc
      obtain ⟨z, es, h1, h2⟩ := ih (fun x hx => h x (by simp [hx]))
      exact ⟨z + 1, es, by rw [List.replicate_succ, List.cons_append, ← h1], h2⟩
    · refine ⟨0, c :: t, rfl, h, ?_⟩
      intro u hu
      simp at hu
      exact hc hu.1

theorem decodeRune_ascii (c : UInt8) (t : Bytes) (h : c.toNat < 128) : decodeRune (c :: t) = (c.toNat, 1) := by
  have : c < 0x80 := by rw [UInt8.lt_iff_toNat_lt]; exact h
  simp [decodeRune, this]

theorem b58Runes_digit (f d : Nat) (t : Bytes) (total : UInt64) (hd : d < 58) :
    b58Runes (f + 1) (letter58 d :: t) total = b58Runes f t (total * 58 + d.toUInt64) := by
  have ht := letter58_table d hd
  have hu : d.toUInt8.toUInt64 = d.toUInt64 := by
    apply UInt64.toNat_inj.1
    simp
    omega
  conv => lhs; unfold b58Runes
  rw [if_neg (by simp), decodeRune_ascii _ _ ht.2.1]
  simp only [ht.2.2.1, List.drop_succ_cons, List.drop_zero]
  rw [if_neg (by
    rw [beq_iff_eq]
    intro hc
    have := congrArg UInt8.toNat hc
    simp at this
    omega), hu]

/-- A block of digits; no overflow for up to ten of them. -/
theorem b58Runes_spec (ds : List Nat) (hds : ∀ d ∈ ds, d < 58) (a : Nat) (rest : Bytes) (f : Nat) (h : a * 58 ^ ds.length + posVal 58 ds < 2 ^ 64) :
    b58Runes (ds.length + f) (ds.map letter58 ++ rest) a.toUInt64 = b58Runes f rest (a * 58 ^ ds.length + posVal 58 ds).toUInt64 := by
  induction ds generalizing a with
  | nil => simp [posVal]
  | cons d t ih =>
    have hd : d < 58 := hds d (by simp)
    have e : a.toUInt64 * 58 + d.toUInt64 = (a * 58 + d).toUInt64 := by
      simp [Nat.toUInt64, UInt64.ofNat_add, UInt64.ofNat_mul]
    have e2 : (a * 58 + d) * 58 ^ t.length + posVal 58 t = a * 58 ^ (d :: t).length + posVal 58 (d :: t) := by
      rw [posVal_cons, List.length_cons, Nat.pow_succ, Nat.add_mul, Nat.mul_assoc, Nat.mul_comm 58, Nat.add_assoc]
    rw [List.map_cons, List.cons_append, show (d :: t).length + f = (t.length + f) + 1 by simp; omega, b58Runes_digit _ _ _ _ hd, e,
      ih (fun x hx => hds x (by simp [hx])) _ (by rw [e2]; exact h), e2]

theorem bigRadix_pow : ∀ n, n < 10 → bigRadix.getD (n + 1) 0 = 58 ^ (n + 1) := by decide


theorem posVal_ten (ds : List Nat) (hds : ∀ d ∈ ds, d < 58) (h : ds.length ≤ 10) : posVal 58 ds < 2 ^ 64 := by
  have h1 := posVal_lt 58 ds hds
  have h2 : 58 ^ ds.length ≤ 58 ^ 10 := Nat.pow_le_pow_right (by decide) h
  have h3 : (58 : Nat) ^ 10 < 2 ^ 64 := by decide
  omega

theorem b58Runes_block (ds : List Nat) (hds : ∀ d ∈ ds, d < 58) (hl : ds.length ≤ 10) (rest : Bytes) (f : Nat) :
    b58Runes (ds.length + f) (ds.map letter58 ++ rest) 0 = b58Runes f rest (posVal 58 ds).toUInt64 := by
  have := b58Runes_spec ds hds 0 rest f (by rw [Nat.zero_mul, Nat.zero_add]; exact posVal_ten ds hds hl)
  rw [Nat.zero_mul, Nat.zero_add] at this
  exact this

/-- One full block of digits. -/
theorem b58DecLoop_block (ds : List Nat) (hds : ∀ d ∈ ds, d < 58) (rest : Bytes) (f a : Nat) (h0 : ds ≠ []) (hl : ds.length ≤ 10)
    (h : ds.length = 10 ∨ rest = []) :
    b58DecLoop (f + 1) (ds.map letter58 ++ rest) a = b58DecLoop f rest (a * 58 ^ ds.length + posVal 58 ds) := by
  have hpos : 0 < ds.length := List.length_pos_iff.2 h0
  have hlen : (ds.map letter58 ++ rest).length = ds.length + rest.length := by simp
  have hn : (if (ds.map letter58 ++ rest).length > 10 then 10 else (ds.map letter58 ++ rest).length) = ds.length := by
    rw [hlen]
    rcases h with h | h
    · by_cases hc : ds.length + rest.length > 10
      · rw [if_pos hc, h]
      · rw [if_neg hc]; omega
    · subst h
      rw [if_neg (by simp; omega)]; simp
  conv => lhs; unfold b58DecLoop
  rw [if_neg (by rw [hlen]; omega)]
  simp only [hn]
  have htake : (ds.map letter58 ++ rest).take ds.length = ds.map letter58 ++ [] := by
    rw [List.take_left' (by simp), List.append_nil]
  have hdrop : (ds.map letter58 ++ rest).drop ds.length = rest := List.drop_left' (by simp)
  have hr := b58Runes_block ds hds hl [] 0
  rw [Nat.add_zero] at hr
  rw [htake, hdrop, hr]
  obtain ⟨k, hk⟩ : ∃ k, ds.length = k + 1 := ⟨ds.length - 1, by omega⟩
  have hb : bigRadix.getD ds.length 0 = 58 ^ ds.length := by rw [hk]; exact bigRadix_pow k (by omega)
  have ht : (posVal 58 ds).toUInt64.toNat = posVal 58 ds := by
    have := posVal_ten ds hds hl
    simp [Nat.toUInt64]; omega
  simp only [b58Runes, hb, ht]

theorem b58DecLoop_prefix (q : Nat) (ds : List Nat) (hds : ∀ d ∈ ds, d < 58) (rest : Bytes) (f a : Nat) (h : ds.length = 10 * q) :
    b58DecLoop (q + f) (ds.map letter58 ++ rest) a = b58DecLoop f rest (a * 58 ^ ds.length + posVal 58 ds) := by
  induction q generalizing ds a with
  | zero =>
    have : ds = [] := List.length_eq_zero_iff.1 (by omega)
    subst this
    simp [posVal]
  | succ q ih =>
    have hsplit : ds = ds.take 10 ++ ds.drop 10 := (List.take_append_drop 10 ds).symm
    have hl : (ds.take 10).length = 10 := by rw [List.length_take]; omega
    have hval : (a * 58 ^ (ds.take 10).length + posVal 58 (ds.take 10)) * 58 ^ (ds.drop 10).length + posVal 58 (ds.drop 10) =
        a * 58 ^ ds.length + posVal 58 ds := by
      have e1 : posVal 58 ds = posVal 58 (ds.take 10) * 58 ^ (ds.drop 10).length + posVal 58 (ds.drop 10) := by
        conv => lhs; rw [hsplit]
        exact posVal_append _ _ _
      have e2 : ds.length = (ds.take 10).length + (ds.drop 10).length := by
        conv => lhs; rw [hsplit]
        exact List.length_append
      rw [e1, e2, Nat.pow_add, Nat.add_mul, Nat.mul_assoc, Nat.add_assoc]
    rw [← hval]
    conv => lhs; rw [hsplit]
    rw [List.map_append, List.append_assoc, show q + 1 + f = (q + f) + 1 by omega,
      b58DecLoop_block _ (fun d hd => hds d (List.mem_of_mem_take hd)) _ _ _ (by rw [← List.length_pos_iff]; omega) (by omega) (.inl hl)]
    exact ih _ (fun d hd => hds d (List.mem_of_mem_drop hd)) _ (by rw [List.length_drop]; omega)

theorem b58DecLoop_nil (f a : Nat) : b58DecLoop f [] a = .val (some a) := by
  cases f <;> simp [b58DecLoop]

theorem b58DecLoop_digits (ds : List Nat) (hds : ∀ d ∈ ds, d < 58) (f : Nat) (hf : ds.length ≤ f) :
    b58DecLoop f (ds.map letter58) 0 = .val (some (posVal 58 ds)) := by
  have hsplit : ds = ds.take (10 * (ds.length / 10)) ++ ds.drop (10 * (ds.length / 10)) := (List.take_append_drop _ ds).symm
  have hl : (ds.take (10 * (ds.length / 10))).length = 10 * (ds.length / 10) := by rw [List.length_take]; omega
  have h1 := b58DecLoop_prefix (ds.length / 10) (ds.take (10 * (ds.length / 10))) (fun d hd => hds d (List.mem_of_mem_take hd))
    ((ds.drop (10 * (ds.length / 10))).map letter58) (f - ds.length / 10) 0 hl
  rw [← List.map_append, ← hsplit, Nat.zero_mul, Nat.zero_add, show ds.length / 10 + (f - ds.length / 10) = f by omega] at h1
  rw [h1]
  by_cases hd : ds.drop (10 * (ds.length / 10)) = []
  · rw [hd] at hsplit ⊢
    rw [List.append_nil] at hsplit
    rw [List.map_nil, b58DecLoop_nil, ← hsplit]
  · have hdl : (ds.drop (10 * (ds.length / 10))).length = ds.length % 10 := by rw [List.length_drop]; omega
    have hpos : 0 < (ds.drop (10 * (ds.length / 10))).length := List.length_pos_iff.2 hd
    obtain ⟨g, hg⟩ : ∃ g, f - ds.length / 10 = g + 1 := ⟨f - ds.length / 10 - 1, by omega⟩
    have h2 := b58DecLoop_block (ds.drop (10 * (ds.length / 10))) (fun d hd => hds d (List.mem_of_mem_drop hd)) [] g
      (posVal 58 (ds.take (10 * (ds.length / 10)))) hd (by omega) (.inr rfl)
    rw [List.append_nil, b58DecLoop_nil] at h2
    rw [hg, h2, ← posVal_append, ← hsplit]

theorem b58Ones_spec (z : Nat) (es : List Nat) (h : Canonical 58 es) : b58Ones (List.replicate z 49 ++ es.map letter58) = z := by
  induction z with
  | zero =>
    cases es with
    | nil => rfl
    | cons d t =>
      have hd : d ≠ 0 := fun hc => h.2 t (by rw [hc])
      have hl := (letter58_table d (h.1 d (by simp))).2.2.2
      rw [List.replicate_zero, List.nil_append, List.map_cons]
      unfold b58Ones
      rw [if_pos]
      have : letter58 d ≠ 49 := fun hc => hd (hl.1 hc)
      simpa [b58Idx0] using this
  | succ z ih =>
    rw [List.replicate_succ, List.cons_append]
    unfold b58Ones
    rw [if_neg (by decide), ih]

theorem letter58_zero : letter58 0 = 49 := by decide +kernel

theorem b58Decode_text (s b : Bytes) (h : Base58Text s b) : b58Decode s = .val b := by
  obtain ⟨z, ds, bs, h1, h2, h3, h4, h5⟩ := h
  have hs : s = (List.replicate z 0 ++ ds).map letter58 := by
    rw [h1, List.map_append, List.map_replicate, letter58_zero]
  have hlt : ∀ d ∈ List.replicate z 0 ++ ds, d < 58 := by
    intro d hd
    rcases List.mem_append.1 hd with hd | hd
    · have := (List.mem_replicate.1 hd).2; omega
    · exact h3.1 d hd
  have hloop := b58DecLoop_digits _ hlt s.length (by rw [hs, List.length_map])
  rw [posVal_zeros, ← hs] at hloop
  unfold b58Decode
  simp only [hloop]
  rw [h1, b58Ones_spec z ds h3, h2]
  have : bigBytes (posVal 58 ds : Nat) = bs := by
    apply map_toNat_inj
    apply canonical_unique 256 (by decide) _ _ (bigBytes_canonical _) h4
    rw [← beNat_posVal, bigBytes_nat, ← h5]
    simp
  rw [this]

theorem b58String_text (s : Bytes) (h : Base58String s) : ∃ b, Base58Text s b := by
  obtain ⟨ds, h1, h2⟩ := b58String_digits s h
  obtain ⟨z, es, h3, h4⟩ := split_digits ds h2
  refine ⟨List.replicate z 0 ++ bigBytes (posVal 58 es : Nat), z, es, _, ?_, rfl, h4, bigBytes_canonical _, ?_⟩
  · rw [h1, h3, List.map_append, List.map_replicate, letter58_zero]
  · rw [← beNat_posVal, bigBytes_nat]; simp

/-- The text of given bytes is unique. -/
theorem b58Text_unique (s s' b : Bytes) (h : Base58Text s b) (h' : Base58Text s' b) : s = s' := by
  obtain ⟨z, ds, bs, h1, h2, h3, h4, h5⟩ := h
  obtain ⟨z', ds', bs', h1', h2', h3', h4', h5'⟩ := h'
  have key : ∀ (z z' : Nat) (a c : Bytes), Canonical 256 (a.map UInt8.toNat) → Canonical 256 (c.map UInt8.toNat) →
      List.replicate z 0 ++ a = List.replicate z' 0 ++ c → z = z' ∧ a = c := by
    intro z
    induction z with
    | zero =>
      intro z' a c ha hc he
      cases z' with
      | zero => exact ⟨rfl, by simpa using he⟩
      | succ z' =>
        rw [List.replicate_zero, List.nil_append, List.replicate_succ, List.cons_append] at he
        exact absurd (by rw [he]; rfl) (ha.2 ((List.replicate z' 0 ++ c).map UInt8.toNat))
    | succ z ih =>
      intro z' a c ha hc he
      cases z' with
      | zero =>
        rw [List.replicate_zero, List.nil_append, List.replicate_succ, List.cons_append] at he
        exact absurd (by rw [← he]; rfl) (hc.2 ((List.replicate z 0 ++ a).map UInt8.toNat))
      | succ z' =>
        rw [List.replicate_succ, List.replicate_succ, List.cons_append, List.cons_append] at he
        obtain ⟨e1, e2⟩ := ih z' a c ha hc (List.cons.inj he).2
        exact ⟨by rw [e1], e2⟩
  obtain ⟨e1, e2⟩ := key z z' bs bs' h4 h4' (by rw [← h2, ← h2'])
  subst e1; subst e2
  have := canonical_unique 58 (by decide) ds ds' h3 h3' (by rw [h5, h5'])
  rw [h1, h1', this]

/-! ## strings outside the alphabet -/

theorem b58Table_other : ∀ c : UInt8, c.toNat < 128 → (∀ d, d < 58 → c ≠ letter58 d) → b58Table[c.toNat]? = some 255 :=
  fun c => forall_byte (P := fun c => c.toNat < 128 → (∀ d, d < 58 → c ≠ letter58 d) → b58Table[c.toNat]? = some 255) (by decide +kernel) c

theorem b58Table_high : ∀ n, n < 256 → 128 ≤ n → b58Table[n]? = some 255 := by decide +kernel
theorem b58Table_none (n : Nat) (h : 256 ≤ n) : b58Table[n]? = none := by
  apply List.getElem?_eq_none
  have : b58Table.length = 256 := by decide +kernel
  omega


theorem latinStart_cons (c c1 : UInt8) (t : Bytes) : LatinStart (c :: c1 :: t) ↔ (c.toNat = 0xC2 ∨ c.toNat = 0xC3) ∧ 0x80 ≤ c1.toNat ∧ c1.toNat ≤ 0xBF := by
  have e1 : (0xC2 : UInt8).toNat = 0xC2 := rfl
  have e2 : (0xC3 : UInt8).toNat = 0xC3 := rfl
  constructor
  · rintro ⟨a, b, u, h, h1, h2, h3⟩
    simp only [List.cons.injEq] at h
    obtain ⟨rfl, rfl, rfl⟩ := h
    rw [UInt8.le_iff_toNat_le] at h2 h3
    refine ⟨?_, h2, h3⟩
    rcases h1 with rfl | rfl
    · exact .inl rfl
    · exact .inr rfl
  · rintro ⟨h1, h2, h3⟩
    refine ⟨c, c1, t, rfl, ?_, by rw [UInt8.le_iff_toNat_le]; exact h2, by rw [UInt8.le_iff_toNat_le]; exact h3⟩
    rcases h1 with h1 | h1
    · exact .inl (UInt8.toNat_inj.1 h1)
    · exact .inr (UInt8.toNat_inj.1 h1)

theorem latinStart_single (c : UInt8) : ¬ LatinStart [c] := by
  rintro ⟨a, b, u, h, _⟩
  simp at h

theorem contIn_iff (lo hi b : UInt8) : contIn lo hi b = true ↔ lo.toNat ≤ b.toNat ∧ b.toNat ≤ hi.toNat := by
  simp [contIn, UInt8.le_iff_toNat_le]

theorem secondRange_spec (c : UInt8) : 0x80 ≤ (secondRange c).1.toNat ∧ (secondRange c).2.toNat ≤ 0xBF ∧ (c.toNat = 0xE0 → 0xA0 ≤ (secondRange c).1.toNat) ∧
    (c.toNat = 0xF0 → 0x90 ≤ (secondRange c).1.toNat) ∧ (c.toNat < 0xE0 → (secondRange c).1.toNat = 0x80 ∧ (secondRange c).2.toNat = 0xBF) :=
  forall_byte (P := fun c => 0x80 ≤ (secondRange c).1.toNat ∧ (secondRange c).2.toNat ≤ 0xBF ∧ (c.toNat = 0xE0 → 0xA0 ≤ (secondRange c).1.toNat) ∧
    (c.toNat = 0xF0 → 0x90 ≤ (secondRange c).1.toNat) ∧ (c.toNat < 0xE0 → (secondRange c).1.toNat = 0x80 ∧ (secondRange c).2.toNat = 0xBF)) (by decide +kernel) c

/-- The rune a non-ASCII byte starts is below 256 only for two-byte sequences C2/C3 xx, and then at least 128. -/
theorem decodeRune_high (c : UInt8) (t : Bytes) (h : 128 ≤ c.toNat) :
    (LatinStart (c :: t) ∧ 128 ≤ (decodeRune (c :: t)).1 ∧ (decodeRune (c :: t)).1 < 256) ∨ (¬ LatinStart (c :: t) ∧ 256 ≤ (decodeRune (c :: t)).1) := by
  have n1 : (0x80 : UInt8).toNat = 0x80 := rfl
  have n2 : (0xC2 : UInt8).toNat = 0xC2 := rfl
  have n3 : (0xF4 : UInt8).toNat = 0xF4 := rfl
  have n4 : (0xE0 : UInt8).toNat = 0xE0 := rfl
  have n5 : (0xF0 : UInt8).toNat = 0xF0 := rfl
  have n6 : (0xBF : UInt8).toNat = 0xBF := rfl
  have sr := secondRange_spec c
  unfold decodeRune
  dsimp only
  rw [if_neg (by rw [UInt8.lt_iff_toNat_lt]; omega)]
  by_cases h1 : (c < 0xC2 || c > 0xF4) = true
  · rw [if_pos h1]
    simp only [Bool.or_eq_true, decide_eq_true_eq, gt_iff_lt, UInt8.lt_iff_toNat_lt] at h1
    refine .inr ⟨?_, by decide⟩
    intro hl
    cases t with
    | nil => exact latinStart_single _ hl
    | cons c1 t => rw [latinStart_cons] at hl; omega
  rw [if_neg h1]
  simp only [Bool.or_eq_true, decide_eq_true_eq, gt_iff_lt, UInt8.lt_iff_toNat_lt, not_or] at h1
  cases t with
  | nil => exact .inr ⟨latinStart_single _, show 256 ≤ runeError.1 by decide⟩
  | cons c1 t =>
    simp only
    rw [latinStart_cons]
    by_cases h2 : contIn (secondRange c).1 (secondRange c).2 c1 = true
    · rw [if_neg (by simp [h2])]
      rw [contIn_iff] at h2
      by_cases h3 : c < 0xE0
      · rw [if_pos h3]
        rw [UInt8.lt_iff_toNat_lt] at h3
        simp only
        omega
      · rw [if_neg h3]
        rw [UInt8.lt_iff_toNat_lt] at h3
        cases t with
        | nil => exact .inr ⟨by omega, show 256 ≤ runeError.1 by decide⟩
        | cons c2 t =>
          simp only
          by_cases h4 : contIn 0x80 0xBF c2 = true
          · rw [if_neg (by simp [h4])]
            by_cases h5 : c < 0xF0
            · rw [if_pos h5]
              rw [UInt8.lt_iff_toNat_lt] at h5
              simp only
              omega
            · rw [if_neg h5]
              rw [UInt8.lt_iff_toNat_lt] at h5
              cases t with
              | nil => exact .inr ⟨by omega, show 256 ≤ runeError.1 by decide⟩
              | cons c3 t =>
                simp only
                by_cases h6 : contIn 0x80 0xBF c3 = true
                · rw [if_neg (by simp [h6])]
                  simp only
                  omega
                · rw [if_pos (by simp [h6])]
                  exact .inr ⟨by omega, by decide⟩
          · rw [if_pos (by simp [h4])]
            exact .inr ⟨by omega, by decide⟩
    · rw [if_pos (by simp [h2])]
      rw [contIn_iff] at h2
      exact .inr ⟨by omega, by decide⟩

/-- The block in which the first byte outside the alphabet occurs. -/
theorem b58Runes_bad (f : Nat) (c : UInt8) (t : Bytes) (total : UInt64) (hc : ∀ d, d < 58 → c ≠ letter58 d) :
    (c.toNat < 128 ∨ LatinStart (c :: t) → b58Runes (f + 1) (c :: t) total = .val none) ∧
    (128 ≤ c.toNat → ¬ LatinStart (c :: t) → ∃ w, b58Runes (f + 1) (c :: t) total = .panic w) := by
  unfold b58Runes
  rw [if_neg (by simp)]
  constructor
  · rintro (h | h)
    · rw [decodeRune_ascii c t h]
      simp [b58Table_other c h hc]
    · have hh : 128 ≤ c.toNat := by
        obtain ⟨a, b, u, h, h1, _⟩ := h
        simp only [List.cons.injEq] at h
        rcases h1 with rfl | rfl <;> (rw [h.1]; decide)
      rcases decodeRune_high c t hh with ⟨_, h1, h2⟩ | ⟨h1, _⟩
      · simp [b58Table_high _ h2 h1]
      · exact absurd h h1
  · intro h hl
    rcases decodeRune_high c t h with ⟨h1, _⟩ | ⟨_, h1⟩
    · exact absurd h1 hl
    · rw [b58Table_none _ h1]
      exact ⟨_, rfl⟩

/-- Decoding a string whose first byte outside the alphabet is `c`. -/
theorem b58Decode_bad (ds : List Nat) (hds : ∀ d ∈ ds, d < 58) (c : UInt8) (post : Bytes) (hc : ∀ d, d < 58 → c ≠ letter58 d) :
    (c.toNat < 128 ∨ LatinStart ((c :: post).take (10 - ds.length % 10)) → b58Decode (ds.map letter58 ++ c :: post) = .val []) ∧
    (128 ≤ c.toNat → ¬ LatinStart ((c :: post).take (10 - ds.length % 10)) → ∃ w, b58Decode (ds.map letter58 ++ c :: post) = .panic w) := by
  have hsplit : ds = ds.take (10 * (ds.length / 10)) ++ ds.drop (10 * (ds.length / 10)) := (List.take_append_drop _ ds).symm
  have hl : (ds.take (10 * (ds.length / 10))).length = 10 * (ds.length / 10) := by rw [List.length_take]; omega
  have hdl : (ds.drop (10 * (ds.length / 10))).length = ds.length % 10 := by rw [List.length_drop]; omega
  have hlen : (ds.map letter58 ++ c :: post).length = ds.length + post.length + 1 := by simp; omega
  generalize hD : ds.drop (10 * (ds.length / 10)) = D at hsplit hdl
  have hDlt : ∀ d ∈ D, d < 58 := by rw [← hD]; exact fun d hd => hds d (List.mem_of_mem_drop hd)
  obtain ⟨g, hg⟩ : ∃ g, (ds.map letter58 ++ c :: post).length = ds.length / 10 + (g + 1) := ⟨(ds.map letter58 ++ c :: post).length - ds.length / 10 - 1, by omega⟩
  have h1 := b58DecLoop_prefix (ds.length / 10) (ds.take (10 * (ds.length / 10))) (fun d hd => hds d (List.mem_of_mem_take hd))
    (D.map letter58 ++ c :: post) (g + 1) 0 hl
  rw [← List.append_assoc, ← List.map_append, ← hsplit, ← hg] at h1
  -- the block
  have hblen : (D.map letter58 ++ c :: post).length = D.length + post.length + 1 := by simp; omega
  have hblock : ∃ k, (if (D.map letter58 ++ c :: post).length > 10 then 10 else (D.map letter58 ++ c :: post).length) = D.length + (k + 1) ∧
      (D.map letter58 ++ c :: post).take (D.length + (k + 1)) = D.map letter58 ++ c :: post.take k ∧
      (c :: post).take (10 - ds.length % 10) = c :: post.take k := by
    by_cases hb : (D.map letter58 ++ c :: post).length > 10
    · refine ⟨10 - D.length - 1, by rw [if_pos hb]; omega, ?_, ?_⟩
      · rw [List.take_append]; simp; exact List.take_of_length_le (by simp)
      · rw [show 10 - ds.length % 10 = (10 - D.length - 1) + 1 by omega]; rfl
    · refine ⟨post.length, by rw [if_neg hb]; omega, ?_, ?_⟩
      · rw [List.take_append]; simp; exact List.take_of_length_le (by simp)
      · rw [List.take_length, List.take_of_length_le (by simp; omega)]
  obtain ⟨k, hk1, hk2, hk3⟩ := hblock
  have hb := b58Runes_bad k c (post.take k) (posVal 58 D).toUInt64 hc
  have hr := b58Runes_block D hDlt (by omega) (c :: post.take k) (k + 1)
  unfold b58Decode
  rw [h1]
  unfold b58DecLoop
  rw [if_neg (by omega)]
  simp only [hk1, hk2, hr]
  rw [hk3]
  constructor
  · intro h
    simp only [hb.1 h]
  · intro h h'
    obtain ⟨w, hw⟩ := hb.2 h h'
    simp only [hw]
    exact ⟨_, rfl⟩

end Verif
