import Verif.Model.Prim
import Verif.Lemmas.Run
import Verif.Lemmas.Byte
import Verif.Spec.Codec
import Mathlib.Tactic.Ring
/-! Helper lemmas for the primitive reading and writing methods. -/
namespace Verif

/-! ### Little endian -/

theorem length_leBytes (n v : Nat) : (leBytes n v).length = n := by
  induction n generalizing v with
  | zero => rfl
  | succ n ih => simp [leBytes, ih]

theorem toNat_mod256 (v : Nat) : ((v % 256).toUInt8).toNat = v % 256 := by
  simp

theorem leNat_leBytes (n v : Nat) : leNat (leBytes n v) = v % 256 ^ n := by
  induction n generalizing v with
  | zero => simp [leBytes, leNat, Nat.mod_one]
  | succ n ih =>
    simp only [leBytes, leNat, ih, toNat_mod256]
    rw [Nat.pow_succ, Nat.mul_comm (256 ^ n), Nat.mod_mul]

theorem leNat_lt (bs : Bytes) : leNat bs < 256 ^ bs.length := by
  induction bs with
  | nil => simp [leNat]
  | cons b bs ih =>
    simp only [leNat, List.length_cons, Nat.pow_succ]
    have := b.toNat_lt
    omega

theorem leBytes_leNat (bs : Bytes) : leBytes bs.length (leNat bs) = bs := by
  induction bs with
  | nil => rfl
  | cons b bs ih =>
    have hb := b.toNat_lt
    simp only [leNat, List.length_cons, leBytes]
    have h1 : (b.toNat + 256 * leNat bs) % 256 = b.toNat := by omega
    have h2 : (b.toNat + 256 * leNat bs) / 256 = leNat bs := by omega
    rw [h1, h2, ih]
    simp

theorem leBytes_leNat' (n : Nat) (bs : Bytes) (h : bs.length = n) : leBytes n (leNat bs) = bs := by
  subst h; exact leBytes_leNat bs

theorem sum_range_succ_shift (n : Nat) (f : Nat → Nat) :
    ((List.range (n + 1)).map f).sum = f 0 + ((List.range n).map (fun i => f (i + 1))).sum := by
  rw [List.range_succ_eq_map]
  simp [Function.comp_def]

theorem sum_map_mul_left (c : Nat) (l : List Nat) (f : Nat → Nat) :
    (l.map (fun i => c * f i)).sum = c * (l.map f).sum := by
  induction l with
  | nil => simp
  | cons a l ih => simp [ih, Nat.mul_add]

theorem leValue_cons (b : UInt8) (bs : Bytes) : leValue (b :: bs) = b.toNat + 256 * leValue bs := by
  simp only [leValue, List.length_cons, sum_range_succ_shift]
  simp only [List.getD_cons_zero, Nat.pow_zero, Nat.mul_one, List.getD_cons_succ]
  congr 1
  rw [← sum_map_mul_left]
  congr 1
  apply List.map_congr_left
  intro i _
  rw [Nat.pow_succ]; ring

theorem leValue_eq_leNat (bs : Bytes) : leValue bs = leNat bs := by
  induction bs with
  | nil => rfl
  | cons b bs ih => rw [leValue_cons, leNat, ih]

/-! ### Fixed-size reads -/

theorem readBytes_run (fin : Err) (n : Int) (hn : 0 < n) (hm : n.toNat ≤ maxAlloc) (bs rest : Bytes) (h : bs.length = n.toNat) :
    (readBytes n).runE fin (bs ++ rest) = .ok (bs.length, bs, none) rest := by
  unfold readBytes
  rw [if_neg (by omega), if_neg (by omega), if_neg (by omega), Dec.runE_read_full _ _ _ _ _ h, h]
  rfl

theorem readBytes_reads (fin : Err) (n : Nat) (hm : n ≤ maxAlloc) (bs rest : Bytes) (h : bs.length = n) :
    (readBytes n).runE fin (bs ++ rest) = .ok (bs.length, bs, none) rest := by
  by_cases h0 : n = 0
  · subst h0
    have : bs = [] := List.eq_nil_of_length_eq_zero h
    subst this
    rfl
  · exact readBytes_run fin n (by omega) (by simpa using hm) bs rest (by simpa using h)

theorem readByte_cons (fin : Err) (b : UInt8) (rest : Bytes) : readByte.runE fin (b :: rest) = .ok (b, none) rest := by
  unfold readByte
  rw [Dec.runE_bind, show b :: rest = [b] ++ rest from rfl, readBytes_run fin 1 (by decide) (by decide) [b] rest rfl]
  rfl

theorem readByte_nil (fin : Err) : readByte.runE fin [] = .ok (0, some fin) [] := by
  unfold readByte readBytes
  simp [Dec.runE, maxAlloc, shortErr, Dec.bind, Bind.bind, pure]

/-! ### Varints -/

theorem lebValue_cons (b : UInt8) (bs : Bytes) : lebValue (b :: bs) = b.toNat % 128 + 128 * lebValue bs := by
  simp only [lebValue, List.length_cons, sum_range_succ_shift]
  simp only [List.getD_cons_zero, Nat.pow_zero, Nat.mul_one, List.getD_cons_succ]
  congr 1
  rw [← sum_map_mul_left]
  congr 1
  apply List.map_congr_left
  intro i _
  rw [Nat.pow_succ]; ring

@[simp] theorem lebValue_nil : lebValue [] = 0 := rfl

theorem isLeb_cons (b : UInt8) (bs : Bytes) :
    IsLeb (b :: bs) ↔ (bs = [] ∧ b.toNat < 128) ∨ (128 ≤ b.toNat ∧ IsLeb bs) := by
  constructor
  · rintro ⟨init, last, h, hi, hl⟩
    cases init with
    | nil => simp at h; left; exact ⟨h.2, h.1 ▸ hl⟩
    | cons c init =>
      simp at h
      right
      refine ⟨?_, init, last, h.2, fun b hb => hi b (by simp [hb]), hl⟩
      rw [h.1]; exact hi c (by simp)
  · rintro (⟨rfl, h⟩ | ⟨h, init, last, rfl, hi, hl⟩)
    · exact ⟨[], b, rfl, by simp, h⟩
    · refine ⟨b :: init, last, rfl, ?_, hl⟩
      intro c hc
      simp at hc
      rcases hc with rfl | hc
      · exact h
      · exact hi c hc

theorem not_isLeb_nil : ¬ IsLeb [] := by
  rintro ⟨i, l, h, _⟩; simp at h

theorem ge80_iff (x : UInt64) : x ≥ 0x80 ↔ 128 ≤ x.toNat := by
  rw [ge_iff_le, UInt64.le_iff_toNat_le]; rfl

theorem or80 (x : UInt64) : (x.toUInt8 ||| 0x80).toNat = 128 + x.toNat % 128 := by
  have : ∀ b : UInt8, (b ||| 0x80).toNat = 128 + b.toNat % 128 := forall_byte (by decide +kernel)
  rw [this, UInt64.toNat_toUInt8]
  omega

theorem shr7 (x : UInt64) : (x >>> 7).toNat = x.toNat / 128 := by
  rw [UInt64.toNat_shiftRight]
  simp [Nat.shiftRight_eq_div_pow]

/-- `putUvarint` succeeds exactly on numbers of at most `cap` groups of seven bits. -/
theorem putUvarint_isSome (cap : Nat) (x : UInt64) : (putUvarint cap x).isSome ↔ x.toNat < 128 ^ cap ∧ cap ≠ 0 := by
  induction cap generalizing x with
  | zero => simp [putUvarint]
  | succ cap ih =>
    simp only [putUvarint]
    split
    · rename_i h
      rw [ge80_iff] at h
      simp only [Option.isSome_map, ih, shr7, Nat.pow_succ]
      constructor
      · rintro ⟨h1, h2⟩; exact ⟨by omega, by omega⟩
      · rintro ⟨h1, _⟩
        refine ⟨by omega, ?_⟩
        rintro rfl; simp at h1; omega
    · rename_i h
      rw [ge80_iff] at h
      have : 0 < 128 ^ cap := Nat.pow_pos (by decide)
      simp [Nat.pow_succ]
      omega

theorem putUvarint_spec (cap : Nat) (x : UInt64) (bs : Bytes) (h : putUvarint cap x = some bs) :
    IsLeb bs ∧ lebValue bs = x.toNat ∧ bs.length ≤ cap ∧ (bs.length = 1 ∨ 128 ^ (bs.length - 1) ≤ x.toNat) := by
  induction cap generalizing x bs with
  | zero => simp [putUvarint] at h
  | succ cap ih =>
    simp only [putUvarint] at h
    split at h
    · rename_i hx
      rw [ge80_iff] at hx
      simp only [Option.map_eq_some_iff] at h
      obtain ⟨t, ht, rfl⟩ := h
      obtain ⟨h1, h2, h3, h4⟩ := ih _ _ ht
      rw [shr7] at h2 h4
      refine ⟨?_, ?_, by simp; omega, ?_⟩
      · rw [isLeb_cons]; right; refine ⟨?_, h1⟩; rw [or80]; omega
      · rw [lebValue_cons, or80, h2]; omega
      · right
        have hl : t.length ≠ 0 := by
          intro h0; rw [List.length_eq_zero_iff] at h0; subst h0; exact not_isLeb_nil h1
        simp only [List.length_cons, Nat.add_sub_cancel]
        rcases h4 with h4 | h4
        · rw [h4]; omega
        · obtain ⟨k, hk⟩ : ∃ k, t.length = k + 1 := ⟨t.length - 1, by omega⟩
          rw [hk] at h4 ⊢
          simp only [Nat.add_sub_cancel] at h4
          rw [Nat.pow_succ]; omega
    · rename_i hx
      rw [ge80_iff] at hx
      simp at h; subst h
      have : (x.toUInt8).toNat = x.toNat := by rw [UInt64.toNat_toUInt8]; omega
      refine ⟨?_, ?_, by simp, by simp⟩
      · rw [isLeb_cons]; left; exact ⟨rfl, by omega⟩
      · rw [lebValue_cons, this]; simp; omega

theorem toNat_or_shift (x b s : UInt64) (hs : s.toNat < 64) (hx : x.toNat < 2 ^ s.toNat)
    (hv : b.toNat * 2 ^ s.toNat < 2 ^ 64) : (x ||| (b <<< s)).toNat = x.toNat + 2 ^ s.toNat * b.toNat := by
  rw [UInt64.toNat_or, UInt64.toNat_shiftLeft, Nat.mod_eq_of_lt hs, Nat.shiftLeft_eq, Nat.mod_eq_of_lt hv, Nat.or_comm,
    Nat.mul_comm, ← Nat.two_pow_add_eq_or_of_lt hx, Nat.add_comm]

theorem and7f (b : UInt8) : ((b &&& 0x7f).toUInt64).toNat = b.toNat % 128 := by
  have : ∀ b : UInt8, (b &&& 0x7f).toNat = b.toNat % 128 := forall_byte (by decide +kernel)
  rw [UInt8.toNat_toUInt64, this]

theorem lt80_iff (b : UInt8) : b < 0x80 ↔ b.toNat < 128 := by rw [UInt8.lt_iff_toNat_lt]; rfl
theorem gt1_iff (b : UInt8) : b > 1 ↔ 1 < b.toNat := by rw [gt_iff_lt, UInt8.lt_iff_toNat_lt]; rfl

/-- The loop of `binary.ReadUvarint` on a complete LEB128 number. -/
theorem readUvarintLoop_leb (fin : Err) (left : Nat) (x s : UInt64) (bs rest : Bytes) (hleb : IsLeb bs)
    (hlen : bs.length ≤ left) (hs : s.toNat + 7 * left = 70) (hx : x.toNat < 2 ^ s.toNat)
    (hv : x.toNat + 2 ^ s.toNat * lebValue bs < 2 ^ 64) :
    (readUvarintLoop readByte left x s).runE fin (bs ++ rest) =
      .ok ((x.toNat + 2 ^ s.toNat * lebValue bs).toUInt64, none) rest := by
  induction left generalizing x s bs with
  | zero =>
    have : bs = [] := List.eq_nil_of_length_eq_zero (by omega)
    subst this; exact absurd hleb not_isLeb_nil
  | succ left ih =>
    cases bs with
    | nil => exact absurd hleb not_isLeb_nil
    | cons b bs =>
      simp only [readUvarintLoop, Dec.runE_bind, List.cons_append, readByte_cons, Out.bind_ok]
      rw [isLeb_cons] at hleb
      rw [lebValue_cons] at hv ⊢
      have hs64 : s.toNat < 64 := by omega
      rcases hleb with ⟨rfl, hb⟩ | ⟨hb, hleb⟩
      · rw [if_pos ((lt80_iff b).mpr hb)]
        simp only [lebValue_nil, Nat.mul_zero, Nat.add_zero, Nat.mod_eq_of_lt hb] at hv ⊢
        rw [if_neg]
        · simp only [Dec.runE_pure, List.nil_append]
          congr 2
          rw [← UInt64.toNat_inj, toNat_or_shift _ _ _ hs64 hx (by rw [UInt8.toNat_toUInt64, Nat.mul_comm]; omega),
            UInt8.toNat_toUInt64]
          simp; omega
        · rintro ⟨h0, h1⟩
          rw [gt1_iff] at h1
          have : s.toNat = 63 := by omega
          rw [this] at hv
          omega
      · rw [if_neg (by rw [lt80_iff]; omega)]
        have hlen' : bs.length ≤ left := by simpa using hlen
        have hbs : bs ≠ [] := fun h => not_isLeb_nil (h ▸ hleb)
        have hl1 : 1 ≤ left := by
          have := List.length_pos_iff.mpr hbs; omega
        have hs7 : (s + 7).toNat = s.toNat + 7 := by
          rw [UInt64.toNat_add]; simp; omega
        have hm : b.toNat % 128 < 128 := Nat.mod_lt _ (by decide)
        have hpow : 2 ^ (s.toNat + 7) = 2 ^ s.toNat * 128 := by rw [Nat.pow_add]
        have hle : 2 ^ s.toNat ≤ 2 ^ 56 := Nat.pow_le_pow_right (by decide) (by omega)
        have hmul : 2 ^ s.toNat * (b.toNat % 128) ≤ 2 ^ s.toNat * 127 := Nat.mul_le_mul_left _ (by omega)
        have hxor : (x ||| (b &&& 127).toUInt64 <<< s).toNat = x.toNat + 2 ^ s.toNat * (b.toNat % 128) := by
          rw [toNat_or_shift _ _ _ hs64 hx (by rw [and7f, Nat.mul_comm]; omega), and7f]
        have hval : (x ||| (b &&& 127).toUInt64 <<< s).toNat + 2 ^ (s + 7).toNat * lebValue bs =
            x.toNat + 2 ^ s.toNat * (b.toNat % 128 + 128 * lebValue bs) := by
          rw [hxor, hs7, hpow]; ring
        rw [ih _ _ _ hleb hlen' (by omega) (by rw [hxor, hs7, hpow]; omega) (by rw [hval]; exact hv), hval]

/-- … on a LEB128 number that does not fit into 64 bits or is longer than the remaining iterations: overflow error. -/
theorem readUvarintLoop_overflow (fin : Err) (left : Nat) (x s : UInt64) (bs rest : Bytes)
    (hs : s.toNat + 7 * left = 70) (hx : x.toNat < 2 ^ s.toNat)
    (hov : (IsLeb bs ∧ bs.length ≤ left ∧ 2 ^ 64 ≤ x.toNat + 2 ^ s.toNat * lebValue bs) ∨
      (bs.length = left ∧ ∀ b ∈ bs, 128 ≤ b.toNat)) :
    ∃ v, (readUvarintLoop readByte left x s).runE fin (bs ++ rest) = .ok (v, some errVarintOverflow) rest := by
  induction left generalizing x s bs with
  | zero =>
    rcases hov with ⟨h1, h2, _⟩ | ⟨h1, _⟩
    · have : bs = [] := List.eq_nil_of_length_eq_zero (by omega)
      subst this; exact absurd h1 not_isLeb_nil
    · have : bs = [] := List.eq_nil_of_length_eq_zero h1
      subst this
      exact ⟨x, rfl⟩
  | succ left ih =>
    cases bs with
    | nil =>
      rcases hov with ⟨h1, _⟩ | ⟨h1, _⟩
      · exact absurd h1 not_isLeb_nil
      · simp at h1
    | cons b bs =>
      simp only [readUvarintLoop, Dec.runE_bind, List.cons_append, readByte_cons, Out.bind_ok]
      have hs64 : s.toNat < 64 := by omega
      by_cases hb : b.toNat < 128
      · rw [if_pos ((lt80_iff b).mpr hb)]
        rcases hov with ⟨h1, h2, h3⟩ | ⟨_, h2⟩
        · rw [isLeb_cons] at h1
          rcases h1 with ⟨rfl, _⟩ | ⟨h, _⟩
          · rw [lebValue_cons] at h3
            simp only [lebValue_nil, Nat.mul_zero, Nat.add_zero, Nat.mod_eq_of_lt hb] at h3
            rw [if_pos]
            · exact ⟨x, rfl⟩
            · have hl : left = 0 := by
                by_contra hne
                have hle : 2 ^ s.toNat ≤ 2 ^ 56 := Nat.pow_le_pow_right (by decide) (by omega)
                have : 2 ^ s.toNat * b.toNat ≤ 2 ^ s.toNat * 127 := Nat.mul_le_mul_left _ (by omega)
                omega
              refine ⟨hl, ?_⟩
              rw [gt1_iff]
              have : s.toNat = 63 := by omega
              rw [this] at h3 hx
              omega
          · omega
        · have := h2 b (by simp); omega
      · rw [if_neg (by rw [lt80_iff]; exact hb)]
        cases left with
        | zero =>
          -- tenth byte with continuation bit
          have hbs : bs = [] := by
            rcases hov with ⟨h1, h2, _⟩ | ⟨h1, _⟩
            · simpa using h2
            · simpa using h1
          subst hbs
          exact ⟨_, rfl⟩
        | succ left =>
          have hs7 : (s + 7).toNat = s.toNat + 7 := by
            rw [UInt64.toNat_add]; simp; omega
          have hm : b.toNat % 128 < 128 := Nat.mod_lt _ (by decide)
          have hpow : 2 ^ (s.toNat + 7) = 2 ^ s.toNat * 128 := by rw [Nat.pow_add]
          have hle : 2 ^ s.toNat ≤ 2 ^ 56 := Nat.pow_le_pow_right (by decide) (by omega)
          have hmul : 2 ^ s.toNat * (b.toNat % 128) ≤ 2 ^ s.toNat * 127 := Nat.mul_le_mul_left _ (by omega)
          have hxor : (x ||| (b &&& 127).toUInt64 <<< s).toNat = x.toNat + 2 ^ s.toNat * (b.toNat % 128) := by
            rw [toNat_or_shift _ _ _ hs64 hx (by rw [and7f, Nat.mul_comm]; omega), and7f]
          have hval : (x ||| (b &&& 127).toUInt64 <<< s).toNat + 2 ^ (s + 7).toNat * lebValue bs =
              x.toNat + 2 ^ s.toNat * (b.toNat % 128 + 128 * lebValue bs) := by
            rw [hxor, hs7, hpow]; ring
          apply ih _ _ _ (by omega) (by rw [hxor, hs7, hpow]; omega)
          rcases hov with ⟨h1, h2, h3⟩ | ⟨h1, h2⟩
          · left
            rw [isLeb_cons] at h1
            rcases h1 with ⟨_, h⟩ | ⟨_, h⟩
            · omega
            · refine ⟨h, by simpa using h2, ?_⟩
              rw [hval, ← lebValue_cons]; exact h3
          · right
            exact ⟨by simpa using h1, fun c hc => h2 c (by simp [hc])⟩

/-- … on a stream that ends inside the number. -/
theorem readUvarintLoop_trunc (fin : Err) (left : Nat) (x s : UInt64) (bs : Bytes)
    (hlen : bs.length < left) (h : ∀ b ∈ bs, 128 ≤ b.toNat) :
    ∃ v e, (readUvarintLoop readByte left x s).runE fin bs = .ok (v, some e) [] ∧
      (e = fin ∨ (fin = .eof ∧ e = .unexpectedEOF)) := by
  induction left generalizing x s bs with
  | zero => omega
  | succ left ih =>
    cases bs with
    | nil =>
      simp only [readUvarintLoop, Dec.runE_bind, readByte_nil, Out.bind_ok]
      refine ⟨x, _, rfl, ?_⟩
      split
      · rename_i hc; right; exact ⟨hc.1, rfl⟩
      · left; rfl
    | cons b bs =>
      simp only [readUvarintLoop, Dec.runE_bind, readByte_cons, Out.bind_ok]
      rw [if_neg (by rw [lt80_iff]; have := h b (by simp); omega)]
      exact ih _ _ _ (by simpa using hlen) (fun c hc => h c (by simp [hc]))

/-- The empty stream gives the stream's own error. -/
theorem readUvarint_nil (fin : Err) : (readUvarint readByte).runE fin [] = .ok (0, some fin) [] := by
  simp [readUvarint, readUvarintLoop, readByte_nil]

theorem readUvarint_leb (fin : Err) (bs rest : Bytes) (h : IsLeb bs) (hl : bs.length ≤ 10) (hv : lebValue bs < 2 ^ 64) :
    (readUvarint readByte).runE fin (bs ++ rest) = .ok ((lebValue bs).toUInt64, none) rest := by
  have := readUvarintLoop_leb fin 10 0 0 bs rest h hl (by simp) (by simp) (by simpa using hv)
  simpa [readUvarint] using this

theorem readVaruint_leb (fin : Err) (bs rest : Bytes) (h : IsLeb bs) (hl : bs.length ≤ 10) (hv : lebValue bs < 2 ^ 64) :
    readVaruint.runE fin (bs ++ rest) = .ok ((lebValue bs).toUInt64, none) rest := by
  simp [readVaruint, readUvarint_leb fin bs rest h hl hv]

theorem writeVaruint_run (v : UInt64) (h : v.toNat < 2 ^ 28) :
    ∃ bs, putUvarint 4 v = some bs ∧ (writeVaruint v).run = .ok none bs := by
  have : (putUvarint 4 v).isSome := (putUvarint_isSome 4 v).mpr ⟨by simpa using h, by decide⟩
  obtain ⟨bs, hbs⟩ := Option.isSome_iff_exists.mp this
  exact ⟨bs, hbs, by simp [writeVaruint, hbs, writeBytes, Enc.run]⟩

theorem writeVaruint_panics (v : UInt64) (h : 2 ^ 28 ≤ v.toNat) : ∃ w, (writeVaruint v).run = .panic w := by
  have : ¬ (putUvarint 4 v).isSome := by
    rw [putUvarint_isSome 4 v]; simp; omega
  simp only [Option.not_isSome_iff_eq_none] at this
  exact ⟨_, by simp [writeVaruint, this]; rfl⟩

/-- Splitting a stream at its first byte without continuation bit. -/
theorem leb_cases (bs : Bytes) : (∃ p rest, bs = p ++ rest ∧ IsLeb p) ∨ (∀ b ∈ bs, 128 ≤ b.toNat) := by
  induction bs with
  | nil => right; simp
  | cons b bs ih =>
    by_cases hb : b.toNat < 128
    · left; exact ⟨[b], bs, rfl, by rw [isLeb_cons]; left; exact ⟨rfl, hb⟩⟩
    · rcases ih with ⟨p, rest, rfl, hp⟩ | h
      · left; exact ⟨b :: p, rest, rfl, by rw [isLeb_cons]; right; exact ⟨by omega, hp⟩⟩
      · right
        intro c hc
        simp at hc
        rcases hc with rfl | hc
        · omega
        · exact h c hc

end Verif

namespace Verif

theorem leNat_leBytes8 (n : Nat) (h : n < 2 ^ 64) : leNat (leBytes 8 n) = n := by
  rw [leNat_leBytes]; exact Nat.mod_eq_of_lt (by simpa using h)
theorem leNat_leBytes4 (n : Nat) (h : n < 2 ^ 32) : leNat (leBytes 4 n) = n := by
  rw [leNat_leBytes]; exact Nat.mod_eq_of_lt (by simpa using h)
theorem leNat_leBytes2 (n : Nat) (h : n < 2 ^ 16) : leNat (leBytes 2 n) = n := by
  rw [leNat_leBytes]; exact Nat.mod_eq_of_lt (by simpa using h)

theorem toInt64_toInt (u : UInt64) : u.toInt64.toInt = (u.toNat : Int).bmod (2 ^ 64) := by
  show u.toBitVec.toInt = _
  rw [BitVec.toInt_eq_toNat_bmod]; rfl
theorem int64_toInt (v : Int64) : v.toInt = (v.toUInt64.toNat : Int).bmod (2 ^ 64) := by
  show v.toUInt64.toBitVec.toInt = _
  rw [BitVec.toInt_eq_toNat_bmod]; rfl
theorem int32_toInt (v : Int32) : v.toInt = (v.toUInt32.toNat : Int).bmod (2 ^ 32) := by
  show v.toUInt32.toBitVec.toInt = _
  rw [BitVec.toInt_eq_toNat_bmod]; rfl
theorem int16_toInt (v : Int16) : v.toInt = (v.toUInt16.toNat : Int).bmod (2 ^ 16) := by
  show v.toUInt16.toBitVec.toInt = _
  rw [BitVec.toInt_eq_toNat_bmod]; rfl
theorem int8_toInt (v : Int8) : v.toInt = (v.toUInt8.toNat : Int).bmod (2 ^ 8) := by
  show v.toUInt8.toBitVec.toInt = _
  rw [BitVec.toInt_eq_toNat_bmod]; rfl

theorem readUint64_run (fin : Err) (bs rest : Bytes) (h : bs.length = 8) :
    readUint64.runE fin (bs ++ rest) = .ok ((leNat bs).toUInt64, none) rest := by
  simp [readUint64, readBytes_run fin 8 (by decide) (by decide) bs rest (by simpa using h)]

theorem readUint32_run (fin : Err) (bs rest : Bytes) (h : bs.length = 4) :
    readUint32.runE fin (bs ++ rest) = .ok ((leNat bs).toUInt32, none) rest := by
  simp [readUint32, readBytes_run fin 4 (by decide) (by decide) bs rest (by simpa using h)]

theorem readUint16_run (fin : Err) (bs rest : Bytes) (h : bs.length = 2) :
    readUint16.runE fin (bs ++ rest) = .ok ((leNat bs).toUInt16, none) rest := by
  simp [readUint16, readBytes_run fin 2 (by decide) (by decide) bs rest (by simpa using h)]

theorem writeBytes_writes (bs : Bytes) : (writeBytes bs).Writes bs := by simp [writeBytes, Enc.Writes, Enc.run]
theorem writeByte_writes (b : UInt8) : (writeByte b).Writes [b] := by simp [writeByte, Enc.Writes, Enc.run]

theorem readUint64_reads (v : UInt64) : readUint64.Reads (leBytes 8 v.toNat) v := by
  intro fin rest
  rw [readUint64_run fin _ rest (length_leBytes _ _), leNat_leBytes8 _ v.toNat_lt]
  simp

theorem readUint32_reads (v : UInt32) : readUint32.Reads (leBytes 4 v.toNat) v := by
  intro fin rest
  rw [readUint32_run fin _ rest (length_leBytes _ _), leNat_leBytes4 _ v.toNat_lt]
  simp

theorem readUint16_reads (v : UInt16) : readUint16.Reads (leBytes 2 v.toNat) v := by
  intro fin rest
  rw [readUint16_run fin _ rest (length_leBytes _ _), leNat_leBytes2 _ v.toNat_lt]
  simp

theorem readByte_reads (v : UInt8) : readByte.Reads [v] v := fun fin rest => readByte_cons fin v rest

theorem readUint8_reads (v : UInt8) : readUint8.Reads [v] v := by
  intro fin rest; simp [readUint8, readByte_cons]

theorem readInt64_reads (v : Int64) : readInt64.Reads (leBytes 8 v.toUInt64.toNat) v := by
  intro fin rest; simp [readInt64, readUint64_reads v.toUInt64 fin rest]

theorem readInt32_reads (v : Int32) : readInt32.Reads (leBytes 4 v.toUInt32.toNat) v := by
  intro fin rest; simp [readInt32, readUint32_reads v.toUInt32 fin rest]

theorem readInt16_reads (v : Int16) : readInt16.Reads (leBytes 2 v.toUInt16.toNat) v := by
  intro fin rest; simp [readInt16, readUint16_reads v.toUInt16 fin rest]

theorem readInt8_reads (v : Int8) : readInt8.Reads [v.toUInt8] v := by
  intro fin rest; simp [readInt8, readByte_cons]

theorem readFloat32_reads (v : UInt32) : readFloat32.Reads (leBytes 4 v.toNat) v := by
  intro fin rest; simp [readFloat32, readUint32_reads v fin rest]

theorem readFloat64_reads (v : UInt64) : readFloat64.Reads (leBytes 8 v.toNat) v := by
  intro fin rest; simp [readFloat64, readUint64_reads v fin rest]

theorem readBool_reads (v : Bool) : readBool.Reads [if v then 1 else 0] v := by
  intro fin rest; cases v <;> simp [readBool, readByte_cons]

theorem writeBool_writes (v : Bool) : (writeBool v).Writes [if v then 1 else 0] := by
  cases v
  · exact writeByte_writes 0
  · exact writeByte_writes 1

/-- The length prefix of `n` bytes or elements: the varuint of `n`. -/
def varuintBytes (n : Nat) : Bytes := (putUvarint 4 n.toUInt64).getD []

theorem toUInt64_toNat (n : Nat) (h : n < 2 ^ 28) : (n.toUInt64).toNat = n := by
  simp; omega

theorem writeVaruint_writes (n : Nat) (h : n < 2 ^ 28) : (writeVaruint n.toUInt64).Writes (varuintBytes n) := by
  obtain ⟨bs, h1, h2⟩ := writeVaruint_run n.toUInt64 (by rw [toUInt64_toNat n h]; exact h)
  simp only [Enc.Writes, h2, varuintBytes, h1, Option.getD_some]

theorem varuintBytes_spec (n : Nat) (h : n < 2 ^ 28) :
    IsLeb (varuintBytes n) ∧ lebValue (varuintBytes n) = n ∧ (varuintBytes n).length ≤ 4 := by
  obtain ⟨bs, h1, h2⟩ := writeVaruint_run n.toUInt64 (by rw [toUInt64_toNat n h]; exact h)
  simp only [varuintBytes, h1, Option.getD_some]
  obtain ⟨a, b, c, _⟩ := putUvarint_spec _ _ _ h1
  rw [toUInt64_toNat n h] at b
  exact ⟨a, b, c⟩

theorem readVaruint_reads (n : Nat) (h : n < 2 ^ 28) : readVaruint.Reads (varuintBytes n) n.toUInt64 := by
  intro fin rest
  obtain ⟨a, b, c⟩ := varuintBytes_spec n h
  rw [readVaruint_leb fin _ rest a (by omega) (by rw [b]; omega), b]

theorem goInt_toUInt64 (n : Nat) (h : n < 2 ^ 63) : goInt n.toUInt64 = n := by
  unfold goInt
  have h1 : n.toUInt64.toNat = n := by simp; omega
  rw [toInt64_toInt, h1, Int.bmod_def]
  omega

theorem readString_reads (v : Bytes) (h : v.length < 2 ^ 28) : readString.Reads (varuintBytes v.length ++ v) v := by
  intro fin rest
  have : v.length ≤ maxAlloc := by unfold maxAlloc; omega
  simp only [readString, Dec.runE_bind, List.append_assoc, readVaruint_reads v.length h fin _, Out.bind_ok,
    goInt_toUInt64 v.length (by omega), readBytes_reads fin v.length this v rest rfl, Dec.runE_pure]

theorem writeString_writes (v : Bytes) (h : v.length < 2 ^ 28) : (writeString v).Writes (varuintBytes v.length ++ v) := by
  have h1 := writeVaruint_writes v.length h
  have h2 := writeBytes_writes v
  unfold Enc.Writes at *
  simp [writeString, h1, h2]

end Verif
