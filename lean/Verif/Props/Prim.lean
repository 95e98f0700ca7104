import Verif.Lemmas.PrimStrict
/-! # C01–C06: primitive reading and writing methods -/
namespace Verif

/-! ## C01 fixed-width integers -/

theorem C01_uint8 (v : UInt8) :
    ∃ bs, (writeUint8 v).Writes bs ∧ bs.length = 1 ∧ leValue bs = v.toNat ∧ readUint8.Reads bs v :=
  ⟨[v], writeByte_writes v, rfl, by simp [leValue], readUint8_reads v⟩

theorem C01_uint16 (v : UInt16) :
    ∃ bs, (writeUint16 v).Writes bs ∧ bs.length = 2 ∧ leValue bs = v.toNat ∧ readUint16.Reads bs v :=
  ⟨_, writeBytes_writes _, length_leBytes _ _, by
    rw [leValue_eq_leNat, leNat_leBytes2 _ v.toNat_lt], readUint16_reads v⟩

theorem C01_uint32 (v : UInt32) :
    ∃ bs, (writeUint32 v).Writes bs ∧ bs.length = 4 ∧ leValue bs = v.toNat ∧ readUint32.Reads bs v :=
  ⟨_, writeBytes_writes _, length_leBytes _ _, by
    rw [leValue_eq_leNat, leNat_leBytes4 _ v.toNat_lt], readUint32_reads v⟩

theorem C01_uint64 (v : UInt64) :
    ∃ bs, (writeUint64 v).Writes bs ∧ bs.length = 8 ∧ leValue bs = v.toNat ∧ readUint64.Reads bs v :=
  ⟨_, writeBytes_writes _, length_leBytes _ _, by
    rw [leValue_eq_leNat, leNat_leBytes8 _ v.toNat_lt], readUint64_reads v⟩

/-- Signed integers: the bytes are the two's complement representation (the value modulo 2^8). -/
theorem C01_int8 (v : Int8) :
    ∃ bs, (writeInt8 v).Writes bs ∧ bs.length = 1 ∧ (leValue bs : Int) = v.toInt % 2 ^ 8 ∧ readInt8.Reads bs v := by
  refine ⟨[v.toUInt8], writeByte_writes _, rfl, ?_, readInt8_reads v⟩
  simp only [leValue, List.length_singleton]
  have := int8_toInt v
  have h2 := v.toUInt8.toNat_lt
  rw [this, Int.bmod_def]
  simp
  omega

theorem C01_int16 (v : Int16) :
    ∃ bs, (writeInt16 v).Writes bs ∧ bs.length = 2 ∧ (leValue bs : Int) = v.toInt % 2 ^ 16 ∧ readInt16.Reads bs v := by
  refine ⟨_, writeBytes_writes _, length_leBytes _ _, ?_, readInt16_reads v⟩
  have := int16_toInt v
  have h2 := v.toUInt16.toNat_lt
  rw [leValue_eq_leNat, leNat_leBytes2 _ h2, this, Int.bmod_def]
  omega

theorem C01_int32 (v : Int32) :
    ∃ bs, (writeInt32 v).Writes bs ∧ bs.length = 4 ∧ (leValue bs : Int) = v.toInt % 2 ^ 32 ∧ readInt32.Reads bs v := by
  refine ⟨_, writeBytes_writes _, length_leBytes _ _, ?_, readInt32_reads v⟩
  have := int32_toInt v
  have h2 := v.toUInt32.toNat_lt
  rw [leValue_eq_leNat, leNat_leBytes4 _ h2, this, Int.bmod_def]
  omega

theorem C01_int64 (v : Int64) :
    ∃ bs, (writeInt64 v).Writes bs ∧ bs.length = 8 ∧ (leValue bs : Int) = v.toInt % 2 ^ 64 ∧ readInt64.Reads bs v := by
  refine ⟨_, writeBytes_writes _, length_leBytes _ _, ?_, readInt64_reads v⟩
  have := int64_toInt v
  have h2 := v.toUInt64.toNat_lt
  rw [leValue_eq_leNat, leNat_leBytes8 _ h2, this, Int.bmod_def]
  omega

theorem C01_float32 (bits : UInt32) :
    ∃ bs, (writeFloat32 bits).Writes bs ∧ bs.length = 4 ∧ leValue bs = bits.toNat ∧ readFloat32.Reads bs bits :=
  ⟨_, writeBytes_writes _, length_leBytes _ _, by
    rw [leValue_eq_leNat, leNat_leBytes4 _ bits.toNat_lt], readFloat32_reads bits⟩

theorem C01_float64 (bits : UInt64) :
    ∃ bs, (writeFloat64 bits).Writes bs ∧ bs.length = 8 ∧ leValue bs = bits.toNat ∧ readFloat64.Reads bs bits :=
  ⟨_, writeBytes_writes _, length_leBytes _ _, by
    rw [leValue_eq_leNat, leNat_leBytes8 _ bits.toNat_lt], readFloat64_reads bits⟩

theorem C01_bool (v : Bool) : ∃ b : UInt8, (writeBool v).Writes [b] ∧ b.toNat = v.toNat ∧ readBool.Reads [b] v :=
  ⟨_, writeBool_writes v, by cases v <;> rfl, readBool_reads v⟩

example : (writeInt16 (-2)).Writes [0xfe, 0xff] ∧ (writeUint32 0x01020304).Writes [4, 3, 2, 1] := by decide

/-! ## C02 varuint -/

/-- WriteVaruint, whenever it returns, writes the minimal LEB128 encoding, and ReadVaruint inverts it. -/
theorem C02_varuint (v : UInt64) (e : Option Err) (bs : Bytes) (h : (writeVaruint v).run = .ok e bs) :
    e = none ∧ IsLeb bs ∧ lebValue bs = v.toNat ∧ (bs.length = 1 ∨ bs.getLast? ≠ some 0) ∧ readVaruint.Reads bs v := by
  by_cases hv : v.toNat < 2 ^ 28
  · obtain ⟨bs', h1, h2⟩ := writeVaruint_run v hv
    rw [h2] at h
    simp at h
    obtain ⟨rfl, rfl⟩ := h
    obtain ⟨a, b, c, d⟩ := putUvarint_spec _ _ _ h1
    refine ⟨rfl, a, b, ?_, ?_⟩
    · rcases d with d | d
      · exact Or.inl d
      · right
        intro hl
        -- a trailing zero group would make the value too small
        obtain ⟨init, last, rfl, _, _⟩ := a
        simp at hl
        subst hl
        have hval : ∀ (xs : Bytes), lebValue (xs ++ [0]) = lebValue xs := by
          intro xs
          induction xs with
          | nil => rfl
          | cons x xs ih => simp only [List.cons_append, lebValue_cons, ih]
        have hlt : ∀ (xs : Bytes), lebValue xs < 128 ^ xs.length := by
          intro xs
          induction xs with
          | nil => simp
          | cons x xs ih =>
            simp only [lebValue_cons, List.length_cons, Nat.pow_succ]
            have := Nat.mod_lt x.toNat (y := 128) (by decide)
            omega
        rw [hval] at b
        simp at d
        have := hlt init
        omega
    · intro fin rest
      rw [readVaruint_leb fin bs' rest a (by omega) (by rw [b]; omega), b]
      simp
  · obtain ⟨w, hw⟩ := writeVaruint_panics v (by omega)
    rw [hw] at h; simp at h

example : (writeVaruint 300).run = .ok none [0xac, 0x02] := by decide

/-! ## C03 range of WriteVaruint / WriteVarint -/

/-- The exact set of numbers WriteVaruint can write: below 2^28. -/
theorem C03_varuint_iff_partial (v : UInt64) :
    ((∃ bs, (writeVaruint v).Writes bs) ↔ v.toNat < 2 ^ 28) ∧
    ((∃ w, (writeVaruint v).run = .panic w) ↔ 2 ^ 28 ≤ v.toNat) := by
  by_cases hv : v.toNat < 2 ^ 28
  · obtain ⟨bs, h1, h2⟩ := writeVaruint_run v hv
    simp only [Enc.Writes, h2, hv, EOut.ok.injEq, true_and, exists_eq', reduceCtorEq, exists_false, false_iff]
    omega
  · obtain ⟨w, hw⟩ := writeVaruint_panics v (by omega)
    simp only [Enc.Writes, hw, reduceCtorEq, exists_false, hv, iff_self, EOut.panic.injEq, exists_eq', true_iff, true_and]
    omega

theorem zigzag_toNat (v : Int64) : (zigzag v).toNat = if 0 ≤ v.toInt then 2 * v.toInt.toNat else 2 * (-v.toInt).toNat - 1 := by
  have hbm := int64_toInt v
  have h2 := v.toUInt64.toNat_lt
  have hlt : v < 0 ↔ v.toInt < 0 := by rw [Int64.lt_iff_toInt_lt]; simp
  have hs : (v.toUInt64 <<< 1).toNat = 2 * v.toUInt64.toNat % 2 ^ 64 := by
    rw [UInt64.toNat_shiftLeft]; simp [Nat.shiftLeft_eq, Nat.mul_comm]
  unfold zigzag
  rw [Int.bmod_def] at hbm
  by_cases hneg : v < 0
  · rw [if_pos hneg, if_neg (by rw [hlt] at hneg; omega)]
    rw [hlt] at hneg
    rw [UInt64.toNat_not, hs]
    simp only [UInt64.size]
    omega
  · rw [if_neg hneg, if_pos (by rw [hlt] at hneg; omega), hs]
    rw [hlt] at hneg
    omega

theorem unzigzag_zigzag (v : Int64) : unzigzag (zigzag v) = v := by
  have hz := zigzag_toNat v
  have hbm := int64_toInt v
  have h2 := v.toUInt64.toNat_lt
  have hand : (zigzag v &&& 1).toNat = (zigzag v).toNat % 2 := by
    rw [UInt64.toNat_and]; simp [Nat.and_one_is_mod]
  have hcond : (zigzag v &&& 1 ≠ 0) ↔ (zigzag v).toNat % 2 = 1 := by
    rw [Ne, ← UInt64.toNat_inj, hand]; simp
  have hshr : (zigzag v >>> 1).toNat = (zigzag v).toNat / 2 := by
    rw [UInt64.toNat_shiftRight]; simp [Nat.shiftRight_eq_div_pow]
  have hti := toInt64_toInt
  have hnot : ∀ i : Int64, (~~~i).toInt = -i.toInt - 1 := by
    intro i
    rw [Int64.toInt_not]
    have h1 := i.toInt_lt; have h2 := i.le_toInt
    rw [Int.bmod_def]; omega
  rw [Int.bmod_def] at hbm
  apply Int64.toInt_inj.mp
  unfold unzigzag
  split
  · rename_i h
    rw [hcond] at h
    rw [hnot, hti, hshr, Int.bmod_def]
    split at hz <;> omega
  · rename_i h
    rw [hcond] at h
    rw [hti, hshr, Int.bmod_def]
    split at hz <;> omega

theorem C03_varint_iff_partial (v : Int64) :
    ((∃ bs, (writeVarint v).Writes bs) ↔ -2 ^ 27 ≤ v.toInt ∧ v.toInt < 2 ^ 27) ∧
    ((∃ w, (writeVarint v).run = .panic w) ↔ ¬(-2 ^ 27 ≤ v.toInt ∧ v.toInt < 2 ^ 27)) := by
  have h := C03_varuint_iff_partial (zigzag v)
  have heq : writeVarint v = writeVaruint (zigzag v) := rfl
  rw [heq, h.1, h.2, zigzag_toNat]
  split <;> omega

/-- The full claim is false of the code: 2^28 is a valid varuint32 and makes WriteVaruint panic; likewise 2^27 for varint32. -/
theorem C03_violated :
    ¬ (∀ v : UInt64, v.toNat < 2 ^ 32 → ∃ bs, (writeVaruint v).Writes bs) ∧
    ¬ (∀ v : Int64, -2 ^ 31 ≤ v.toInt ∧ v.toInt < 2 ^ 31 → ∃ bs, (writeVarint v).Writes bs) := by
  constructor
  · intro h
    have := (C03_varuint_iff_partial 0x10000000).1.mp (h 0x10000000 (by decide))
    exact absurd this (by decide)
  · intro h
    have := (C03_varint_iff_partial 0x8000000).1.mp (h 0x8000000 (by decide))
    exact absurd this (by decide)

/-! ## C04 varint -/

theorem C04_varint (v : Int64) (e : Option Err) (bs : Bytes) (h : (writeVarint v).run = .ok e bs) :
    e = none ∧ IsLeb bs ∧ (lebValue bs : Int) = (if 0 ≤ v.toInt then 2 * v.toInt else -2 * v.toInt - 1) ∧
      (bs.length = 1 ∨ bs.getLast? ≠ some 0) ∧ readVarintD.Reads bs v := by
  have heq : writeVarint v = writeVaruint (zigzag v) := rfl
  rw [heq] at h
  obtain ⟨h1, h2, h3, h4, h5⟩ := C02_varuint (zigzag v) e bs h
  refine ⟨h1, h2, ?_, h4, ?_⟩
  · rw [h3, zigzag_toNat]
    split <;> omega
  · intro fin rest
    have h6 := h5 fin rest
    have h7 : (readUvarint readByte).runE fin (bs ++ rest) = .ok (zigzag v, none) rest := by
      unfold readVaruint at h6
      rw [Dec.runE_bind] at h6
      cases hh : (readUvarint readByte).runE fin (bs ++ rest) with
      | ok a r =>
        rw [hh] at h6
        obtain ⟨x, _ | e⟩ := a
        · simpa using h6
        · simp at h6
      | panic w => rw [hh] at h6; simp at h6
      | diverge => rw [hh] at h6; simp at h6
    simp [readVarintD, readVarint, h7, unzigzag_zigzag]

example : (writeVarint (-65)).run = .ok none [0x81, 0x01] := by decide

/-! ## C05 ReadVaruint on arbitrary input -/

/-- Complete description of ReadVaruint. Every stream falls in exactly one of the three cases:
(1) it starts with a LEB128 number of at most ten bytes whose value fits 64 bits;
(2) it starts with a LEB128 number that is longer or larger (or with ten continuation bytes);
(3) it ends inside the number. -/
theorem C05_readVaruint_total (fin : Err) (bs : Bytes) :
    (∃ p rest, bs = p ++ rest ∧ IsLeb p ∧ p.length ≤ 10 ∧ lebValue p < 2 ^ 64 ∧
      readVaruint.runE fin bs = .ok ((lebValue p).toUInt64, none) rest) ∨
    (∃ p rest, bs = p ++ rest ∧ p.length ≤ 10 ∧ (∀ b ∈ p.dropLast, 128 ≤ b.toNat) ∧
      (p.length = 10 ∧ (∀ b ∈ p, 128 ≤ b.toNat) ∨ IsLeb p ∧ 2 ^ 64 ≤ lebValue p) ∧
      readVaruint.runE fin bs = .ok (0, some errVarintOverflow) rest) ∨
    ((∀ b ∈ bs, 128 ≤ b.toNat) ∧ bs.length < 10 ∧
      ∃ e, readVaruint.runE fin bs = .ok (0, some e) [] ∧ (e = fin ∨ (fin = .eof ∧ e = .unexpectedEOF))) := by
  have hread : ∀ v e r, (readUvarintLoop readByte 10 0 0).runE fin bs = .ok (v, some e) r →
      readVaruint.runE fin bs = .ok (0, some e) r := by
    intro v e r h; simp [readVaruint, readUvarint, h]
  have hall : ∀ (p rest : Bytes), bs = p ++ rest → p.length = 10 → (∀ b ∈ p, 128 ≤ b.toNat) →
      readVaruint.runE fin bs = .ok (0, some errVarintOverflow) rest := by
    intro p rest hb hl h
    obtain ⟨v, hv⟩ := readUvarintLoop_overflow fin 10 0 0 p rest (by simp) (by simp) (Or.inr ⟨hl, h⟩)
    rw [← hb] at hv
    exact hread _ _ _ hv
  rcases leb_cases bs with ⟨p, rest, hb, hp⟩ | h
  · by_cases hl : p.length ≤ 10
    · by_cases hv : lebValue p < 2 ^ 64
      · left; exact ⟨p, rest, hb, hp, hl, hv, by rw [hb]; exact readVaruint_leb fin p rest hp hl hv⟩
      · right; left
        obtain ⟨v, hr⟩ := readUvarintLoop_overflow fin 10 0 0 p rest (by simp) (by simp)
          (Or.inl ⟨hp, hl, by simpa using hv⟩)
        rw [← hb] at hr
        refine ⟨p, rest, hb, hl, ?_, Or.inr ⟨hp, by omega⟩, hread _ _ _ hr⟩
        obtain ⟨init, last, rfl, hi, _⟩ := hp
        simpa using hi
    · right; left
      obtain ⟨init, last, rfl, hi, _⟩ := hp
      simp at hl
      have ht : ∀ b ∈ init.take 10, 128 ≤ b.toNat := fun b h => hi b (List.mem_of_mem_take h)
      have hb' : bs = init.take 10 ++ (init.drop 10 ++ [last] ++ rest) := by
        rw [hb]; simp only [← List.append_assoc, List.take_append_drop]
      refine ⟨init.take 10, _, hb', by simp, fun b h => ht b (List.dropLast_subset _ h), Or.inl ⟨by simp; omega, ht⟩,
        hall _ _ hb' (by simp; omega) ht⟩
  · by_cases hl : bs.length < 10
    · right; right
      obtain ⟨v, e, h1, h2⟩ := readUvarintLoop_trunc fin 10 0 0 bs hl h
      exact ⟨h, hl, e, hread _ _ _ h1, h2⟩
    · right; left
      have ht : ∀ b ∈ bs.take 10, 128 ≤ b.toNat := fun b hb => h b (List.mem_of_mem_take hb)
      have hb' : bs = bs.take 10 ++ bs.drop 10 := (List.take_append_drop 10 bs).symm
      exact ⟨bs.take 10, bs.drop 10, hb', by simp, fun b h => ht b (List.dropLast_subset _ h),
        Or.inl ⟨by simp; omega, ht⟩, hall _ _ hb' (by simp; omega) ht⟩

/-- ReadVaruint accepts redundant encodings and values above 32 bits (unlike nodeos). -/
theorem C05_accepts_noncanonical : readVaruint.run [0x80, 0x00] = .ok (0, none) [] ∧
    readVaruint.run [0x80, 0x80, 0x80, 0x80, 0x80, 0x01] = .ok (2 ^ 35, none) [] := by
  constructor <;> rfl

/-! ## C06 strings -/

theorem C06_string (v : Bytes) (h : v.length < 2 ^ 28) :
    ∃ pre, IsLeb pre ∧ lebValue pre = v.length ∧ (writeString v).Writes (pre ++ v) ∧ readString.Reads (pre ++ v) v := by
  obtain ⟨a, b, _⟩ := varuintBytes_spec v.length h
  exact ⟨_, a, b, writeString_writes v h, readString_reads v h⟩

/-- Strings of 2^28 bytes or more make WriteString panic. -/
theorem C06_string_panics (v : Bytes) (h : 2 ^ 28 ≤ v.length) (h2 : v.length < 2 ^ 64) : ∃ w, (writeString v).run = .panic w := by
  obtain ⟨w, hw⟩ := writeVaruint_panics v.length.toUInt64 (by simp; omega)
  exact ⟨w, by simp [writeString, hw]⟩

example : (writeString (asc "foo")).Writes [3, 102, 111, 111] ∧ readString.run [3, 102, 111, 111, 9] = .ok (asc "foo", none) [9] := by
  constructor
  · decide
  · rfl

end Verif
