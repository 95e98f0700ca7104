import Verif.Spec.Numbers
import Verif.Lemmas.PrimStrict
import Verif.Lemmas.Codec
import Verif.Lemmas.Strconv
import Verif.Lemmas.Symbol
namespace Verif

theorem pow256_8 : (256 : Nat) ^ 8 = 2 ^ 64 := by decide
theorem pow256_16 : (256 : Nat) ^ 16 = 2 ^ 128 := by decide

theorem leNat_append (a b : Bytes) : leNat (a ++ b) = leNat a + 256 ^ a.length * leNat b := by
  induction a with
  | nil => simp [leNat]
  | cons x a ih =>
    simp only [List.cons_append, leNat, ih, List.length_cons, Nat.pow_succ, Nat.mul_add]
    rw [← Nat.mul_assoc, Nat.mul_comm 256 (256 ^ _)]; omega

theorem beNat_append (a b : Bytes) : beNat (a ++ b) = beNat a * 256 ^ b.length + beNat b := by
  unfold beNat
  rw [List.reverse_append, leNat_append, List.length_reverse, Nat.mul_comm, Nat.add_comm]

theorem beNat_lt (a : Bytes) : beNat a < 256 ^ a.length := by
  have := leNat_lt a.reverse
  rwa [List.length_reverse] at this

theorem beNat_beBytes (n v : Nat) : beNat (beBytes n v) = v % 256 ^ n := by
  simp [beNat, beBytes, leNat_leBytes]

theorem length_beBytes (n v : Nat) : (beBytes n v).length = n := by simp [beBytes, length_leBytes]

theorem beNat_zeros (k : Nat) (b : Bytes) : beNat (List.replicate k 0 ++ b) = beNat b := by
  rw [beNat_append]
  have : beNat (List.replicate k 0) = 0 := by
    unfold beNat
    rw [List.reverse_replicate]
    induction k with
    | zero => rfl
    | succ k ih => simp [List.replicate_succ, leNat, ih]
  rw [this]; omega

theorem beNat_ones (k : Nat) : beNat (List.replicate k 0xff) + 1 = 256 ^ k := by
  unfold beNat
  rw [List.reverse_replicate]
  induction k with
  | zero => rfl
  | succ k ih =>
    rw [List.replicate_succ, leNat, Nat.pow_succ]
    have : (0xff : UInt8).toNat = 255 := rfl
    omega

theorem u128OfBytes_natVal (b : Bytes) (h : b.length = 16) : (u128OfBytes b).natVal = beNat b := by
  have hsplit : beNat b = beNat (b.take 8) * 256 ^ 8 + beNat (b.drop 8) := by
    have := beNat_append (b.take 8) (b.drop 8)
    rw [List.take_append_drop] at this
    rw [this]; simp [h]
  have h1 := beNat_lt (b.take 8)
  have h2 := beNat_lt (b.drop 8)
  have l1 : (b.take 8).length = 8 := by simp; omega
  have l2 : (b.drop 8).length = 8 := by simp; omega
  rw [l1] at h1
  rw [l2] at h2
  have hd : (b.drop 8).take 8 = b.drop 8 := List.take_of_length_le (by omega)
  have e1 : (beNat (b.take 8)).toUInt64.toNat = beNat (b.take 8) := by
    simp; omega
  have e2 : (beNat (b.drop 8)).toUInt64.toNat = beNat (b.drop 8) := by
    simp; omega
  rw [U128.natVal, u128OfBytes, hd, e1, e2, hsplit, pow256_8]

theorem natVal_lt (u : U128) : u.natVal < 2 ^ 128 := by
  have h1 := u.hi.toNat_lt
  have h2 := u.lo.toNat_lt
  unfold U128.natVal; omega

theorem natVal_inj (u v : U128) (h : u.natVal = v.natVal) : u = v := by
  have h1 := u.lo.toNat_lt
  have h2 := v.lo.toNat_lt
  unfold U128.natVal at h
  obtain ⟨ul, uh⟩ := u
  obtain ⟨vl, vh⟩ := v
  simp only at h h1 h2
  have e1 : ul.toNat = vl.toNat := by omega
  have e2 : uh.toNat = vh.toNat := by omega
  rw [UInt64.toNat_inj.mp e1, UInt64.toNat_inj.mp e2]

theorem bytesBE_nat (u : U128) : beNat u.bytesBE = u.natVal := by
  have h1 := u.hi.toNat_lt
  have h2 := u.lo.toNat_lt
  rw [U128.bytesBE, beNat_append, beNat_beBytes, beNat_beBytes, length_beBytes, U128.natVal]
  rw [Nat.mod_eq_of_lt (by simpa using h1), Nat.mod_eq_of_lt (by simpa using h2), pow256_8]

theorem bytesBE_length (u : U128) : u.bytesBE.length = 16 := by simp [U128.bytesBE, length_beBytes]

theorem bigUint_eq (u : U128) : u.bigUint = u.natVal := by rw [U128.bigUint, bytesBE_nat]

theorem and80_iff (b : UInt8) : b &&& 0x80 > 0 ↔ 128 ≤ b.toNat :=
  forall_byte (P := fun b => b &&& 0x80 > 0 ↔ 128 ≤ b.toNat) (by decide +kernel) b

theorem bytesBE_head (u : U128) : (u.bytesBE.headD 0).toNat = u.hi.toNat / 2 ^ 56 := by
  have h1 := u.hi.toNat_lt
  simp [U128.bytesBE, beBytes, leBytes]
  omega

theorem bigInt_eq (u : U128) : u.bigInt = u.intVal := by
  have h1 := u.hi.toNat_lt
  have h2 := u.lo.toNat_lt
  unfold U128.bigInt U128.intVal
  simp only [bytesBE_nat, bytesBE_length, and80_iff, bytesBE_head]
  by_cases h : u.natVal < 2 ^ 127
  · rw [if_pos h, if_neg]
    unfold U128.natVal at h
    omega
  · rw [if_neg h, if_pos]
    unfold U128.natVal at h
    omega

theorem intVal_inj (u v : U128) (h : u.intVal = v.intVal) : u = v := by
  apply natVal_inj
  have h1 := natVal_lt u
  have h2 := natVal_lt v
  unfold U128.intVal at h
  split at h <;> split at h <;> omega

/-! ### Construction -/

theorem newUint128_ok (i : Int) (h : i.natAbs < 2 ^ 128) : ∃ u, newUint128 i = .val u ∧ u.natVal = i.natAbs := by
  refine ⟨_, by rw [newUint128, if_neg (by omega)], ?_⟩
  rw [u128OfBytes_natVal _ (length_beBytes _ _), beNat_beBytes, Nat.mod_eq_of_lt]
  have : (256 : Nat) ^ 16 = 2 ^ 128 := by decide
  omega

theorem lt_bitLen (i : Int) : i.natAbs < 2 ^ bitLen i := by
  unfold bitLen
  split
  · rename_i h; subst h; simp
  · exact Nat.lt_log2_self

theorem bitLen_le_iff (i : Int) (k : Nat) : bitLen i ≤ k ↔ i.natAbs < 2 ^ k := by
  constructor
  · intro h
    exact Nat.lt_of_lt_of_le (lt_bitLen i) (Nat.pow_le_pow_right (by decide) h)
  · intro h
    unfold bitLen
    split
    · omega
    · rename_i h0
      have : Nat.log2 i.natAbs < k := (Nat.log2_lt (by omega)).mpr h
      omega

theorem bigBytes_nat (i : Int) : beNat (bigBytes i) = i.natAbs := by
  rw [bigBytes, beNat_beBytes, Nat.mod_eq_of_lt]
  rw [← pow_8]
  exact Nat.lt_of_lt_of_le (lt_bitLen i) (Nat.pow_le_pow_right (by decide) (by omega))

theorem bigBytes_length (i : Int) : (bigBytes i).length = (bitLen i + 7) / 8 := length_beBytes _ _

theorem newInt128_pos (i : Int) (h0 : 0 < i) (h : i < 2 ^ 128) : ∃ u, newInt128 i = .val u ∧ (u.natVal : Int) = i := by
  have hb : bitLen i ≤ 128 := by rw [bitLen_le_iff]; omega
  refine ⟨_, by rw [newInt128, if_neg (by omega), if_neg (by omega), if_pos h0], ?_⟩
  rw [u128OfBytes_natVal _ (by simp [padTo16, bigBytes_length]; omega), padTo16, beNat_zeros, bigBytes_nat]
  omega

theorem bitLen_eq (m : Int) (k : Nat) (h1 : (2 : Int) ^ k ≤ m) (h2 : m < 2 ^ (k + 1)) : bitLen m = k + 1 := by
  have hp : (0 : Int) < 2 ^ k := Int.pow_pos (by decide)
  have e1 : 2 ^ k ≤ m.natAbs := by
    have : ((2 ^ k : Nat) : Int) = 2 ^ k := by simp
    omega
  have e2 : m.natAbs < 2 ^ (k + 1) := by
    have : ((2 ^ (k + 1) : Nat) : Int) = 2 ^ (k + 1) := by simp
    omega
  have a1 : bitLen m ≤ k + 1 := (bitLen_le_iff m (k + 1)).mpr e2
  have a2 : ¬ bitLen m ≤ k := by rw [bitLen_le_iff]; omega
  omega

theorem newInt128_neg (i : Int) (h0 : i < 0) (h : -2 ^ 127 < i) : ∃ u, newInt128 i = .val u ∧ (u.natVal : Int) = i + 2 ^ 128 := by
  have hb : bitLen i ≤ 127 := by rw [bitLen_le_iff]; omega
  have habs := lt_bitLen i
  generalize hB : bitLen i = B at *
  have hk : ∃ k, (B / 8 + 1) * 8 = k + 1 := ⟨(B / 8 + 1) * 8 - 1, by omega⟩
  obtain ⟨k, hk⟩ := hk
  have hBk : B ≤ k := by omega
  have hpow : 2 ^ B ≤ 2 ^ k := Nat.pow_le_pow_right (by decide) hBk
  have hcast : ((2 ^ k : Nat) : Int) = 2 ^ k := by simp
  have hsucc : (2 : Int) ^ (k + 1) = 2 * 2 ^ k := by rw [Int.pow_succ, Int.mul_comm]
  have hm1 : (2 : Int) ^ k ≤ i + 2 ^ (k + 1) := by rw [hsucc]; omega
  have hm2 : i + 2 ^ (k + 1) < 2 ^ (k + 1) := by omega
  have hbl := bitLen_eq _ k hm1 hm2
  have hlen : (bigBytes (i + 2 ^ (k + 1))).length = B / 8 + 1 := by
    rw [bigBytes_length, hbl]; omega
  refine ⟨u128OfBytes (padTo16 0xff (bigBytes (i + 2 ^ (k + 1)))), ?_, ?_⟩
  · rw [newInt128]
    simp only [hB, hk]
    rw [if_neg (by omega), if_neg (by omega), if_neg (by omega)]
  · have hl16 : (padTo16 0xff (bigBytes (i + 2 ^ (k + 1)))).length = 16 := by
      simp [padTo16, hlen]; omega
    rw [u128OfBytes_natVal _ hl16, padTo16, beNat_append, bigBytes_nat, hlen]
    have hones := beNat_ones (16 - (B / 8 + 1))
    generalize hL : B / 8 + 1 = L at *
    have hp16 : (256 : Nat) ^ (16 - L) * 256 ^ L = 2 ^ 128 := by
      rw [← Nat.pow_add, Nat.sub_add_cancel (by omega), pow256_16]
    have h256 : (256 : Nat) ^ L = 2 ^ (k + 1) := by rw [← pow_8, ← hk, Nat.mul_comm]
    have hcast2 : ((2 ^ (k + 1) : Nat) : Int) = 2 ^ (k + 1) := by simp
    have hnat : ((i + 2 ^ (k + 1)).natAbs : Int) = i + 2 ^ (k + 1) := by
      have : 0 ≤ i + 2 ^ (k + 1) := by rw [hsucc] at hm1 ⊢; omega
      omega
    have hprod : beNat (List.replicate (16 - L) 0xff) * 256 ^ L + 256 ^ L = 2 ^ 128 := by
      rw [← hp16, ← hones, Nat.add_mul, Nat.one_mul]
    rw [Int.natCast_add, hnat]
    have : ((beNat (List.replicate (16 - L) 0xff) * 256 ^ L : Nat) : Int) + 2 ^ (k + 1) = 2 ^ 128 := by
      rw [← hcast2, ← h256]; exact_mod_cast hprod
    omega

/-- From -2^127 down there are 17 bytes, of which the last is not looked at. -/
theorem newInt128_low (i : Int) (h0 : i ≤ -2 ^ 127) (h : -2 ^ 128 < i) : ∃ u, newInt128 i = .val u ∧ (u.natVal : Int) = (i + 2 ^ 136) / 256 := by
  have hB : bitLen i = 128 := by
    have a1 : bitLen i ≤ 128 := by rw [bitLen_le_iff]; omega
    have a2 : ¬ bitLen i ≤ 127 := by rw [bitLen_le_iff]; omega
    omega
  have hbl : bitLen (i + 2 ^ 136) = 136 := bitLen_eq _ 135 (by omega) (by omega)
  have hlen : (bigBytes (i + 2 ^ 136)).length = 17 := by rw [bigBytes_length, hbl]
  refine ⟨u128OfBytes (padTo16 0xff (bigBytes (i + 2 ^ 136))), ?_, ?_⟩
  · rw [newInt128, hB]
    rw [if_neg (by omega), if_neg (by omega), if_neg (by omega)]
  · have e : padTo16 0xff (bigBytes (i + 2 ^ 136)) = bigBytes (i + 2 ^ 136) := by rw [padTo16, hlen]; rfl
    have hn := bigBytes_nat (i + 2 ^ 136)
    rw [e]
    generalize bigBytes (i + 2 ^ 136) = b at hlen hn
    have e2 : u128OfBytes b = u128OfBytes (b.take 16) := by
      unfold u128OfBytes
      rw [List.drop_take, List.take_take, List.take_take]; rfl
    have e3 : beNat b = beNat (b.take 16) * 256 ^ (b.drop 16).length + beNat (b.drop 16) := by
      rw [← beNat_append, List.take_append_drop]
    have e4 : (b.drop 16).length = 1 := by rw [List.length_drop, hlen]
    have e5 : beNat (b.drop 16) < 256 := by
      have := beNat_lt (b.drop 16)
      rw [e4] at this
      exact this
    rw [e2, u128OfBytes_natVal _ (by rw [List.length_take, hlen]; rfl)]
    rw [e4] at e3
    omega

/-! ### Text -/

theorem foldl_decAcc (ds : Bytes) (n : Nat) : ds.foldl (fun n c => n * 10 + digitVal c) n = decAcc n ds := by
  unfold decAcc digitVal
  congr 1
  funext n c
  rw [Nat.mul_comm]

theorem all_isDigit (ds : Bytes) : ds.all isDigit = true ↔ AllDigits ds := by
  rw [List.all_eq_true]
  simp only [isDigit_iff, AllDigits]

theorem setDigits_iff (neg : Bool) (ds : Bytes) (i : Int) : setDigits neg ds = some i ↔
    ds ≠ [] ∧ AllDigits ds ∧ i = (if neg then -(decValue ds : Int) else decValue ds) := by
  unfold setDigits
  rw [foldl_decAcc, ← decValue_eq]
  by_cases h : ds = [] ∨ ¬ ds.all isDigit = true
  · rw [if_pos h]
    rw [all_isDigit] at h
    constructor
    · intro hh; cases hh
    · rintro ⟨h1, h2, _⟩; rcases h with h | h <;> contradiction
  · rw [if_neg h]
    rw [all_isDigit] at h
    have h1 : ds ≠ [] := fun hh => h (Or.inl hh)
    have h2 : AllDigits ds := Decidable.byContradiction fun hh => h (Or.inr hh)
    simp only [Option.some.injEq, h1, h2, ne_eq, not_false_eq_true, true_and]
    exact eq_comm

theorem splitSign_other (c : UInt8) (t : Bytes) (h1 : c ≠ 43) (h2 : c ≠ 45) : splitSign (c :: t) = (false, c :: t) := by
  unfold splitSign
  split
  · rename_i h; simp only [List.cons.injEq] at h; exact absurd h.1 h1
  · rename_i h; simp only [List.cons.injEq] at h; exact absurd h.1 h2
  · rfl

theorem setString_iff (s : Bytes) (i : Int) : setString s = some i ↔ DecimalText s i := by
  unfold setString DecimalText
  match s with
  | [] =>
    simp [splitSign, setDigits]
  | c :: t =>
    by_cases h43 : c = 43
    · subst h43
      rw [show splitSign (43 :: t) = (false, t) from rfl, setDigits_iff]
      constructor
      · rintro ⟨h1, h2, h3⟩
        exact ⟨[43], t, rfl, h1, h2, Or.inl ⟨Or.inr rfl, h3⟩⟩
      · rintro ⟨sign, ds, h1, h2, h3, h4⟩
        rcases h4 with ⟨h4 | h4, h5⟩ | ⟨h4, h5⟩
        · subst h4; simp at h1; subst h1
          rw [AllDigits.cons] at h3; exact absurd h3.1 (by decide)
        · subst h4; simp at h1; subst h1; exact ⟨h2, h3, h5⟩
        · subst h4; simp at h1
    · by_cases h45 : c = 45
      · subst h45
        rw [show splitSign (45 :: t) = (true, t) from rfl, setDigits_iff]
        constructor
        · rintro ⟨h1, h2, h3⟩
          exact ⟨[45], t, rfl, h1, h2, Or.inr ⟨rfl, h3⟩⟩
        · rintro ⟨sign, ds, h1, h2, h3, h4⟩
          rcases h4 with ⟨h4 | h4, h5⟩ | ⟨h4, h5⟩
          · subst h4; simp at h1; subst h1
            rw [AllDigits.cons] at h3; exact absurd h3.1 (by decide)
          · subst h4; simp at h1
          · subst h4; simp at h1; subst h1; exact ⟨h2, h3, h5⟩
      · rw [splitSign_other c t h43 h45, setDigits_iff]
        constructor
        · rintro ⟨h1, h2, h3⟩
          exact ⟨[], c :: t, rfl, h1, h2, Or.inl ⟨Or.inl rfl, h3⟩⟩
        · rintro ⟨sign, ds, h1, h2, h3, h4⟩
          rcases h4 with ⟨h4 | h4, h5⟩ | ⟨h4, h5⟩
          · subst h4; simp at h1; subst h1; exact ⟨h2, h3, h5⟩
          · subst h4; simp at h1; exact absurd h1.1 h43
          · subst h4; simp at h1; exact absurd h1.1 h45

theorem fmtInt_text (i : Int) : DecimalText (fmtInt i) i := by
  obtain ⟨h1, h2, h3, _⟩ := fmtNat_spec i.natAbs
  unfold fmtInt
  split
  · exact ⟨[45], fmtNat i.natAbs, rfl, h3, h1, Or.inr ⟨rfl, by rw [decValue_eq, h2]; omega⟩⟩
  · exact ⟨[], fmtNat i.natAbs, rfl, h3, h1, Or.inl ⟨Or.inl rfl, by rw [decValue_eq, h2]; omega⟩⟩

/-! ### Binary -/

theorem u128_unmarshal_reads (u old : U128) : (U128.unmarshal old).Reads u.bytesLE u :=
  (readUint64_reads u.lo).bind ((readUint64_reads u.hi).last rfl)

theorem u128_unmarshal_strict (s : Bool) (old : U128) : (U128.unmarshal old).Strict s := by
  intro P h
  strict_try (readUint64_strict s P h)
  strict_try (readUint64_strict s P h)
  trivial

theorem bytesLE_nat (u : U128) : leNat u.bytesLE = u.natVal := by
  have h1 := u.hi.toNat_lt
  have h2 := u.lo.toNat_lt
  rw [U128.bytesLE, leNat_append, leNat_leBytes8 _ h1, leNat_leBytes8 _ h2, length_leBytes, U128.natVal, pow256_8]
  omega

theorem readBytes_try_reads {α : Type} (n : Nat) (hn : n ≤ maxAlloc) (f : Nat × Bytes × Option Err → Dec (α × Option Err)) (b b2 : Bytes) (a : α)
    (hb : b.length = n) (h : (f (n, b, none)).Reads b2 a) : (readBytes n >>= f).Reads (b ++ b2) a := by
  intro fin rest
  rw [Dec.runE_bind, List.append_assoc, readBytes_reads fin n hn b _ hb, Out.bind_ok, hb, h fin]

theorem float128_unmarshal_reads (f old : Bytes) (hf : f.length = 16) (ho : old.length = 16) : (Float128.unmarshal old).Reads f f := by
  have := readBytes_try_reads 16 (by decide) (fun (x : Nat × Bytes × Option Err) => match x with
    | (_, b, err) => match err with
      | some e => pure (old, some e)
      | none => pure (b.take 16 ++ old.drop b.length, none)) f [] f hf (by
        show (Pure.pure _ : Dec _).Reads [] f
        rw [List.take_of_length_le (by omega), List.drop_eq_nil_of_le (by omega), List.append_nil]
        exact Dec.Reads.pure f)
  rw [List.append_nil] at this
  exact this

theorem float128_unmarshal_strict (s : Bool) (old : Bytes) : (Float128.unmarshal old).Strict s := by
  intro P h
  apply readBytes_bind_strict
  · rintro ⟨a, b, _ | e⟩ <;> trivial
  · intro a b e h; exact h

theorem uint64_unmarshal_strict (s : Bool) (old : UInt64) : (Uint64.unmarshal old).Strict s := by
  intro P h; strict_try (readUint64_strict s P h); trivial
theorem blockNum_unmarshal_strict (s : Bool) (old : UInt32) : (BlockNum.unmarshal old).Strict s := by
  intro P h; strict_try (readUint32_strict s P h); trivial

/-! ### Hex -/

theorem hex_digit_spec : ∀ n, n < 16 → fromHexChar (hexDigit n) = some n := by decide +kernel

theorem hexDecode_encode (b : Bytes) : hexDecode (hexEncode b) = (b, none) := by
  induction b with
  | nil => rfl
  | cons x b ih =>
    have h1 := x.toNat_lt
    simp only [hexEncode, hexDecode, hex_digit_spec (x.toNat / 16) (by omega), hex_digit_spec (x.toNat % 16) (by omega), ih]
    have : (x.toNat / 16 * 16 + x.toNat % 16).toUInt8 = x := by
      rw [Nat.div_add_mod']; simp
    rw [this]

theorem hexEncode_length (b : Bytes) : (hexEncode b).length = 2 * b.length := by
  induction b with
  | nil => rfl
  | cons x b ih => simp only [hexEncode, List.length_cons, ih]; omega

/-! ### JSON numbers -/

theorem readUintJSON_digits (s : Bytes) (h : AllDigits s) : readUintJSON s = parseUint 64 s := by
  unfold readUintJSON
  rw [if_neg]
  rintro ⟨_, h2, _⟩
  cases s with
  | nil => simp at h2
  | cons c s =>
    rw [AllDigits.cons] at h
    simp at h2
    rw [h2] at h
    exact absurd h.1 (by decide)

theorem readUintJSON_quoted (s : Bytes) : readUintJSON (34 :: (s ++ [34])) = parseUint 64 s := by
  unfold readUintJSON
  rw [if_pos]
  · simp
  · simp [List.getLast?_cons]

end Verif
