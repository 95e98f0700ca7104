import Verif.Lemmas.Numbers
/-! # C21–C24: 128-bit integers, JSON numbers, binary forms -/
namespace Verif

/-- C21. BigInt is Hi*2^64+Lo (`natVal`), so it lies in [0, 2^128). -/
theorem C21_bigInt (u : U128) : u.bigUint = u.natVal ∧ u.natVal < 2 ^ 128 := ⟨bigUint_eq u, natVal_lt u⟩

/-- C21. NewUint128 inverts BigInt and panics exactly above 128 bits. -/
theorem C21_newUint128 (u : U128) : newUint128 u.bigUint = .val u := by
  have hlt := natVal_lt u
  obtain ⟨v, h1, h2⟩ := newUint128_ok u.bigUint (by rw [bigUint_eq]; omega)
  rw [bigUint_eq] at h2
  rw [h1, natVal_inj v u (by omega)]

/-- C21. For each natural number below 2^128, NewUint128 is exact. -/
theorem C21_newUint128_value (i : Int) (h0 : 0 ≤ i) (h : i < 2 ^ 128) : ∃ u, newUint128 i = .val u ∧ u.bigUint = i := by
  obtain ⟨u, h1, h2⟩ := newUint128_ok i (by omega)
  exact ⟨u, h1, by rw [bigUint_eq]; omega⟩

theorem C21_newUint128_panics (i : Int) : (∃ w, newUint128 i = .panic w) ↔ 2 ^ 128 ≤ i.natAbs := by
  unfold newUint128
  by_cases h : i.natAbs ≥ 2 ^ 128
  · simp only [h, if_true]; simp
  · simp only [h, if_false]; simp

/-- C21. NewUint128FromString accepts exactly decimal texts of numbers in [0, 2^128) and returns that number. -/
theorem C21_fromString_iff (s : Bytes) (u : U128) :
    newUint128FromString s = (u, none) ↔ DecimalText s u.natVal := by
  have hlt := natVal_lt u
  constructor
  · intro h
    unfold newUint128FromString at h
    split at h
    · simp at h
    · rename_i i hi
      rw [setString_iff] at hi
      split at h
      · simp at h
      · rename_i hc
        have hb : bitLen i ≤ 128 := Nat.le_of_not_lt fun hh => hc (Or.inl hh)
        have hn : 0 ≤ i := Int.not_lt.mp fun hh => hc (Or.inr hh)
        rw [bitLen_le_iff] at hb
        obtain ⟨v, h1, h2⟩ := newUint128_ok i hb
        rw [h1] at h
        simp at h
        subst h
        rw [show ((v.natVal : Nat) : Int) = i by omega]
        exact hi
  · intro h
    rw [← setString_iff] at h
    have hb : bitLen (u.natVal : Int) ≤ 128 := by rw [bitLen_le_iff]; omega
    obtain ⟨v, h1, h2⟩ := newUint128_ok (u.natVal : Int) (by omega)
    have hc : ¬(bitLen (u.natVal : Int) > 128 ∨ (u.natVal : Int) < 0) := by omega
    simp only [newUint128FromString, h, hc, if_false, h1]
    rw [natVal_inj v u (by omega)]

/-- C21. Everything else is an error and yields zero. -/
theorem C21_fromString_error (s : Bytes) (h : ¬∃ i : Int, DecimalText s i ∧ 0 ≤ i ∧ i < 2 ^ 128) :
    ∃ e, newUint128FromString s = (⟨0, 0⟩, some e) := by
  unfold newUint128FromString
  split
  · exact ⟨_, rfl⟩
  · rename_i i hi
    split
    · exact ⟨_, rfl⟩
    · rename_i hc
      exfalso
      apply h
      have hb : bitLen i ≤ 128 := Nat.le_of_not_lt fun hh => hc (Or.inl hh)
      have hn : 0 ≤ i := Int.not_lt.mp fun hh => hc (Or.inr hh)
      rw [bitLen_le_iff] at hb
      exact ⟨i, (setString_iff s i).mp hi, hn, by omega⟩

/-- C21. String/NewUint128FromString round-trip; String is the decimal text. -/
theorem C21_string_roundtrip (u : U128) : DecimalText u.uString u.natVal ∧ newUint128FromString u.uString = (u, none) ∧
    Uint128.unmarshalText u.uString = (u, none) := by
  have h : DecimalText u.uString u.natVal := by
    have := fmtInt_text u.bigUint
    rw [bigUint_eq] at this
    rw [U128.uString, bigUint_eq]
    exact this
  exact ⟨h, (C21_fromString_iff _ _).mpr h, (C21_fromString_iff _ _).mpr h⟩

example : U128.uString ⟨1, 1⟩ = asc "18446744073709551617" ∧ newUint128FromString (asc "18446744073709551617") = (⟨1, 1⟩, none) ∧
    (newUint128FromString (asc "-1")).2 ≠ none ∧ (newUint128FromString (asc "340282366920938463463374607431768211456")).2 ≠ none := by
  decide +kernel

/-- C22. BigInt of an Int128 is its two's complement value. -/
theorem C22_bigInt (u : U128) : u.bigInt = u.intVal ∧ -2 ^ 127 ≤ u.bigInt ∧ u.bigInt < 2 ^ 127 := by
  have := natVal_lt u
  refine ⟨bigInt_eq u, ?_, ?_⟩ <;> · rw [bigInt_eq]; unfold U128.intVal; split <;> omega

/-- C22, everywhere but at -2^127 (see `C22_violated`): NewInt128 is exact. -/
theorem C22_newInt128_partial (i : Int) (h1 : -2 ^ 127 < i) (h2 : i < 2 ^ 127) : ∃ u, newInt128 i = .val u ∧ u.bigInt = i := by
  rcases Int.lt_trichotomy i 0 with h | h | h
  · obtain ⟨u, a, b⟩ := newInt128_neg i h h1
    refine ⟨u, a, ?_⟩
    rw [bigInt_eq]; unfold U128.intVal; split <;> omega
  · subst h; exact ⟨⟨0, 0⟩, by decide +kernel, by decide +kernel⟩
  · obtain ⟨u, a, b⟩ := newInt128_pos i h (by omega)
    refine ⟨u, a, ?_⟩
    rw [bigInt_eq]; unfold U128.intVal; split <;> omega

/-- C22, everywhere but at -2^127: the text round-trips. -/
theorem C22_string_roundtrip_partial (u : U128) (h : u.bigInt ≠ -2 ^ 127) : newInt128FromString u.iString = (u, none) ∧
    DecimalText u.iString u.bigInt ∧ Int128.unmarshalText u.iString = (u, none) := by
  obtain ⟨_, h1, h2⟩ := C22_bigInt u
  have ht : DecimalText u.iString u.bigInt := fmtInt_text u.bigInt
  have hs := (setString_iff _ _).mpr ht
  obtain ⟨v, a, b⟩ := C22_newInt128_partial u.bigInt (by omega) h2
  have hv : v = u := intVal_inj v u (by rw [← bigInt_eq, ← bigInt_eq, b])
  have hb : ¬ bitLen u.bigInt > 128 := by
    have : bitLen u.bigInt ≤ 128 := by rw [bitLen_le_iff]; omega
    omega
  have hr : newInt128FromString u.iString = (u, none) := by simp only [newInt128FromString, hs, hb, if_false, a, hv]
  exact ⟨hr, ht, hr⟩

/-- C22 is violated at -2^127: the smallest Int128 is printed correctly but read back as another number. -/
theorem C22_violated : ∃ u : U128, u.bigInt = -2 ^ 127 ∧ u.iString = asc "-170141183460469231731687303715884105728" ∧
    newInt128 u.bigInt = .val ⟨0, 0xFF80000000000000⟩ ∧ newInt128FromString u.iString = (⟨0, 0xFF80000000000000⟩, none) ∧
    (⟨0, 0xFF80000000000000⟩ : U128) ≠ u :=
  ⟨⟨0, 0x8000000000000000⟩, by decide +kernel, by decide +kernel, by decide +kernel, by decide +kernel, by decide +kernel⟩

/-- C22, finding: positive numbers in [2^127, 2^128) are accepted and become negative. -/
theorem C22_wraps (i : Int) (h1 : 2 ^ 127 ≤ i) (h2 : i < 2 ^ 128) : ∃ u, newInt128 i = .val u ∧ u.bigInt = i - 2 ^ 128 := by
  obtain ⟨u, a, b⟩ := newInt128_pos i (by omega) h2
  refine ⟨u, a, ?_⟩
  rw [bigInt_eq]; unfold U128.intVal; split <;> omega

/-- C22. NewInt128 panics exactly above 128 bits. -/
theorem C22_panics (i : Int) : (∃ w, newInt128 i = .panic w) ↔ 2 ^ 128 ≤ i.natAbs := by
  rw [← Nat.not_lt, ← bitLen_le_iff]
  unfold newInt128
  by_cases h : bitLen i > 128
  · simp only [h, if_true]; simp; omega
  · simp only [h, if_false]
    constructor
    · rintro ⟨w, hw⟩
      split at hw
      · simp at hw
      · split at hw <;> simp at hw
    · intro hh; omega

/-- The number an Int128 made of i has: i itself where it can be represented, except for the smallest; from there down the last byte is lost, and numbers of 128 bits wrap around. -/
def int128Of (i : Int) : Int := if i ≤ -2 ^ 127 then i / 256 else if 2 ^ 127 ≤ i then i - 2 ^ 128 else i

/-- C22, finding: what NewInt128 makes of every number it does not panic on. -/
theorem C22_newInt128_all (i : Int) (h : i.natAbs < 2 ^ 128) : ∃ u, newInt128 i = .val u ∧ u.bigInt = int128Of i := by
  unfold int128Of
  by_cases h1 : i ≤ -2 ^ 127
  · rw [if_pos h1]
    obtain ⟨u, a, b⟩ := newInt128_low i h1 (by omega)
    refine ⟨u, a, ?_⟩
    rw [bigInt_eq]; unfold U128.intVal; split <;> omega
  rw [if_neg h1]
  by_cases h2 : 2 ^ 127 ≤ i
  · rw [if_pos h2]; exact C22_wraps i h2 (by omega)
  · rw [if_neg h2]; exact C22_newInt128_partial i (by omega) (by omega)

/-- C22. NewInt128FromString and UnmarshalText take exactly the decimal texts of numbers below 2^128 in absolute value. -/
theorem C22_fromString_iff (s : Bytes) (u : U128) :
    (newInt128FromString s = (u, none) ↔ ∃ i, DecimalText s i ∧ i.natAbs < 2 ^ 128 ∧ u.bigInt = int128Of i) ∧
    (Int128.unmarshalText s = (u, none) ↔ ∃ i, DecimalText s i ∧ i.natAbs < 2 ^ 128 ∧ u.bigInt = int128Of i) := by
  have key : newInt128FromString s = (u, none) ↔ ∃ i, DecimalText s i ∧ i.natAbs < 2 ^ 128 ∧ u.bigInt = int128Of i := by
    constructor
    · intro h
      unfold newInt128FromString at h
      split at h
      · cases h
      rename_i i hi
      split at h
      · cases h
      rename_i hb
      have hb : i.natAbs < 2 ^ 128 := (bitLen_le_iff i 128).1 (by omega)
      obtain ⟨v, a, b⟩ := C22_newInt128_all i hb
      rw [a] at h
      injection h with h _
      subst h
      exact ⟨i, (setString_iff _ _).1 hi, hb, b⟩
    · rintro ⟨i, ht, hb, hv⟩
      obtain ⟨v, a, b⟩ := C22_newInt128_all i hb
      have hl := (bitLen_le_iff i 128).2 hb
      have e : v = u := intVal_inj v u (by rw [← bigInt_eq, ← bigInt_eq, b, hv])
      simp only [newInt128FromString, (setString_iff _ _).2 ht, a, e]
      rw [if_neg (by omega)]
  exact ⟨key, key⟩

/-- C22. Any other text is an error and leaves zero behind. -/
theorem C22_fromString_error (s : Bytes) (h : ∀ i, DecimalText s i → 2 ^ 128 ≤ i.natAbs) :
    (∃ e, newInt128FromString s = (⟨0, 0⟩, some e)) ∧ ∃ e, Int128.unmarshalText s = (⟨0, 0⟩, some e) := by
  have key : ∃ e, newInt128FromString s = (⟨0, 0⟩, some e) := by
    unfold newInt128FromString
    split
    · exact ⟨_, rfl⟩
    rename_i i hi
    split
    · exact ⟨_, rfl⟩
    rename_i hb
    have := h i ((setString_iff _ _).1 hi)
    have := (bitLen_le_iff i 128).1 (by omega)
    omega
  exact ⟨key, key⟩

example : int128Of (-2 ^ 127) = -2 ^ 119 ∧ int128Of (2 ^ 128 - 1) = -1 ∧ int128Of (-2 ^ 127 + 1) = -2 ^ 127 + 1 ∧
    newInt128FromString (asc "+340282366920938463463374607431768211455") = (⟨0xFFFFFFFFFFFFFFFF, 0xFFFFFFFFFFFFFFFF⟩, none) ∧
    (newInt128FromString (asc "340282366920938463463374607431768211456")).2 ≠ none ∧ (newInt128FromString (asc "1_0")).2 ≠ none := by decide +kernel

example : newInt128 (-5) = .val ⟨0xFFFFFFFFFFFFFFFB, 0xFFFFFFFFFFFFFFFF⟩ ∧ newInt128FromString (asc "-5") = (⟨0xFFFFFFFFFFFFFFFB, 0xFFFFFFFFFFFFFFFF⟩, none) := by
  decide +kernel

/-- C23. MarshalJSON prints the decimal number, quoted exactly when it exceeds 2^32-1. -/
theorem C23_marshal (v : UInt64) : ∃ ds, AllDigits ds ∧ ds ≠ [] ∧ decValue ds = v.toNat ∧ (1 < ds.length → ds.head? ≠ some 48) ∧
    (v.toNat ≤ 2 ^ 32 - 1 → writeUintJSON v = ds) ∧ (2 ^ 32 - 1 < v.toNat → writeUintJSON v = [34] ++ ds ++ [34]) := by
  obtain ⟨h1, h2, h3, h4⟩ := fmtNat_spec v.toNat
  refine ⟨fmtNat v.toNat, h1, h3, h2, ?_, ?_, ?_⟩
  · intro hl
    apply h4
    intro h0
    rw [h0] at hl
    exact absurd hl (by decide)
  · intro h; unfold writeUintJSON; rw [if_neg (by omega)]
  · intro h; unfold writeUintJSON; rw [if_pos (by omega)]

/-- C23. UnmarshalJSON of Uint64 inverts MarshalJSON. -/
theorem C23_uint64_roundtrip (v old : UInt64) : Uint64.unmarshalJSON old (writeUintJSON v) = (v, none) := by
  have hp : parseUint 64 (fmtNat v.toNat) = (v.toNat, none) := parseUint_fmtNat 64 _ v.toNat_lt
  have : readUintJSON (writeUintJSON v) = (v.toNat, none) := by
    unfold writeUintJSON
    split
    · rw [show ([34] ++ fmtNat v.toNat ++ [34] : Bytes) = 34 :: (fmtNat v.toNat ++ [34]) by simp, readUintJSON_quoted, hp]
    · rw [readUintJSON_digits _ (fmtNat_spec _).1, hp]
  simp [Uint64.unmarshalJSON, this]

/-- C23. Both quoted and unquoted forms are accepted, for every digit string in range. -/
theorem C23_accepts (ds : Bytes) (old : UInt64) (h : AllDigits ds) (h0 : ds ≠ []) (hr : decValue ds < 2 ^ 64) :
    Uint64.unmarshalJSON old ds = ((decValue ds).toUInt64, none) ∧
    Uint64.unmarshalJSON old ([34] ++ ds ++ [34]) = ((decValue ds).toUInt64, none) := by
  have hp : parseUint 64 ds = (decValue ds, none) := (parseUint_iff 64 ds _).mpr ⟨h0, h, hr, rfl⟩
  rw [show ([34] ++ ds ++ [34] : Bytes) = 34 :: (ds ++ [34]) by simp]
  simp [Uint64.unmarshalJSON, readUintJSON_quoted, readUintJSON_digits ds h, hp]

/-- C23. Only digit strings below 2^64, quoted or not, are accepted, and the destination keeps its value on error. -/
theorem C23_uint64_exact (b : Bytes) (old v : UInt64) :
    (Uint64.unmarshalJSON old b = (v, none) → ∃ ds, (b = ds ∨ b = [34] ++ ds ++ [34]) ∧ AllDigits ds ∧ ds ≠ [] ∧ decValue ds = v.toNat) ∧
    (∀ e, (Uint64.unmarshalJSON old b).2 = some e → (Uint64.unmarshalJSON old b).1 = old) := by
  constructor
  · intro h
    unfold Uint64.unmarshalJSON at h
    split at h
    · rename_i n hn
      simp at h
      subst h
      unfold readUintJSON at hn
      split at hn
      · rename_i hq
        rw [parseUint_iff] at hn
        obtain ⟨h1, h2, h3, h4⟩ := hn
        refine ⟨(b.drop 1).dropLast, Or.inr ?_, h2, h1, ?_⟩
        · obtain ⟨q1, q2, q3⟩ := hq
          cases b with
          | nil => simp at q1
          | cons c t =>
            simp at q2
            subst q2
            have ht : t ≠ [] := by rintro rfl; simp at q1
            rw [List.getLast?_cons, Option.some.injEq] at q3
            have : t.getLast ht = 34 := by
              rw [← q3, List.getLast?_eq_some_getLast ht]; rfl
            simp only [List.drop_succ_cons, List.drop_zero, List.cons_append, List.nil_append, List.cons.injEq, true_and]
            conv => lhs; rw [← List.dropLast_concat_getLast ht, this]
        · rw [← h4]; simp only [UInt64.toNat_ofNat', Nat.toUInt64]; omega
      · rw [parseUint_iff] at hn
        obtain ⟨h1, h2, h3, h4⟩ := hn
        exact ⟨b, Or.inl rfl, h2, h1, by rw [h4]; simp; omega⟩
    · simp at h
  · intro e he
    unfold Uint64.unmarshalJSON at he ⊢
    split
    · rename_i h; rw [h] at he; simp at he
    · rfl

/-- Decimal digits, bare or in quotes, of the number n -/
def NumberJSON (b : Bytes) (n : Nat) : Prop := ∃ ds, (b = ds ∨ b = [34] ++ ds ++ [34]) ∧ AllDigits ds ∧ ds ≠ [] ∧ decValue ds = n

/-- C23. UnmarshalJSON of Uint64 and BlockNum: accepted are exactly digits, bare or in quotes, of a number that fits; anything else is an error and leaves the destination as it was. -/
theorem C23_unmarshal_iff (b : Bytes) (old v : UInt64) (bold w : UInt32) :
    (Uint64.unmarshalJSON old b = (v, none) ↔ NumberJSON b v.toNat) ∧ (BlockNum.unmarshalJSON bold b = (w, none) ↔ NumberJSON b w.toNat) ∧
    ((∀ n, NumberJSON b n → 2 ^ 64 ≤ n) → ∃ e, Uint64.unmarshalJSON old b = (old, some e)) ∧
    ((∀ n, NumberJSON b n → 2 ^ 32 ≤ n) → ∃ e, BlockNum.unmarshalJSON bold b = (bold, some e)) := by
  have vlt := v.toNat_lt
  have wlt := w.toNat_lt
  have one : Uint64.unmarshalJSON old b = (v, none) ↔ NumberJSON b v.toNat := by
    refine ⟨(C23_uint64_exact b old v).1, ?_⟩
    rintro ⟨ds, hb, hd, h0, hv⟩
    have := C23_accepts ds old hd h0 (by omega)
    rcases hb with rfl | rfl
    · rw [this.1, hv]; simp
    · rw [this.2, hv]; simp
  have two : BlockNum.unmarshalJSON bold b = (w, none) ↔ NumberJSON b w.toNat := by
    constructor
    · intro h
      unfold BlockNum.unmarshalJSON at h
      rcases hr : readUintJSON b with ⟨x, e⟩
      rw [hr] at h
      dsimp only at h
      split at h
      · cases h
      rename_i hx
      cases e with
      | some e => cases h
      | none =>
        injection h with h _
        subst h
        have hu : Uint64.unmarshalJSON 0 b = (x.toUInt64, none) := by rw [Uint64.unmarshalJSON, hr]
        have := (C23_uint64_exact b 0 x.toUInt64).1 hu
        have e1 : x.toUInt64.toNat = x := by simp; omega
        have e2 : x.toUInt32.toNat = x := by simp; omega
        rw [e2]; rw [e1] at this; exact this
    · rintro ⟨ds, hb, hd, h0, hv⟩
      have hp : parseUint 64 ds = (decValue ds, none) := (parseUint_iff 64 ds _).mpr ⟨h0, hd, by omega, rfl⟩
      have hr : readUintJSON b = (w.toNat, none) := by
        rcases hb with rfl | rfl
        · rw [readUintJSON_digits _ hd, hp, hv]
        · rw [show ([34] ++ ds ++ [34] : Bytes) = 34 :: (ds ++ [34]) by simp, readUintJSON_quoted, hp, hv]
      rw [BlockNum.unmarshalJSON, hr]
      dsimp only
      rw [if_neg (by omega)]
      simp
  refine ⟨one, two, fun h => ?_, fun h => ?_⟩
  · rcases hq : Uint64.unmarshalJSON old b with ⟨x, e⟩
    cases e with
    | none =>
      have := h _ ((C23_uint64_exact b old x).1 hq)
      have := x.toNat_lt
      omega
    | some e =>
      have := (C23_uint64_exact b old x).2 e (by rw [hq])
      rw [hq] at this
      exact ⟨e, by rw [show x = old from this]⟩
  · rcases hq : readUintJSON b with ⟨x, e⟩
    rw [BlockNum.unmarshalJSON, hq]
    dsimp only
    split
    · exact ⟨_, rfl⟩
    rename_i hx
    cases e with
    | some e => exact ⟨e, rfl⟩
    | none =>
      have hu : Uint64.unmarshalJSON 0 b = (x.toUInt64, none) := by rw [Uint64.unmarshalJSON, hq]
      have := h _ ((C23_uint64_exact b 0 x.toUInt64).1 hu)
      have e1 : x.toUInt64.toNat = x := by simp; omega
      omega
example : NumberJSON (asc "\"007\"") 7 ∧ BlockNum.unmarshalJSON 9 (asc "\"007\"") = (7, none) ∧ BlockNum.unmarshalJSON 9 (asc "\"\"") = (9, (BlockNum.unmarshalJSON 9 (asc "\"\"")).2) ∧
    (BlockNum.unmarshalJSON 9 (asc "7 ")).2 ≠ none := ⟨⟨asc "007", .inr rfl, by unfold AllDigits; decide, by decide, by decide⟩, by decide +kernel, by decide +kernel, by decide +kernel⟩

/-- C23. BlockNum: round-trip through JSON. -/
theorem C23_blockNum_roundtrip (v old : UInt32) : BlockNum.unmarshalJSON old (writeUintJSON v.toUInt64) = (v, none) := by
  have hv : v.toUInt64.toNat = v.toNat := by simp
  have hlt := v.toNat_lt
  have : readUintJSON (writeUintJSON v.toUInt64) = (v.toNat, none) := by
    unfold writeUintJSON
    rw [hv, if_neg (by omega), readUintJSON_digits _ (fmtNat_spec _).1]
    exact parseUint_fmtNat 64 _ (by omega)
  simp only [BlockNum.unmarshalJSON, this]
  rw [if_neg (by omega)]
  simp

/-- C23. BlockNum rejects every digit string above 2^32-1, quoted or not, however long, and keeps the destination. -/
theorem C23_blockNum_rejects (ds : Bytes) (old : UInt32) (h : AllDigits ds) (hr : 2 ^ 32 ≤ decValue ds) :
    (∃ e, BlockNum.unmarshalJSON old ds = (old, some e)) ∧ (∃ e, BlockNum.unmarshalJSON old ([34] ++ ds ++ [34]) = (old, some e)) := by
  have h0 : ds ≠ [] := by rintro rfl; simp [decValue] at hr
  have hp := parseUint_digits 64 ds h h0
  have hbig : 2 ^ 32 - 1 < (parseUint 64 ds).1 := by rw [hp]; split <;> simp <;> omega
  rcases hq : parseUint 64 ds with ⟨v, e⟩
  rw [hq] at hbig
  simp only at hbig
  rw [show ([34] ++ ds ++ [34] : Bytes) = 34 :: (ds ++ [34]) by simp]
  have hb : v > 4294967295 := by omega
  constructor <;>
  · simp only [BlockNum.unmarshalJSON, readUintJSON_quoted, readUintJSON_digits ds h, hq]
    rw [if_pos (by omega)]
    exact ⟨_, rfl⟩

example : writeUintJSON 4294967295 = asc "4294967295" ∧ writeUintJSON 4294967296 = asc "\"4294967296\"" ∧
    Uint64.unmarshalJSON 0 (asc "\"12\"") = (12, none) ∧ (BlockNum.unmarshalJSON 0 (asc "4294967296")).2 ≠ none ∧
    (BlockNum.unmarshalJSON 0 (asc "99999999999999999999")).2 ≠ none := by decide +kernel

/-- C24. Uint128/Int128: 16 bytes little-endian, read back unchanged. -/
theorem C24_u128_binary (u old : U128) : ∃ bs, u.marshal.Writes bs ∧ bs.length = 16 ∧ leValue bs = u.natVal ∧ (U128.unmarshal old).Reads bs u :=
  ⟨u.bytesLE, writeBytes_writes _, by simp [U128.bytesLE, length_leBytes], by rw [leValue_eq_leNat, bytesLE_nat], u128_unmarshal_reads u old⟩

/-- C24. Float128: the 16 bytes themselves. -/
theorem C24_float128_binary (f old : Bytes) (hf : f.length = 16) (ho : old.length = 16) :
    (Float128.marshal f).Writes f ∧ (Float128.unmarshal old).Reads f f := ⟨writeBytes_writes _, float128_unmarshal_reads f old hf ho⟩

/-- C24. Float128 text: 32 hex digits, read back unchanged. -/
theorem C24_float128_text (f old : Bytes) (hf : f.length = 16) (ho : old.length = 16) :
    (Float128.marshalText f).length = 32 ∧ Float128.unmarshalText old (Float128.marshalText f) = (f, none) := by
  unfold Float128.marshalText Float128.unmarshalText
  rw [hexDecode_encode, hexEncode_length, hf]
  simp only [List.take_of_length_le (show f.length ≤ 16 by omega), hf, List.drop_eq_nil_of_le (show old.length ≤ 16 by omega), List.append_nil]
  exact ⟨trivial, trivial⟩

/-- C24, C08–C10 for these types. -/
theorem C24_strict (s : Bool) (old : U128) (b : Bytes) (v : UInt64) (w : UInt32) : (U128.unmarshal old).Strict s ∧
    (Float128.unmarshal b).Strict s ∧ (Uint64.unmarshal v).Strict s ∧ (BlockNum.unmarshal w).Strict s ∧ old.marshal.Strict ∧ (Float128.marshal b).Strict ∧
    (Uint64.marshal v).Strict ∧ (BlockNum.marshal w).Strict :=
  ⟨u128_unmarshal_strict s _, float128_unmarshal_strict s _, uint64_unmarshal_strict s _, blockNum_unmarshal_strict s _, writeBytes_strict _,
    writeBytes_strict _, writeUint64_strict _, writeUint32_strict _⟩

/-- C24. Uint64 and BlockNum: 8 and 4 bytes little-endian. -/
theorem C24_uint64_blockNum_binary (v vold : UInt64) (n nold : UInt32) :
    (∃ bs, (Uint64.marshal v).Writes bs ∧ bs.length = 8 ∧ leValue bs = v.toNat ∧ (Uint64.unmarshal vold).Reads bs v) ∧
    (∃ bs, (BlockNum.marshal n).Writes bs ∧ bs.length = 4 ∧ leValue bs = n.toNat ∧ (BlockNum.unmarshal nold).Reads bs n) :=
  ⟨⟨_, writeBytes_writes _, length_leBytes _ _, by rw [leValue_eq_leNat, leNat_leBytes8 _ v.toNat_lt], (readUint64_reads v).last rfl⟩,
   ⟨_, writeBytes_writes _, length_leBytes _ _, by rw [leValue_eq_leNat, leNat_leBytes4 _ n.toNat_lt], (readUint32_reads n).last rfl⟩⟩

example : (U128.marshal ⟨1, 2⟩).Writes [1, 0, 0, 0, 0, 0, 0, 0, 2, 0, 0, 0, 0, 0, 0, 0] := by decide +kernel

end Verif
