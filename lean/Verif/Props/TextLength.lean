import Verif.Lemmas.TextLength
/-! # C109: how long the texts are -/
namespace Verif

/-- Names, decimal numbers and hexadecimal text. -/
theorem C109_names (n : UInt64) : (Name.string n).length ≤ 13 := by
  have := C12_string_canonical n
  exact this.1

example : (Name.string 0xFFFFFFFFFFFFFFFF).length = 13 ∧ (Name.string 0).length = 0 := by decide +kernel

theorem C109_numbers (u : U128) : 1 ≤ u.uString.length ∧ u.uString.length ≤ 39 ∧ 1 ≤ u.iString.length ∧ u.iString.length ≤ 40 := by
  have pos : ∀ m, 1 ≤ (fmtNat m).length := fun m => List.length_pos_iff.mpr (fmtNat_spec m).2.2.1
  have hu : u.uString = fmtNat u.natVal := by unfold U128.uString; rw [bigUint_eq, fmtInt_nat]
  have hlt := natVal_lt u
  have l1 := fmtNat_length u.natVal 39 (by omega) (by decide)
  obtain ⟨-, b1, b2⟩ := C22_bigInt u
  have l2 := fmtNat_length u.bigInt.natAbs 39 (by omega) (by decide)
  have p1 := pos u.natVal
  have p2 := pos u.bigInt.natAbs
  have hi : u.iString.length = (if u.bigInt < 0 then 1 else 0) + (fmtNat u.bigInt.natAbs).length := by
    unfold U128.iString fmtInt
    split
    · simp; omega
    · simp
  rw [hu, hi]
  refine ⟨p1, l1, ?_, ?_⟩ <;> split <;> omega

example : U128.uString ⟨0xFFFFFFFFFFFFFFFF, 0xFFFFFFFFFFFFFFFF⟩ = asc "340282366920938463463374607431768211455" ∧
    (U128.uString ⟨0xFFFFFFFFFFFFFFFF, 0xFFFFFFFFFFFFFFFF⟩).length = 39 ∧ (U128.iString ⟨0x8000000000000000, 0⟩).length ≤ 40 := by decide +kernel

theorem C109_hex (b : Bytes) : (BytesT.marshalText b).length = 2 * b.length ∧ (Checksum.marshalText b).length = 2 * b.length :=
  ⟨(hexEncode_text b).length, (hexEncode_text b).length⟩

/-- Time stamps; for `TimePoint` in the years 0 to 9999. -/
theorem C109_times : (∀ t, (TimePointSec.string t).length = 19) ∧ (∀ b, (BlockTimestamp.string b).length = 23) ∧
    ∀ tp : Int64, -62167219200000000 ≤ tp.toInt → tp.toInt < 253402300800000000 → (TimePoint.string tp).length = 23 := by
  have st : ∀ s d n, StampText s d n → s.length = 19 := by
    rintro s d n ⟨Y, M, D, h, m, x, rfl, -, h1, h2, h3, h4, h5, h6⟩
    simp [h1.1, h2.1, h3.1, h4.1, h5.1, h6.1]
  have mi : ∀ ms s, UtcText true ms s → s.length = 23 := by
    rintro ms s ⟨d, x, f, -, h1, rfl, h2⟩
    rw [List.length_append, List.length_cons, st _ _ _ h1, h2.1]
  refine ⟨fun t => ?_, fun b => mi _ _ (C57_block_string b), fun tp h1 h2 => mi _ _ (C57_timePoint_string tp h1 h2)⟩
  obtain ⟨d, x, f, -, h1, e⟩ := C57_sec_string t
  rw [e]
  exact st _ _ _ h1

example : (TimePoint.string 253402300800000000).length = 24 := by decide +kernel

/-- Symbols: of every valid one, and of any 64 bits. -/
theorem C109_symbol (p : UInt8) (n : Bytes) (v : UInt64) (h : newSymbol p n = (v, none)) :
    (Symbol.string v).length = (if p.toNat < 10 then 1 else 2) + 1 + n.length ∧ (Symbol.string v).length ≤ 10 := by
  obtain ⟨h1, h2, h3⟩ := newSymbol_some h
  rw [symbolString_eq v p.toNat n (by omega) h2 h3]
  have hl : (fmtNat p.toNat).length = (if p.toNat < 10 then 1 else 2) := by
    have : ∀ k, k ≤ 18 → (fmtNat k).length = (if k < 10 then 1 else 2) := by decide +kernel
    exact this _ h1
  have := h2.1
  rw [List.length_append, List.length_cons, hl]
  split <;> omega

theorem C109_symbol_any (v : UInt64) : (Symbol.string v).length ≤ 18 := by
  unfold Symbol.string Symbol.name
  have h1 := symbolNameLoop_length 7 (v >>> 8)
  have h2 := fmtNat_length (Symbol.decimals v) 3 (by unfold Symbol.decimals; rw [UInt64.toNat_and]; have := Nat.and_le_right (n := v.toNat) (m := (0xFF : UInt64).toNat); have e : (0xFF : UInt64).toNat = 255 := rfl; omega) (by decide)
  simp only [List.length_append, List.length_cons, List.length_nil]
  omega

example : newSymbol 18 (asc "ABCDEFG") = (5135868584551137554, none) ∧ (Symbol.string 5135868584551137554).length = 10 := by decide +kernel

/-- Assets with a valid symbol, other than of the amount -2^63 (`C109_asset_violated`). -/
theorem C109_asset_partial (p : UInt8) (n : Bytes) (a : Asset) (h : newSymbol p n = (a.symbol, none)) (hv : a.value.toInt ≠ -2 ^ 63) :
    ∃ s, a.string = .val s ∧ s.length ≤ 22 + n.length ∧ s.length ≤ 29 := by
  obtain ⟨h1, h2, h3⟩ := newSymbol_some h
  obtain ⟨d1, d2, _, _⟩ := C16_accessors p n a.symbol h
  obtain ⟨ip, fp, e1, e2, e3, e4, e5, e6, e7⟩ := assetString_eq a (by omega) hv
  refine ⟨_, e1, ?_⟩
  have hb := int64_bounds a.value
  have hip : ip.length ≤ 19 - Symbol.decimals a.symbol := by
    rw [e6]
    refine fmtNat_length _ _ ?_ (by omega)
    rw [Nat.div_lt_iff_lt_mul (Nat.pow_pos (by decide)), ← Nat.pow_add, show 19 - Symbol.decimals a.symbol + Symbol.decimals a.symbol = 19 by omega]
    omega
  have := h2.1
  simp only [List.length_append, List.length_cons, d2]
  have c1 : (if decide (a.value.toInt < 0) then [45] else [] : Bytes).length ≤ 1 := by split <;> simp
  have c2 : (if decide (0 < Symbol.decimals a.symbol) then 46 :: fp else [] : Bytes).length ≤ 1 + Symbol.decimals a.symbol := by
    split
    · rw [List.length_cons, e4]; omega
    · simp
  omega

example : ∃ s, Asset.string ⟨-9223372036854775807, 5135868584551137554⟩ = .val s ∧ s.length = 29 := ⟨asc "-9.223372036854775807 ABCDEFG", by decide +kernel, by decide +kernel⟩

/-- The amount -2^63 gets two minus signs before and one after the point. -/
theorem C109_asset_violated : ∃ s, Asset.string ⟨Int64.minValue, 5135868584551137554⟩ = .val s ∧ 29 < s.length :=
  ⟨asc "--9.-223372036854775808 ABCDEFG", by decide +kernel, by decide +kernel⟩

/-- Base58: between one and 56/41 characters for a byte. -/
theorem C109_base58 (b : Bytes) : ∃ s, b58Encode b = .val s ∧ b.length ≤ s.length ∧ 41 * s.length < 56 * b.length + 41 := by
  obtain ⟨s, h1, h2⟩ := b58Encode_text b
  exact ⟨s, h1, base58_length h2⟩

example : ∃ s, b58Encode [255, 255] = .val s ∧ s.length = 3 := ⟨asc "LUv", by decide +kernel, rfl⟩

/-- Public keys of 33 bytes: at most 58 characters; 57 for a compressed point (first byte 2 or 3), and 50 after the prefix in the legacy form. -/
theorem C109_publicKey (sha : Sha256) (pk : PubKey) (ht : pk.type.toNat ≤ 2) (h : pk.data.length = 33) :
    ∃ s, pk.string = .val s ∧ s.length ≤ 58 ∧ (pk.data.head? = some 2 ∨ pk.data.head? = some 3 → s.length = 57 ∧
      (pk.type = 0 → ∀ pre, ∃ l, pk.legacyString sha pre = .val l ∧ l.length = pre.length + 50)) := by
  obtain ⟨n, hn⟩ := keyName_le _ ht
  obtain ⟨body, e, hb⟩ := C33_text pk n hn
  have hl := checked_length hb
  have nl := keyName_length hn
  have tl : (asc "PUB_" ++ n ++ asc "_" ++ body).length = 7 + body.length := by
    simp only [List.length_append, nl, show (asc "PUB_").length = 4 from rfl, show (asc "_").length = 1 from rfl]
  refine ⟨_, e, by rw [tl]; omega, fun h2 => ?_⟩
  obtain ⟨ty, data⟩ := pk
  cases data with
  | nil => simp at h2
  | cons c t =>
    simp only [List.head?_cons, Option.some.injEq] at h2
    have hc : 2 ≤ c.toNat ∧ c.toNat < 4 := by rcases h2 with rfl | rfl <;> decide
    simp only [List.length_cons] at h
    have two : ∀ x : Bytes, x.length = 4 → ∀ s, Base58Text s (c :: t ++ x) → s.length = 50 := by
      intro x hx s hs
      have hlen : (t ++ x).length = 36 := by rw [List.length_append, hx]; omega
      exact base58_exact (t := t ++ x) hs 49 2 4 hc.1 (by decide) hc.2 (by rw [hlen]; decide) (by rw [hlen]; decide)
    refine ⟨by rw [tl, two _ (digest_take_length _) body hb], fun h0 pre => ?_⟩
    obtain ⟨l, e1, e2⟩ := (C33_legacy_text sha ⟨ty, c :: t⟩ pre).1 h0
    exact ⟨_, e1, by rw [List.length_append, two _ (by simp [sha.len]) l e2]⟩

example : (⟨0, 2 :: List.replicate 32 7⟩ : PubKey).type.toNat ≤ 2 ∧ (⟨0, 2 :: List.replicate 32 7⟩ : PubKey).data.length = 33 ∧
    (⟨0, 2 :: List.replicate 32 7⟩ : PubKey).data.head? = some 2 := by decide

/-- Signatures of 65 bytes: at most 102 characters; 101 if the first byte is from 2 to 99, as in every signature of a K1 or R1 key (31 to 34). -/
theorem C109_signature (sg : Sig) (ht : sg.type.toNat ≤ 2) (h : sg.data.length = 65) :
    ∃ s, sg.string = .val s ∧ s.length ≤ 102 ∧ (∀ c, sg.data.head? = some c → 2 ≤ c.toNat → c.toNat < 100 → s.length = 101) := by
  obtain ⟨n, hn⟩ := keyName_le _ ht
  obtain ⟨body, e, hb⟩ := C34_text sg n hn
  have hl := checked_length hb
  have nl := keyName_length hn
  have tl : (asc "SIG_" ++ n ++ asc "_" ++ body).length = 7 + body.length := by
    simp only [List.length_append, nl, show (asc "SIG_").length = 4 from rfl, show (asc "_").length = 1 from rfl]
  refine ⟨_, e, by rw [tl]; omega, fun c hc c1 c2 => ?_⟩
  obtain ⟨ty, data⟩ := sg
  cases data with
  | nil => simp at hc
  | cons c' t =>
    simp only [List.head?_cons, Option.some.injEq] at hc
    subst hc
    simp only [List.length_cons] at h
    have hlen : (t ++ (RipemdSpec.digest (c' :: t ++ n)).take 4).length = 68 := by rw [List.length_append, digest_take_length]; omega
    rw [tl, base58_exact (t := t ++ (RipemdSpec.digest (c' :: t ++ n)).take 4) hb 93 2 100 c1 (by decide) c2 (by rw [hlen]; decide) (by rw [hlen]; decide)]

example : (⟨0, List.replicate 65 31⟩ : Sig).type.toNat ≤ 2 ∧ (⟨0, List.replicate 65 31⟩ : Sig).data.length = 65 := by decide

end Verif
