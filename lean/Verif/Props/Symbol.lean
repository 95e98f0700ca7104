import Verif.Lemmas.Numbers
import Verif.Lemmas.Symbol
/-! # C15–C20: symbols and assets -/
namespace Verif

/-- C16. NewSymbol succeeds exactly for precision at most 18 and at most seven letters A-Z, and the result is precision + 256 * name. -/
theorem C16_newSymbol_iff (p : UInt8) (n : Bytes) :
    (p.toNat ≤ 18 ∧ SymbolName n → ∃ v, newSymbol p n = (v, none) ∧ v.toNat = symbolBits p.toNat n) ∧
    (¬(p.toNat ≤ 18 ∧ SymbolName n) → ∃ e, newSymbol p n = (0, some e)) :=
  ⟨fun h => newSymbol_ok p n h.1 h.2, newSymbol_bad p n⟩

/-- A successful NewSymbol, unpacked. -/
theorem newSymbol_some {p : UInt8} {n : Bytes} {v : UInt64} (h : newSymbol p n = (v, none)) :
    p.toNat ≤ 18 ∧ SymbolName n ∧ v.toNat = symbolBits p.toNat n := by
  by_cases hc : p.toNat ≤ 18 ∧ SymbolName n
  · obtain ⟨w, h1, h2⟩ := newSymbol_ok p n hc.1 hc.2
    rw [h] at h1
    simp at h1
    subst h1
    exact ⟨hc.1, hc.2, h2⟩
  · obtain ⟨e, h1⟩ := newSymbol_bad p n hc
    rw [h] at h1
    simp at h1

/-- C16. The accessors invert NewSymbol. -/
theorem C16_accessors (p : UInt8) (n : Bytes) (v : UInt64) (h : newSymbol p n = (v, none)) :
    Symbol.decimals v = p.toNat ∧ Symbol.name v = n ∧ (Symbol.precision v).toInt = 10 ^ p.toNat ∧ (Symbol.code v).toNat = leValue n := by
  obtain ⟨h1, h2, h3⟩ := newSymbol_some h
  have hp := p.toNat_lt
  have hd := symbolBits_decimals v p.toNat n (by omega) h3
  refine ⟨hd, symbolBits_name v p.toNat n (by omega) h2 h3, ?_, symbolBits_code v p.toNat n (by omega) h3⟩
  rw [precision_eq v (by omega), hd]

/-- C16. Distinct precision/name pairs give distinct symbols. -/
theorem C16_injective (p q : UInt8) (n m : Bytes) (v : UInt64) (h1 : newSymbol p n = (v, none)) (h2 : newSymbol q m = (v, none)) :
    p = q ∧ n = m := by
  obtain ⟨a1, a2, _⟩ := C16_accessors p n v h1
  obtain ⟨b1, b2, _⟩ := C16_accessors q m v h2
  exact ⟨UInt8.toNat_inj.mp (by rw [← a1, b1]), by rw [← a2, b2]⟩

example : newSymbol 4 (asc "EOS") = (1397703940, none) ∧ Symbol.name 1397703940 = asc "EOS" ∧ Symbol.decimals 1397703940 = 4 ∧
    (newSymbol 19 (asc "EOS")).2 ≠ none ∧ (newSymbol 4 (asc "EOSEOSEO")).2 ≠ none ∧ (newSymbol 4 (asc "eos")).2 ≠ none := by decide +kernel

/-- C15. Symbol text. -/
theorem C15_symbol_text (p : UInt8) (n : Bytes) (v : UInt64) (h : newSymbol p n = (v, none)) :
    newSymbolFromString (Symbol.string v) = (v, none) := by
  obtain ⟨h1, h2, h3⟩ := newSymbol_some h
  exact symbol_text_roundtrip v p.toNat n h1 h2 h3

/-- C15. MarshalText/UnmarshalText of Symbol, whatever the destination held. -/
theorem C15_symbol_unmarshalText (p : UInt8) (n : Bytes) (v old : UInt64) (h : newSymbol p n = (v, none)) :
    Symbol.unmarshalText old (Symbol.marshalText v) = (v, none) := by
  unfold Symbol.unmarshalText Symbol.marshalText
  rw [C15_symbol_text p n v h]

/-- C15. The text of a symbol is the decimal precision, a comma and the name. -/
theorem C15_symbol_string (p : UInt8) (n : Bytes) (v : UInt64) (h : newSymbol p n = (v, none)) :
    ∃ d, Symbol.string v = d ++ 44 :: n ∧ AllDigits d ∧ decValue d = p.toNat := by
  obtain ⟨h1, h2, h3⟩ := newSymbol_some h
  exact ⟨fmtNat p.toNat, symbolString_eq v p.toNat n (by omega) h2 h3, (fmtNat_spec _).1, (fmtNat_spec _).2.1⟩

/-- C15. MarshalText/UnmarshalText of SymbolCode, for the code of every valid symbol. -/
theorem C15_symbolCode_text (p : UInt8) (n : Bytes) (v old : UInt64) (h : newSymbol p n = (v, none)) :
    SymbolCode.marshalText (Symbol.code v) = n ∧
    SymbolCode.unmarshalText old (SymbolCode.marshalText (Symbol.code v)) = (Symbol.code v, none) := by
  obtain ⟨h1, h2, h3⟩ := newSymbol_some h
  have hcode := symbolBits_code v p.toNat n (by have := p.toNat_lt; omega) h3
  have hlt : leValue n < 2 ^ 56 := by
    rw [leValue_eq_leNat]
    have := leNat_lt n
    have h7 : 256 ^ n.length ≤ 256 ^ 7 := Nat.pow_le_pow_right (by decide) h2.1
    have : (256 : Nat) ^ 7 = 2 ^ 56 := by decide
    omega
  have hsh : (Symbol.code v <<< 8).toNat = symbolBits 0 n := by
    rw [UInt64.toNat_shiftLeft, hcode, symbolBits]
    simp [Nat.shiftLeft_eq]
    omega
  have hname : SymbolCode.marshalText (Symbol.code v) = n := symbolBits_name _ 0 n (by decide) h2 hsh
  refine ⟨hname, ?_⟩
  rw [hname]
  obtain ⟨w, w1, w2⟩ := newSymbolFromString_ok [48] 0 n (by decide) (by decide) (by decide) h2
  unfold SymbolCode.unmarshalText
  rw [show ([48, 44] ++ n : Bytes) = [48] ++ 44 :: n from rfl, w1]
  have := symbolBits_code w 0 n (by decide) w2
  simp only [Prod.mk.injEq, and_true]
  apply UInt64.toNat_inj.mp
  rw [this, hcode]

example : Symbol.string 1397703940 = asc "4,EOS" ∧ newSymbolFromString (asc "4,EOS") = (1397703940, none) ∧
    SymbolCode.marshalText 5459781 = asc "EOS" := by decide +kernel

/-- C18. NewAssetFromString succeeds exactly on the documented grammar (`AssetText`), with the units and the number of decimals written. -/
theorem C18_newAsset_iff (s : Bytes) (a : Asset) :
    newAssetFromString s = (some a, none) ↔ ∃ d name, AssetText s a.value.toInt d name ∧ a.symbol.toNat = symbolBits d name :=
  newAsset_iff s a

/-- C18. Everything else is an error and no asset. -/
theorem C18_newAsset_error (s : Bytes) (h : ¬∃ v d name, AssetText s v d name) : ∃ e, newAssetFromString s = (none, some e) := by
  apply newAsset_error
  intro a ha
  rw [newAsset_iff] at ha
  obtain ⟨d, name, h1, _⟩ := ha
  exact h ⟨_, d, name, h1⟩

/-- C18. A returns what NewAssetFromString accepts and panics for everything else. -/
theorem C18_A (s : Bytes) : (∀ a, assetA s = .val a ↔ ∃ d name, AssetText s a.value.toInt d name ∧ a.symbol.toNat = symbolBits d name) ∧
    ((¬∃ v d name, AssetText s v d name) → ∃ w, assetA s = .panic w) := by
  constructor
  · intro a
    rw [← C18_newAsset_iff]
    unfold assetA
    constructor
    · intro h
      split at h
      · cases h; assumption
      · cases h
    · intro h; rw [h]
  · intro h
    obtain ⟨e, he⟩ := C18_newAsset_error s h
    exact ⟨_, by unfold assetA; rw [he]⟩

/-- C18. Each text of the grammar is accepted. -/
theorem C18_newAsset_accepts (s : Bytes) (v : Int) (d : Nat) (name : Bytes) (h : AssetText s v d name) :
    ∃ a, newAssetFromString s = (some a, none) ∧ a.value.toInt = v ∧ Symbol.decimals a.symbol = d ∧ Symbol.name a.symbol = name := by
  obtain ⟨neg, ip, fp, point, h1, h2, h3, h4, h5, h6, h7, h8, h9, h10, h11, h12⟩ := h
  obtain ⟨w, w1, w2⟩ := newSymbol_ok d.toUInt8 name (by rw [toUInt8_of_lt _ (by omega)]; omega) h8
  rw [toUInt8_of_lt _ (by omega)] at w2
  have hval := int64_ofInt_toInt v h11 h12
  refine ⟨⟨Int64.ofInt v, w⟩, ?_, hval, symbolBits_decimals w d name (by omega) w2, symbolBits_name w d name (by omega) h8 w2⟩
  rw [newAsset_iff]
  refine ⟨d, name, ⟨neg, ip, fp, point, h1, h2, h3, h4, h5, h6, h7, h8, h9, ?_, ?_, ?_⟩, w2⟩
  · rw [hval]; exact h10
  · rw [hval]; exact h11
  · rw [hval]; exact h12

/-- Non-vacuity of the grammar. -/
example : AssetText (asc "-1.0000 EOS") (-10000) 4 (asc "EOS") :=
  ⟨true, asc "1", asc "0000", true, by decide, by decide, by decide, by decide, by decide, by decide, by decide, by decide, by decide,
    by decide, by decide, by decide⟩
example : newAssetFromString (asc "-1.0000 EOS") = (some ⟨-10000, 1397703940⟩, none) := by decide +kernel
example : (newAssetFromString (asc "1.00.0 EOS")).2 ≠ none ∧ (newAssetFromString (asc "1-0 EOS")).2 ≠ none ∧
    (newAssetFromString (asc "9223372036854775808 EOS")).2 ≠ none ∧ (newAssetFromString (asc "+1 EOS")).2 ≠ none := by decide +kernel

/-- C19, the part that holds: for at most 18 decimals (every symbol NewSymbol accepts) and every value except -2^63, String does not panic
and prints optional '-', the integer part without leading zeros, exactly `Decimals` digits after a point (no point for 0), a space and the
name; the digits are those of |Value|. Missing: value -2^63 and symbols from the wire with more than 18 decimals. -/
theorem C19_string_partial (a : Asset) (hd : Symbol.decimals a.symbol ≤ 18) (hv : a.value.toInt ≠ -2 ^ 63) :
    ∃ ip fp : Bytes, a.string = .val ((if a.value.toInt < 0 then [45] else []) ++ ip ++
        (if 0 < Symbol.decimals a.symbol then 46 :: fp else []) ++ 32 :: Symbol.name a.symbol) ∧
      AllDigits ip ∧ AllDigits fp ∧ fp.length = Symbol.decimals a.symbol ∧ ip ≠ [] ∧ (1 < ip.length → ip.head? ≠ some 48) ∧
      decValue (ip ++ fp) = a.value.toInt.natAbs := by
  obtain ⟨ip, fp, h1, h2, h3, h4, h5, h6, h7⟩ := assetString_eq a hd hv
  refine ⟨ip, fp, by simpa using h1, h2, h3, h4, h5, ?_, h7⟩
  intro hlen
  rw [h6] at hlen ⊢
  apply (fmtNat_spec _).2.2.2
  intro h0
  rw [h0] at hlen
  revert hlen
  decide

/-- C19. String panics exactly when the symbol has 64 or more decimals (Precision() has wrapped to 0). -/
theorem C19_panics_iff (a : Asset) : (∃ w, a.string = .panic w) ↔ 64 ≤ Symbol.decimals a.symbol := by
  rw [← precision_zero_iff]
  unfold Asset.string
  by_cases h : Symbol.precision a.symbol = 0
  · simp [h]
  · simp [h]

/-- C19 for 19 to 63 decimals, which only symbols from the wire have. Precision() is then 10^decimals wrapped to 64 bits. If the value is smaller in magnitude, the text is
right: "0." and the digits. Otherwise it is wrong: the number is below 1 but the integer part printed is not 0. -/
theorem C19_wide (a : Asset) (h1 : 19 ≤ Symbol.decimals a.symbol) (h2 : Symbol.decimals a.symbol ≤ 63) (hv : a.value.toInt ≠ -2 ^ 63) :
    ∃ ip fp : Bytes, a.string = .val ((if a.value.toInt < 0 then [45] else []) ++ ip ++ 46 :: fp ++ 32 :: Symbol.name a.symbol) ∧
      AllDigits fp ∧ fp.length = Symbol.decimals a.symbol ∧ a.value.toInt.natAbs < 10 ^ Symbol.decimals a.symbol ∧
      (a.value.toInt.natAbs < (((10 : Int) ^ Symbol.decimals a.symbol).bmod (2 ^ 64)).natAbs → ip = asc "0" ∧ decValue fp = a.value.toInt.natAbs) ∧
      ((((10 : Int) ^ Symbol.decimals a.symbol).bmod (2 ^ 64)).natAbs ≤ a.value.toInt.natAbs → ∃ k, k ≠ 0 ∧ DecimalText ip k) := by
  obtain ⟨ip, fp, k, e1, e2, e3, e4, e5, e6⟩ := assetString_wide a h1 h2 hv
  have hb := int64_bounds a.value
  refine ⟨ip, fp, e1, e4, e5, lt_pow10 (by omega) h1, fun h => ?_, fun h => ⟨k, ?_, e2 ▸ fmtInt_text k⟩⟩
  · rw [Nat.div_eq_of_lt h] at e3
    rw [Nat.mod_eq_of_lt h] at e6
    have : k = 0 := Int.natAbs_eq_zero.1 e3
    subst this
    exact ⟨e2, e6⟩
  · have hp : (((10 : Int) ^ Symbol.decimals a.symbol).bmod (2 ^ 64)).natAbs ≠ 0 := by
      rw [← precision_bmod]
      intro h
      have := (precision_zero_iff a.symbol).1 (Int64.toInt_inj.1 (Int.natAbs_eq_zero.1 h))
      omega
    have := Nat.div_pos h (Nat.pos_of_ne_zero hp)
    rw [← e3] at this
    intro hk
    rw [hk] at this
    exact absurd this (by decide)
/-- 0.9 with 19 decimals -/
example : Asset.string ⟨9000000000000000000, 19 + 256 * 65⟩ = .val (asc "-1.0553255926290448384 A") ∧ ((10 : Int) ^ 19).bmod (2 ^ 64) = -8446744073709551616 ∧
    Asset.string ⟨5, 19 + 256 * 65⟩ = .val (asc "0.0000000000000000005 A") := by decide +kernel

/-- C19 is violated: an asset that can be decoded from the wire makes String panic. -/
theorem C19_violated : ∃ (bs : Bytes) (a : Asset) (w : String), (Asset.unmarshal ⟨0, 0⟩).run bs = .ok (a, none) [] ∧ a.string = .panic w :=
  ⟨[1, 0, 0, 0, 0, 0, 0, 0, 64, 69, 79, 83, 0, 0, 0, 0], ⟨1, 1397704000⟩, "integer divide by zero", by decide +kernel, by decide +kernel⟩

/-- C19 and C17 are violated at the smallest value: two minus signs are printed and the text is not accepted back. -/
theorem C17_violated_min : ∃ s, Asset.string ⟨Int64.minValue, 1397703940⟩ = .val s ∧ s = asc "--922337203685477.-5808 EOS" ∧
    (newAssetFromString s).2 ≠ none :=
  ⟨asc "--922337203685477.-5808 EOS", by decide +kernel, rfl, by decide +kernel⟩

/-- C17, for every valid symbol with a non-empty name and every value except -2^63 (see `C17_violated_min`). -/
theorem C17_asset_text_partial (p : UInt8) (n : Bytes) (a : Asset) (h : newSymbol p n = (a.symbol, none)) (hn : n ≠ [])
    (hv : a.value.toInt ≠ -2 ^ 63) : ∃ s, a.string = .val s ∧ newAssetFromString s = (some a, none) := by
  obtain ⟨h1, h2, h3⟩ := newSymbol_some h
  obtain ⟨d1, d2, _, _⟩ := C16_accessors p n a.symbol h
  obtain ⟨ip, fp, e1, e2, e3, e4, e5, e6, e7⟩ := assetString_eq a (by omega) hv
  refine ⟨_, e1, ?_⟩
  rw [newAsset_iff]
  have hb := int64_bounds a.value
  refine ⟨p.toNat, n, ⟨decide (a.value.toInt < 0), ip, fp, decide (0 < Symbol.decimals a.symbol), by rw [d2], e2, e3, ?_, ?_, by omega, by omega, h2, hn,
    ?_, hb.1, hb.2⟩, h3⟩
  · intro hp
    simp at hp
    exact List.eq_nil_of_length_eq_zero (by omega)
  · simp [e5]
  · rw [e7]
    by_cases hneg : a.value.toInt < 0
    · rw [if_pos (by simpa using hneg)]; omega
    · rw [if_neg (by simpa using hneg)]; omega

/-- C17 for UnmarshalText, whatever the destination held. -/
theorem C17_asset_unmarshalText_partial (p : UInt8) (n : Bytes) (a old : Asset) (h : newSymbol p n = (a.symbol, none)) (hn : n ≠ [])
    (hv : a.value.toInt ≠ -2 ^ 63) : ∃ s, a.string = .val s ∧ Asset.unmarshalText old s = (a, none) := by
  obtain ⟨s, h1, h2⟩ := C17_asset_text_partial p n a h hn hv
  exact ⟨s, h1, by simp [Asset.unmarshalText, h2]⟩

example : newSymbol 4 (asc "EOS") = (1397703940, none) ∧ Asset.string ⟨-1, 1397703940⟩ = .val (asc "-0.0001 EOS") := by decide +kernel

/-- C20. Binary form of Asset. -/
theorem C20_asset_binary (a old : Asset) : ∃ bs, (Asset.marshal a).Writes bs ∧ bs.length = 16 ∧
    (leValue (bs.take 8) : Int) % 2 ^ 64 = a.value.toInt % 2 ^ 64 ∧ leValue (bs.drop 8) = a.symbol.toNat ∧ (Asset.unmarshal old).Reads bs a := by
  refine ⟨_, asset_marshal_writes a, by simp [length_leBytes], ?_, ?_, asset_unmarshal_reads a old⟩
  · rw [List.take_append_of_le_length (by simp [length_leBytes]), List.take_of_length_le (by simp [length_leBytes]), leValue_eq_leNat,
      leNat_leBytes8 _ a.value.toUInt64.toNat_lt, int64_toInt, Int.bmod_def]
    omega
  · rw [List.drop_append_of_le_length (by simp [length_leBytes]), List.drop_eq_nil_of_le (by simp [length_leBytes]), List.nil_append, leValue_eq_leNat,
      leNat_leBytes8 _ a.symbol.toNat_lt]

/-- C20. Binary form of ExtendedAsset: the asset followed by the contract name. -/
theorem C20_extendedAsset_binary (a old : ExtendedAsset) : ∃ bs abs nbs, (ExtendedAsset.marshal a).Writes bs ∧ bs.length = 24 ∧
    bs = abs ++ nbs ∧ (Asset.marshal a.quantity).Writes abs ∧ leValue nbs = a.contract.toNat ∧ (ExtendedAsset.unmarshal old).Reads bs a := by
  refine ⟨_, _, _, extendedAsset_marshal_writes a, by simp [length_leBytes], rfl, asset_marshal_writes _, ?_, extendedAsset_unmarshal_reads a old⟩
  rw [leValue_eq_leNat, leNat_leBytes8 _ a.contract.toNat_lt]

/-- C20, with C08–C10: these functions give up on the first failed read and report every failed write, so truncated input is an error. -/
theorem C20_strict (s : Bool) (a : ExtendedAsset) : (Asset.unmarshal a.quantity).Strict s ∧ (ExtendedAsset.unmarshal a).Strict s ∧
    (Asset.marshal a.quantity).Strict ∧ (ExtendedAsset.marshal a).Strict :=
  ⟨asset_unmarshal_strict s _, extendedAsset_unmarshal_strict s _, asset_marshal_strict _, extendedAsset_marshal_strict _⟩

example : (Asset.marshal ⟨-2, 1397703940⟩).Writes [254, 255, 255, 255, 255, 255, 255, 255, 4, 69, 79, 83, 0, 0, 0, 0] := by decide +kernel

end Verif
