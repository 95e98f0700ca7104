import Verif.Lemmas.Text
/-! # C63–C65 -/
namespace Verif

/-! ## C63 -/

/-- C63 for Symbol, SymbolCode, Asset, Uint64, BlockNum, Float128, Bytes and the checksums: on error the destination keeps its value.
Missing: Uint128, Int128 and Blob, for which the claim is false (`C63_violated`). Name never fails. -/
theorem C63_unchanged_partial (text : Bytes) (e : Err) :
    (∀ old, (Symbol.unmarshalText old text).2 = some e → (Symbol.unmarshalText old text).1 = old) ∧
    (∀ old, (SymbolCode.unmarshalText old text).2 = some e → (SymbolCode.unmarshalText old text).1 = old) ∧
    (∀ old, (Asset.unmarshalText old text).2 = some e → (Asset.unmarshalText old text).1 = old) ∧
    (∀ old, (Uint64.unmarshalJSON old text).2 = some e → (Uint64.unmarshalJSON old text).1 = old) ∧
    (∀ old, (BlockNum.unmarshalJSON old text).2 = some e → (BlockNum.unmarshalJSON old text).1 = old) ∧
    (∀ old, (Float128.unmarshalText old text).2 = some e → (Float128.unmarshalText old text).1 = old) ∧
    (∀ old, (BytesT.unmarshalText old text).2 = some e → (BytesT.unmarshalText old text).1 = old) ∧
    (∀ n old new, Checksum.unmarshalText n old text = .val (new, some e) → new = old) := by
  refine ⟨?_, ?_, ?_, ?_, ?_, ?_, ?_, ?_⟩
  · intro old h; unfold Symbol.unmarshalText at *; split at h <;> simp_all
  · intro old h; unfold SymbolCode.unmarshalText at *; split at h <;> simp_all
  · intro old h; unfold Asset.unmarshalText at *; split at h <;> simp_all
  · intro old h; unfold Uint64.unmarshalJSON at *; split at h <;> simp_all
  · intro old h; unfold BlockNum.unmarshalJSON at *
    generalize readUintJSON text = r at *
    obtain ⟨v, err⟩ := r
    simp only at *
    by_cases hv : v > 2 ^ 32 - 1
    · rw [if_pos hv]
    · rw [if_neg hv] at h ⊢
      cases err with
      | none => simp at h
      | some e => rfl
  · intro old h; unfold Float128.unmarshalText at *; split at h <;> simp_all
  · intro old h; unfold BytesT.unmarshalText at *; split at h <;> simp_all
  · intro n old new h; unfold Checksum.unmarshalText at *; split at h
    · simp_all
    · split at h <;> simp at h

/-- C63 is violated: bad text for a Uint128 or Int128 sets it to zero, and bad text for a Blob leaves what was decoded before the error. -/
theorem C63_violated : (∃ text e, Uint128.unmarshalText text = (⟨0, 0⟩, some e)) ∧ (∃ text e, Int128.unmarshalText text = (⟨0, 0⟩, some e)) ∧
    ∃ text e, Blob.unmarshalText text = (asc "Hi!", some e) :=
  ⟨⟨asc "x", .msg "invalid unsigned integer", by decide +kernel⟩, ⟨asc "x", .msg "invalid signed integer", by decide +kernel⟩,
    ⟨asc "SGkh*", errBase64, by decide +kernel⟩⟩

example : Symbol.unmarshalText 77 (asc "19,EOS") = (77, some (.msg "invalid symbol precision")) := by decide +kernel

/-! ## C64 -/

theorem C64_blockNum_string (v : UInt32) : (BlockNum.string v).length = 10 ∧ AllDigits (BlockNum.string v) ∧ decValue (BlockNum.string v) = v.toNat :=
  blockNum_string v

theorem C64_order (v w : UInt32) : (BlockNum.string v < BlockNum.string w ↔ v < w) ∧ (BlockNum.string v = BlockNum.string w ↔ v = w) := by
  obtain ⟨a1, a2, a3⟩ := blockNum_string v
  obtain ⟨b1, b2, b3⟩ := blockNum_string w
  constructor
  · rw [digits_lt _ _ a2 b2 (by omega), a3, b3, UInt32.lt_iff_toNat_lt]
  · constructor
    · intro h; rw [h, b3] at a3; exact (UInt32.toNat_inj.mp a3).symm
    · rintro rfl; rfl

example : BlockNum.string 1234 = asc "0000001234" ∧ BlockNum.string 4294967295 = asc "4294967295" := by decide +kernel

/-! ## C65 -/

/-- C65. The accepted strings and their value. -/
theorem C65_accepts_iff (s : Bytes) (v : UInt64) : newSymbolFromString s = (v, none) ↔
    ∃ (d name : Bytes) (p : Nat), s = d ++ 44 :: name ∧ DecimalText d p ∧ p ≤ 18 ∧ SymbolName name ∧ v.toNat = symbolBits p name := by
  constructor
  · intro h
    unfold newSymbolFromString at h
    split at h
    · rename_i p0 p1 hsp
      rw [splitByte_two] at hsp
      obtain ⟨rfl, _, _⟩ := hsp
      split at h
      · simp at h
      · rename_i precision hp
        rw [parseInt_iff 8 (by decide)] at hp
        obtain ⟨h1, h2, h3⟩ := hp
        split at h
        · simp at h
        · rename_i v' hr
          simp only [Prod.mk.injEq, and_true] at h
          subst h
          by_cases hok : ((precision % 256).toNat.toUInt8).toNat ≤ 18 ∧ SymbolName p1
          · rw [toUInt8_of_lt _ (by omega)] at hok
            have hpp : precision = ((precision % 256).toNat : Int) := by norm_num at h2 h3; omega
            obtain ⟨w, hw1, hw2⟩ := rawSymbolValue_ok (precision % 256).toNat.toUInt8 p1 (by rw [toUInt8_of_lt _ (by omega)]; exact hok.1) hok.2
            rw [hr] at hw1
            simp only [Prod.mk.injEq, and_true] at hw1
            subst hw1
            rw [toUInt8_of_lt _ (by omega)] at hw2
            exact ⟨p0, p1, (precision % 256).toNat, rfl, by rw [← hpp]; exact h1, hok.1, hok.2, hw2⟩
          · obtain ⟨e, he⟩ := rawSymbolValue_bad _ _ hok
            rw [hr] at he; simp at he
    · simp at h
  · rintro ⟨d, name, p, rfl, h1, h2, h3, h4⟩
    have hc : 44 ∉ d := by
      obtain ⟨sign, ds, rfl, _, hd, hs⟩ := h1
      have h5 := notMem_of_allDigits hd 44 (by decide)
      have h6 : sign = [] ∨ sign = [43] ∨ sign = [45] := by rcases hs with ⟨a | a, _⟩ | ⟨a, _⟩ <;> simp [a]
      rcases h6 with rfl | rfl | rfl <;> simpa using h5
    have hp : parseInt 8 d = ((p : Int), none) := (parseInt_iff 8 (by decide) d p).mpr ⟨h1, by norm_num <;> omega, by norm_num <;> omega⟩
    obtain ⟨w, hw1, hw2⟩ := newSymbolFromString_ok d p name h2 hc hp h3
    rw [hw1]
    have : w = v := UInt64.toNat_inj.mp (by rw [hw2, h4])
    rw [this]

/-- C65. Everything else is an error. -/
theorem C65_error (s : Bytes) (h : ∀ v, newSymbolFromString s ≠ (v, none)) : ∃ e, newSymbolFromString s = (0, some e) := by
  unfold newSymbolFromString at *
  split
  · rename_i p0 p1 hsp
    rw [hsp] at h
    simp only at h
    split
    · exact ⟨_, rfl⟩
    · rename_i precision hp
      rw [hp] at h
      simp only at h
      split
      · exact ⟨_, rfl⟩
      · rename_i v hr
        rw [hr] at h
        exact absurd rfl (h v)
  · exact ⟨_, rfl⟩

example : newSymbolFromString (asc "+04,EOS") = newSymbolFromString (asc "4,EOS") ∧ newSymbolFromString (asc "4,EOS") = (1397703940, none) ∧
    (newSymbolFromString (asc "-1,EOS")).2 ≠ none ∧ (newSymbolFromString (asc "19,EOS")).2 ≠ none ∧ newSymbolFromString (asc "0,") = (0, none) := by
  decide +kernel

end Verif
