import Verif.Lemmas.Base58
/-! # Base58: C29-C32 -/
namespace Verif

/-- C29: Decode inverts Encode; neither panics. -/
theorem C29_roundtrip (b : Bytes) : ∃ s, b58Encode b = .val s ∧ b58Decode s = .val b := by
  obtain ⟨s, h1, h2⟩ := b58Encode_text b
  exact ⟨s, h1, b58Decode_text s b h2⟩

/-- C30: Encode inverts Decode on strings over the alphabet. -/
theorem C30_roundtrip (s : Bytes) (h : Base58String s) : ∃ b, b58Decode s = .val b ∧ b58Encode b = .val s := by
  obtain ⟨b, hb⟩ := b58String_text s h
  refine ⟨b, b58Decode_text s b hb, ?_⟩
  obtain ⟨s', h1, h2⟩ := b58Encode_text b
  rw [h1, b58Text_unique s s' b hb h2]

/-- C30 is false of the code for other strings: a string with a rune above 255 makes Decode panic instead of returning an empty slice ("€"). -/
theorem C30_violated : ¬ ∀ s : Bytes, ¬ Base58String s → b58Decode s = .val [] := by
  intro h
  have h1 := h [0xE2, 0x82, 0xAC] (by
    intro hs
    obtain ⟨d, hd, e⟩ := hs 0xE2 (by simp)
    have : ∀ d, d < 58 → (0xE2 : UInt8) ≠ letter58 d := by decide +kernel
    exact this d hd e)
  have h2 : b58Decode [0xE2, 0x82, 0xAC] = .panic "index out of range" := by decide +kernel
  rw [h2] at h1
  cases h1

/-- C30, what holds for every other string: with `c` the first byte outside the alphabet, at index i, the result is the empty slice if `c` is ASCII or
the part of the string from `c` to the end of its ten-byte block (index rounded up to a multiple of ten) starts with a UTF-8 sequence for U+0080..U+00FF; otherwise Decode panics. -/
theorem C30_other_partial (pre : Bytes) (c : UInt8) (post : Bytes) (hpre : Base58String pre) (hc : ¬ Base58String [c]) :
    (c.toNat < 128 ∨ LatinStart ((c :: post).take (10 - pre.length % 10)) → b58Decode (pre ++ c :: post) = .val []) ∧
    (128 ≤ c.toNat → ¬ LatinStart ((c :: post).take (10 - pre.length % 10)) → ∃ w, b58Decode (pre ++ c :: post) = .panic w) := by
  obtain ⟨ds, h1, h2⟩ := b58String_digits pre hpre
  have hc' : ∀ d, d < 58 → c ≠ letter58 d := by
    intro d hd e
    apply hc
    intro x hx
    have : x = c := by simpa using hx
    exact ⟨d, hd, by rw [this, e]⟩
  have := b58Decode_bad ds h2 c post hc'
  rw [h1, List.length_map]
  exact this

/-- Every string either is over the alphabet or has a first byte outside it, so C30_roundtrip and C30_other_partial cover all strings. -/
theorem C30_cases (s : Bytes) : Base58String s ∨ ∃ pre c post, s = pre ++ c :: post ∧ Base58String pre ∧ ¬ Base58String [c] := by
  induction s with
  | nil => exact .inl (by intro c hc; simp at hc)
  | cons a t ih =>
    by_cases ha : Base58String [a]
    · rcases ih with h | ⟨pre, c, post, h1, h2, h3⟩
      · refine .inl ?_
        intro x hx
        rcases List.mem_cons.1 hx with hx | hx
        · exact ha x (by simp [hx])
        · exact h x hx
      · refine .inr ⟨a :: pre, c, post, by rw [h1]; rfl, ?_, h3⟩
        intro x hx
        rcases List.mem_cons.1 hx with hx | hx
        · exact ha x (by simp [hx])
        · exact h2 x hx
    · exact .inr ⟨[], a, t, rfl, by intro c hc; simp at hc, ha⟩

/-- C31: Encode writes positional notation: one '1' per leading zero byte, then the base-58 digits without leading zero of the big-endian number. -/
theorem C31_positional (b : Bytes) : ∃ s, b58Encode b = .val s ∧ Base58Text s b := b58Encode_text b

/-- C31: and the text of given bytes is unique, so this determines Encode. -/
theorem C31_unique (s s' b : Bytes) (h : Base58Text s b) (h' : Base58Text s' b) : s = s' := b58Text_unique s s' b h h'

/-- C31: Decode reads positional notation; every string over the alphabet has a value. -/
theorem C31_decode (s b : Bytes) (h : Base58Text s b) : b58Decode s = .val b := b58Decode_text s b h

/-- C32: the checksum the Eosio variants use. -/
theorem checksumEosio_spec (input suffix : Bytes) : b58ChecksumEosio input suffix = .val ((RipemdSpec.digest (input ++ suffix)).take 4) := by
  unfold b58ChecksumEosio
  cases suffix with
  | nil =>
    simp only [List.length_nil, gt_iff_lt, Nat.lt_irrefl, if_false]
    rw [sum_spec _ _ [] (write_holds _ _ input new_holds)]
    simp
  | cons c t =>
    dsimp only
    rw [if_pos (by simp), sum_spec _ _ [] (write_holds _ _ _ (write_holds _ _ input new_holds))]
    simp

theorem digest_length (m : Bytes) : (RipemdSpec.digest m).length = 20 := by simp [RipemdSpec.digest, RipemdSpec.bytesOf]

theorem take_drop_4 (b c : Bytes) (h : c.length = 4) : (b ++ c).take ((b ++ c).length - 4) = b ∧ (b ++ c).drop ((b ++ c).length - 4) = c := by
  have : (b ++ c).length - 4 = b.length := by simp; omega
  rw [this]
  exact ⟨List.take_left' rfl, List.drop_left' rfl⟩

/-- C32: round-trip of the SHA-256 variant. -/
theorem C32_roundtrip (sha : Sha256) (b : Bytes) : ∃ s, b58CheckEncode sha b = .val s ∧ b58CheckDecode sha s = .val (b, none) := by
  obtain ⟨s, h1, h2⟩ := C29_roundtrip (b ++ b58Checksum sha b)
  have hl : (b58Checksum sha b).length = 4 := by simp [b58Checksum, sha.len]
  refine ⟨s, h1, ?_⟩
  have ht := take_drop_4 b _ hl
  unfold b58CheckDecode
  simp only [h2, ht.1, ht.2]
  rw [if_neg (by simp; omega), if_neg (by simp)]

/-- C32: round-trip of the RIPEMD-160 variant, with any suffix. -/
theorem C32_roundtrip_eosio (b suffix : Bytes) : ∃ s, b58CheckEncodeEosio b suffix = .val s ∧ b58CheckDecodeEosio s suffix = .val (b, none) := by
  obtain ⟨s, h1, h2⟩ := C29_roundtrip (b ++ (RipemdSpec.digest (b ++ suffix)).take 4)
  have hl : ((RipemdSpec.digest (b ++ suffix)).take 4).length = 4 := by simp [digest_length]
  refine ⟨s, by unfold b58CheckEncodeEosio; simp only [checksumEosio_spec]; exact h1, ?_⟩
  have ht := take_drop_4 b _ hl
  unfold b58CheckDecodeEosio
  simp only [h2, ht.1, ht.2, checksumEosio_spec]
  rw [if_neg (by simp [digest_length]), if_neg (by simp)]

/-- C32: what CheckDecode returns for a string that decodes to `d` (any string over the alphabet does): too short, payload followed by the first four bytes of
the double SHA-256 of the payload, or neither. -/
theorem C32_decode (sha : Sha256) (s d : Bytes) (h : b58Decode s = .val d) :
    (d.length < 4 ∧ b58CheckDecode sha s = .val ([], some errInvalidFormat)) ∨
    (∃ payload, d = payload ++ (sha.sum (sha.sum payload)).take 4 ∧ b58CheckDecode sha s = .val (payload, none)) ∨
    (4 ≤ d.length ∧ (∀ payload, d ≠ payload ++ (sha.sum (sha.sum payload)).take 4) ∧ b58CheckDecode sha s = .val ([], some errChecksum)) := by
  have h4 : ∀ p, ((sha.sum (sha.sum p)).take 4).length = 4 := fun p => by simp [sha.len]
  unfold b58CheckDecode
  simp only [h]
  by_cases hl : d.length < 4
  · rw [if_pos hl]; exact .inl ⟨hl, rfl⟩
  · rw [if_neg hl]
    have hd : d = d.take (d.length - 4) ++ d.drop (d.length - 4) := (List.take_append_drop _ _).symm
    by_cases hc : b58Checksum sha (d.take (d.length - 4)) = d.drop (d.length - 4)
    · rw [if_neg (by simpa using hc)]
      refine .inr (.inl ⟨_, ?_, rfl⟩)
      rw [← hc] at hd
      exact hd
    · rw [if_pos hc]
      refine .inr (.inr ⟨by omega, ?_, rfl⟩)
      intro p hp
      have ht := take_drop_4 p _ (h4 p)
      rw [← hp] at ht
      exact hc (by rw [ht.1, ht.2]; rfl)

/-- C32: the same for the RIPEMD-160 variant. -/
theorem C32_decode_eosio (s d suffix : Bytes) (h : b58Decode s = .val d) :
    (d.length < 4 ∧ b58CheckDecodeEosio s suffix = .val ([], some errInvalidFormat)) ∨
    (∃ payload, d = payload ++ (RipemdSpec.digest (payload ++ suffix)).take 4 ∧ b58CheckDecodeEosio s suffix = .val (payload, none)) ∨
    (4 ≤ d.length ∧ (∀ payload, d ≠ payload ++ (RipemdSpec.digest (payload ++ suffix)).take 4) ∧
      b58CheckDecodeEosio s suffix = .val ([], some errChecksum)) := by
  have h4 : ∀ p, ((RipemdSpec.digest (p ++ suffix)).take 4).length = 4 := fun p => by simp [digest_length]
  unfold b58CheckDecodeEosio
  simp only [h, checksumEosio_spec]
  by_cases hl : d.length < 4
  · rw [if_pos hl]; exact .inl ⟨hl, rfl⟩
  · rw [if_neg hl]
    have hd : d = d.take (d.length - 4) ++ d.drop (d.length - 4) := (List.take_append_drop _ _).symm
    by_cases hc : (RipemdSpec.digest (d.take (d.length - 4) ++ suffix)).take 4 = d.drop (d.length - 4)
    · rw [if_neg (by simpa using hc)]
      refine .inr (.inl ⟨_, ?_, rfl⟩)
      rw [← hc] at hd
      exact hd
    · rw [if_pos hc]
      refine .inr (.inr ⟨by omega, ?_, rfl⟩)
      intro p hp
      have ht := take_drop_4 p _ (h4 p)
      rw [← hp] at ht
      exact hc (by rw [ht.1, ht.2])

/-! Concrete cases. -/
example : b58Encode (asc "hello world") = .val (asc "StV1DL6CwTryKyV") := by decide +kernel
example : b58Encode [0, 0, 1, 2] = .val (asc "115T") := by decide +kernel
example : Base58String (asc "StV1DL6CwTryKyV") := b58Text_string _ (asc "hello world") (by
  obtain ⟨s, h1, h2⟩ := b58Encode_text (asc "hello world")
  have : b58Encode (asc "hello world") = .val (asc "StV1DL6CwTryKyV") := by decide +kernel
  rw [this] at h1
  cases h1
  exact h2)
/-- "0" is ASCII and outside the alphabet: empty result. -/
example : b58Decode (asc "StV0") = .val [] := by decide +kernel
/-- "é" cut at a block boundary: the same character gives an empty result at index 0 and a panic at index 9. -/
example : b58Decode [0xC3, 0xA9] = .val [] ∧ b58Decode (asc "111111111" ++ [0xC3, 0xA9]) = .panic "index out of range" := by decide +kernel
/-- EOS public key checksum: the empty suffix form of a 4-byte payload. -/
example : ∃ s, b58CheckEncodeEosio [1, 2, 3, 4] [] = .val s ∧ b58CheckDecodeEosio s [] = .val ([1, 2, 3, 4], none) := C32_roundtrip_eosio _ _

end Verif
