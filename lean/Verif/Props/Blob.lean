import Verif.Model.Numbers
import Verif.Lemmas.Encoding
/-! # C25–C28 text forms of Bytes, Blob, Checksum; C06 for Bytes and Blob; C62 checksums in binary -/
namespace Verif

/-! ## C06 -/

/-- C06 for chain.Bytes and chain.Blob: varuint length followed by the data; the destination's previous content does not matter. -/
theorem C06_bytes (v old : Bytes) (h : v.length < 2 ^ 28) :
    ∃ pre, IsLeb pre ∧ lebValue pre = v.length ∧ (BytesT.marshal v).Writes (pre ++ v) ∧ (BytesT.unmarshal old).Reads (pre ++ v) v := by
  obtain ⟨a, b, _⟩ := varuintBytes_spec v.length h
  exact ⟨_, a, b, writeString_writes v h, bytesT_unmarshal_reads v old h⟩

theorem C06_bytes_strict (s : Bool) (v old : Bytes) : (BytesT.marshal v).Strict ∧ (BytesT.unmarshal old).Strict s :=
  ⟨(writeVaruint_strict _).seq (writeBytes_strict _), bytesT_unmarshal_strict s old⟩

example : (BytesT.marshal [7, 8]).Writes [2, 7, 8] ∧ (BytesT.unmarshal [1]).run [2, 7, 8, 9] = .ok ([7, 8], none) [9] := by
  constructor
  · decide
  · rfl

/-! ## C25 -/

/-- C25. The text is hexadecimal, and every hexadecimal text for `b`, in particular MarshalText's, is read as `b`. -/
theorem C25_roundtrip (b old : Bytes) : HexText (BytesT.marshalText b) b ∧ BytesT.unmarshalText old (BytesT.marshalText b) = (b, none) ∧
    ∀ s, HexText s b → BytesT.unmarshalText old s = (b, none) := by
  have : ∀ s, HexText s b → BytesT.unmarshalText old s = (b, none) := by
    intro s h
    rw [← hexDecode_iff] at h
    simp only [BytesT.unmarshalText, h]
  exact ⟨hexEncode_text b, this _ (hexEncode_text b), this⟩

/-- C25, what remains for text that is not hexadecimal: the destination keeps its value. Missing from the claim: an error (it is never
reported, see `C25_violated`). -/
theorem C25_not_hex_partial (s old : Bytes) (h : ¬∃ b, HexText s b) : (BytesT.unmarshalText old s).1 = old := by
  unfold BytesT.unmarshalText
  split
  · rename_i d hd; exact (h ⟨d, (hexDecode_iff _ _).mp hd⟩).elim
  · rfl

/-- C25 is violated: no text at all makes UnmarshalText report an error, although some text is not hexadecimal. -/
theorem C25_violated : (∀ old s, (BytesT.unmarshalText old s).2 = none) ∧ ∃ s, ¬∃ b, HexText s b := by
  constructor
  · intro old s; unfold BytesT.unmarshalText; split <;> rfl
  · refine ⟨asc "zz", fun ⟨b, hb⟩ => ?_⟩
    rw [← hexDecode_iff] at hb
    have : (hexDecode (asc "zz")).2 = none := congrArg Prod.snd hb
    exact absurd this (by decide)

example : BytesT.marshalText [0xDE, 0xAD] = asc "dead" ∧ BytesT.unmarshalText [] (asc "DEad") = ([0xDE, 0xAD], none) ∧
    BytesT.unmarshalText [1, 2] (asc "dea") = ([1, 2], none) := by decide +kernel

/-! ## C26 -/

/-- C26, for a checksum of n bytes (n = 20, 32, 64): round-trip. -/
theorem C26_roundtrip (n : Nat) (c old : Bytes) (h : c.length = n) : HexText (Checksum.marshalText c) c ∧
    Checksum.unmarshalText n old (Checksum.marshalText c) = .val (c, none) := by
  have ht := hexEncode_text c
  refine ⟨ht, ?_⟩
  have hl : ¬ (hexEncode c).length / 2 < n := by have := ht.length; omega
  rw [← hexDecode_iff] at ht
  simp only [Checksum.unmarshalText, Checksum.marshalText, ht, hl, if_false, List.take_of_length_le (Nat.le_of_eq h)]

/-- C26. Text that is not hexadecimal (in particular text of odd length) is an error, and the checksum keeps its value. -/
theorem C26_not_hex_partial (n : Nat) (s old : Bytes) (h : ¬∃ b, HexText s b) : ∃ e, Checksum.unmarshalText n old s = .val (old, some e) := by
  unfold Checksum.unmarshalText
  split
  · rename_i e hd; exact ⟨e, rfl⟩
  · rename_i d hd; exact (h ⟨d, (hexDecode_iff _ _).mp hd⟩).elim

/-- C26, the exact behaviour on hexadecimal text: a panic when it is too short, silent truncation when it is too long. -/
theorem C26_hex_exact_partial (n : Nat) (s old b : Bytes) (h : HexText s b) :
    (b.length < n → ∃ w, Checksum.unmarshalText n old s = .panic w) ∧
    (n ≤ b.length → Checksum.unmarshalText n old s = .val (b.take n, none)) := by
  have hl := h.length
  rw [← hexDecode_iff] at h
  constructor
  · intro hn
    have : s.length / 2 < n := by omega
    exact ⟨_, by simp only [Checksum.unmarshalText, h, this, if_true]; rfl⟩
  · intro hn
    have : ¬ s.length / 2 < n := by omega
    simp only [Checksum.unmarshalText, h, this, if_false]

/-- C26 is violated: short text panics, long text is accepted. -/
theorem C26_violated (n : Nat) (h : 0 < n) (old : Bytes) : (∃ s w, Checksum.unmarshalText n old s = .panic w) ∧
    ∃ s c, s.length ≠ 2 * n ∧ Checksum.unmarshalText n old s = .val (c, none) := by
  constructor
  · obtain ⟨w, hw⟩ := (C26_hex_exact_partial n [] old [] .nil).1 (by simpa using h)
    exact ⟨[], w, hw⟩
  · have ht := hexEncode_text (List.replicate (n + 1) 7)
    have := (C26_hex_exact_partial n _ old _ ht).2 (by simp)
    exact ⟨_, _, by rw [ht.length]; simp, this⟩

example : Checksum.unmarshalText 2 [0, 0] (asc "0aFF") = .val ([10, 255], none) ∧ (∃ w, Checksum.unmarshalText 2 [0, 0] (asc "0a") = .panic w) ∧
    Checksum.unmarshalText 2 [0, 0] (asc "0aFFee") = .val ([10, 255], none) := ⟨by decide +kernel, ⟨_, rfl⟩, by decide +kernel⟩

/-! ## C27 -/

/-- C27. MarshalText is padded RFC 4648 base64. -/
theorem C27_marshal (b : Bytes) : B64Text true (Blob.marshalText b) b := b64Encode_text b

/-- C27. UnmarshalText reads it back, also after any number of trailing '=' have been removed. -/
theorem C27_roundtrip (b core pad : Bytes) (h : Blob.marshalText b = core ++ pad) (hp : ∀ c ∈ pad, c = 61) : Blob.unmarshalText core = (b, none) := by
  have ht := b64Encode_text b
  unfold Blob.unmarshalText
  rw [blobPad_restores ht h hp, b64Decode_iff, ht.noNL]
  exact ht.loosen

/-- C27. Exactly the texts are accepted which, padded and with line breaks removed, are base64 (unused bits need not be zero). -/
theorem C27_accepts_iff (s b : Bytes) : Blob.unmarshalText s = (b, none) ↔
    B64Text false ((s ++ (if s.length % 4 = 2 then [61, 61] else if s.length % 4 = 3 then [61] else [])).filter (fun c => c != 10 && c != 13)) b := by
  unfold Blob.unmarshalText
  rw [b64Decode_iff]
  have : (fun c : UInt8 => !isNL c) = (fun c => c != 10 && c != 13) := by
    funext c; simp only [isNL, Bool.not_or, bne]
  unfold noNL blobPad
  rw [this]

example : Blob.marshalText (asc "Hi") = asc "SGk=" ∧ Blob.unmarshalText (asc "SGk") = (asc "Hi", none) ∧
    Blob.marshalText (asc "H") = asc "SA==" ∧ Blob.unmarshalText (asc "SA=") = (asc "H", none) ∧ (Blob.unmarshalText (asc "S")).2 ≠ none := by
  decide +kernel

/-! ## C28 -/

/-- The buffer version gives the same result as the plain one. -/
theorem C28_result (t : Buf) : (Blob.unmarshalTextBuf t).1 = Blob.unmarshalText t.content := by
  have hl : t.content.length = t.len := by
    unfold Buf.content; rw [List.length_take]; have := t.ok; omega
  have happ : ∀ xs, (t.append xs).1 = t.content ++ xs := by
    intro xs
    unfold Buf.append
    split
    · simp only [List.append_assoc]
      rw [List.take_append, List.length_take, Nat.min_eq_left t.ok, List.take_of_length_le (by rw [List.length_take]; omega)]
      rw [show t.len + xs.length - t.len = xs.length by omega, List.take_left]
      rfl
    · rfl
  unfold Blob.unmarshalTextBuf Blob.unmarshalText blobPad
  rw [hl]
  simp only
  split
  · simp only [happ]
  · split
    · simp only [happ]
    · simp

/-- C28, what holds: the text itself is unchanged, and the whole array is if the slice has no spare capacity or a length of 0 or 1 modulo 4. -/
theorem C28_text_unchanged_partial (t : Buf) : (Blob.unmarshalTextBuf t).2.take t.len = t.content ∧
    (Blob.unmarshalTextBuf t).2.length = t.arr.length ∧
    ((t.len = t.arr.length ∨ t.len % 4 < 2) → (Blob.unmarshalTextBuf t).2 = t.arr) ∧
    (Blob.unmarshalTextBuf t).2.drop (t.len + 2) = t.arr.drop (t.len + 2) := by
  have hok := t.ok
  have happ : ∀ xs : Bytes, xs.length ≤ 2 → (t.append xs).2.take t.len = t.content ∧ (t.append xs).2.length = t.arr.length ∧
      (t.len = t.arr.length → 0 < xs.length → (t.append xs).2 = t.arr) ∧ (t.append xs).2.drop (t.len + 2) = t.arr.drop (t.len + 2) := by
    intro xs hx
    unfold Buf.append
    split
    · rename_i h
      simp only
      refine ⟨?_, ?_, ?_, ?_⟩
      · rw [List.append_assoc, List.take_append, List.length_take, Nat.min_eq_left hok, List.take_of_length_le (by rw [List.length_take]; omega)]
        simp [Buf.content]
      · simp only [List.length_append, List.length_take, List.length_drop]; omega
      · intro h1 h2; omega
      · rw [List.drop_append, List.drop_eq_nil_of_le (by simp only [List.length_append, List.length_take]; omega), List.nil_append, List.drop_drop]
        congr 1
        simp only [List.length_append, List.length_take]; omega
    · exact ⟨rfl, rfl, fun _ _ => rfl, rfl⟩
  unfold Blob.unmarshalTextBuf
  simp only
  split
  · rename_i h
    obtain ⟨a, b, c, d⟩ := happ [61, 61] (by simp)
    exact ⟨a, b, fun hh => c (by omega) (by simp), d⟩
  · split
    · rename_i h
      obtain ⟨a, b, c, d⟩ := happ [61] (by simp)
      exact ⟨a, b, fun hh => c (by omega) (by simp), d⟩
    · exact ⟨rfl, rfl, fun _ => rfl, rfl⟩

/-- C28, when it fails exactly: text of 2 or 3 characters modulo 4 with room for its padding is padded in place, and nothing else is changed. -/
theorem C28_exact (t : Buf) (i : Nat) : (Blob.unmarshalTextBuf t).2[i]? =
    if t.len % 4 ≥ 2 ∧ (t.len + 3) / 4 * 4 ≤ t.arr.length ∧ t.len ≤ i ∧ i < (t.len + 3) / 4 * 4 then some 61 else t.arr[i]? := by
  have hok := t.ok
  have happ : ∀ xs : Bytes, (∀ x ∈ xs, x = 61) → (t.append xs).2[i]? = if t.len + xs.length ≤ t.arr.length ∧ t.len ≤ i ∧ i < t.len + xs.length then some 61 else t.arr[i]? := by
    intro xs hx
    unfold Buf.append
    by_cases h : t.len + xs.length ≤ t.arr.length
    · rw [if_pos h]
      show (t.arr.take t.len ++ xs ++ t.arr.drop (t.len + xs.length))[i]? = _
      by_cases h1 : i < t.len
      · rw [if_neg (by omega), List.append_assoc, List.getElem?_append_left (by rw [List.length_take]; omega), List.getElem?_take_of_lt h1]
      · by_cases h2 : i < t.len + xs.length
        · rw [if_pos (by omega), List.getElem?_append_left (by rw [List.length_append, List.length_take]; omega),
            List.getElem?_append_right (by rw [List.length_take]; omega), List.length_take, Nat.min_eq_left hok]
          have : i - t.len < xs.length := by omega
          rw [List.getElem?_eq_getElem this, hx _ (List.getElem_mem this)]
        · rw [if_neg (by omega), List.getElem?_append_right (by rw [List.length_append, List.length_take]; omega), List.getElem?_drop]
          congr 1
          rw [List.length_append, List.length_take]
          omega
    · rw [if_neg h, if_neg (by omega)]
  unfold Blob.unmarshalTextBuf
  simp only
  split
  · rename_i h
    rw [happ [61, 61] (by simp)]
    exact if_congr (by simp only [List.length_cons, List.length_nil]; omega) rfl rfl
  · split
    · rename_i h
      rw [happ [61] (by simp)]
      exact if_congr (by simp only [List.length_cons, List.length_nil]; omega) rfl rfl
    · rw [if_neg (by omega)]

example : ∃ t : Buf, t.len % 4 ≥ 2 ∧ (t.len + 3) / 4 * 4 = t.arr.length := ⟨⟨asc "SGk\"", 3, by decide⟩, by decide, rfl⟩

/-- C28 is violated: the caller's bytes just behind the text are overwritten with '='. -/
theorem C28_violated : ∃ t : Buf, (Blob.unmarshalTextBuf t).1 = (asc "Hi", none) ∧ t.arr = asc "SGk\"}" ∧ (Blob.unmarshalTextBuf t).2 = asc "SGk=}" :=
  ⟨⟨asc "SGk\"}", 3, by decide⟩, by decide +kernel, rfl, by decide +kernel⟩

/-! ## C24: other text into a Float128 -/

/-- C24. Any hex text is accepted: of more than 32 digits the first 32 count, and of fewer the rest of the destination stays as it was. -/
theorem C24_float128_any_length (old s b : Bytes) (ho : old.length = 16) (h : HexText s b) : ∃ f, Float128.unmarshalText old s = (f, none) ∧ f.length = 16 ∧
    ∀ i, f[i]? = if i < 16 then (if i < b.length then b[i]? else old[i]?) else none := by
  refine ⟨b.take 16 ++ old.drop b.length, by unfold Float128.unmarshalText; rw [(hexDecode_iff s b).2 h], ?_, fun i => ?_⟩
  · simp only [List.length_append, List.length_take, List.length_drop]; omega
  · by_cases h1 : i < 16
    · rw [if_pos h1]
      by_cases h2 : i < b.length
      · rw [if_pos h2, List.getElem?_append_left (by rw [List.length_take]; omega), List.getElem?_take_of_lt h1]
      · rw [if_neg h2, List.getElem?_append_right (by rw [List.length_take]; omega), List.getElem?_drop, List.length_take]
        congr 1
        omega
    · rw [if_neg h1]
      exact List.getElem?_eq_none (by simp only [List.length_append, List.length_take, List.length_drop]; omega)

example : Float128.unmarshalText (List.replicate 16 7) (asc "0a0b") = ([10, 11] ++ List.replicate 14 7, none) := by decide +kernel

/-! ## C62 -/

/-- C62. A checksum is its bytes. -/
theorem C62_checksum_binary (n : Nat) (hn : n ≤ 64) (c old : Bytes) (h : c.length = n) :
    (Checksum.marshal c).Writes c ∧ (Checksum.unmarshal n old).Reads c c :=
  ⟨writeBytes_writes _, checksum_unmarshal_reads n (by unfold maxAlloc; omega) c old h⟩

theorem C62_strict (s : Bool) (n : Nat) (c old : Bytes) : (Checksum.marshal c).Strict ∧ (Checksum.unmarshal n old).Strict s :=
  ⟨writeBytes_strict _, checksum_unmarshal_strict s n old⟩

example : (Checksum.unmarshal 2 []).run [1, 2, 3] = .ok ([1, 2], none) [3] ∧ (Checksum.unmarshal 2 [9]).run [1] = .ok ([9], some .unexpectedEOF) [] :=
  ⟨rfl, rfl⟩

end Verif
