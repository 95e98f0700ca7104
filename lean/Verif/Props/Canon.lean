import Verif.Props.Fault
import Verif.Props.Takes
import Verif.Lemmas.Canon
/-! # C86: encoding what was decoded -/
namespace Verif

/-- What Decode returns can be encoded, unless a number or length in it is above the bound of C03: Encode writes it or panics, and never returns an error. -/
theorem C86_writes_or_panics (t : Ty) (hs : t.Strait) (hw : t.Whole) (hd : t.Decodable .decode) (fin : Err) (bs r : Bytes) (v : t.Val) (h : (decode t t.zero).runE fin bs = .ok (v, none) r) :
    (t.fault v = none ∧ ∃ out, (encode t v).Writes out) ∨ (t.fault v = some .panics ∧ ∃ w, (encode t v).run = .panic w) := by
  obtain ⟨w, _, ht⟩ := (C81_decode t hs fin bs v r).1 h
  obtain ⟨hr, hf | hf⟩ := calm_ty t .decode (by simp [Mode.Plain]) hd v w ht
  · obtain ⟨out, _, ho⟩ := C85_writes t hw v hf
    exact .inl ⟨hf, out, ho⟩
  · exact .inr ⟨hf, C85_panics t hw v hr hf⟩

/-- Decode after Encode after Decode is Decode: what Encode writes for a decoded value decodes to the same value, and is no longer than what was decoded. -/
theorem C86_normalises (t : Ty) (hs : t.Strait) (hw : t.Whole) (hd : t.Decodable .decode) (fin : Err) (bs r out : Bytes) (v : t.Val) (h : (decode t t.zero).runE fin bs = .ok (v, none) r)
    (ho : (encode t v).Writes out) : ∃ w, bs = w ++ r ∧ out.length ≤ w.length ∧ (decode t t.zero).Reads out v := by
  obtain ⟨w, hb, ht⟩ := (C81_decode t hs fin bs v r).1 h
  obtain ⟨hr, _⟩ := calm_ty t .decode (by simp [Mode.Plain]) hd v w ht
  obtain ⟨hf, hl⟩ := (C85_iff t hw v hr out).1 ho
  obtain ⟨o, h1, h2, h3⟩ := canon_ty t .decode (by simp [Mode.Plain]) hd v w hf ht
  rw [t.layout_unique v o out h1 hl] at h2 h3
  exact ⟨w, hb, h3, (C81_decode t hs).reads h2⟩

/-- The same for UnmarshalABI and MarshalABI of the types of package chain. -/
theorem C86_chain (c : ChainTy) (old : c.Val) (ho : c.Clean old) (fin : Err) (bs r out : Bytes) (v : c.Val) (h : (c.unmarshal old).runE fin bs = .ok (v, none) r)
    (hw : (c.marshal v).Writes out) : ∃ w, bs = w ++ r ∧ out.length ≤ w.length ∧ ∀ old', c.Clean old' → (c.unmarshal old').Reads out v := by
  obtain ⟨w, hb, ht⟩ := (C80_chain c old ho fin bs v r).1 h
  obtain ⟨hf, hl⟩ := (C85_chain c v (chain_takes_real c v w ht) out).1 hw
  obtain ⟨o, h1, h2, h3⟩ := canon_chain c v w hf ht
  rw [c.layout_unique v o out h1 hl] at h2 h3
  exact ⟨w, hb, h3, fun old' ho' => (C80_chain c old' ho').reads h2⟩

/-- map[string]bool -/
def canonTy : Ty := .map (.basic .string) (.basic .bool)

/-- Non-vacuity: a map with an overlong count, a repeated key and a bool that is 7 is written again in four bytes. -/
example : canonTy.Strait ∧ canonTy.Whole ∧ canonTy.Decodable .decode := by
  refine ⟨⟨?_, trivial, trivial⟩, ⟨trivial, trivial⟩, ⟨?_, ?_, ?_⟩⟩ <;> simp [Ty.KeyType, Ty.Decodable]
example : (decode canonTy canonTy.zero).runE .eof [0x82, 0, 1, 65, 0, 1, 65, 7, 9] = .ok ((some [(asc "A", true)] : Option (List (Bytes × Bool))), none) [9] ∧
    (encode canonTy (some [(asc "A", true)] : Option (List (Bytes × Bool)))).Writes [1, 1, 65, 1] := ⟨rfl, rfl⟩

/-- A length above the bound: what was read cannot be written. -/
theorem C86_panics_reached : (decode (.basic .uint) (0 : UInt64)).runE .eof [0x80, 0x80, 0x80, 0x80, 1] = .ok ((268435456 : UInt64), none) [] ∧
    ∃ w, (encode (.basic .uint) (268435456 : UInt64)).run = .panic w := ⟨rfl, _, rfl⟩

/-- struct { _ uint8 `eosio:"optional"`; B uint8 } -/
def blankTy : Ty := .struct (.cons .blank .optional (.basic .u8) (.cons .exported .none (.basic .u8) .nil))

/-- A field called _ with the tag optional is written but not read: what Encode writes decodes to another value. -/
theorem C86_blank_differs : (encode blankTy ((0, 5, ()) : UInt8 × UInt8 × Unit)).Writes [0, 5] ∧
    (decode blankTy blankTy.zero).runE .eof [0, 5] = .ok (((0, 0, ()) : UInt8 × UInt8 × Unit), none) [5] := ⟨rfl, rfl⟩

end Verif
