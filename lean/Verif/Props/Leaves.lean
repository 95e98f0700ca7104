import Verif.Lemmas.Leaves
/-! # C99: what a failed `Decode` leaves in the destination

pkg/abi/decode.go:30-308 and the methods UnmarshalABI of package chain. A destination that is decoded in parts keeps the parts read before the error. -/
namespace Verif

/-- A method UnmarshalABI of package chain, for any previous value and any input, however the input ends. -/
theorem C99_chain (c : ChainTy) (old new : c.Val) (fin : Err) (s r : Bytes) (e : Err) (h : (c.unmarshal old).runE fin s = .ok (new, some e) r) : c.Leaves old new :=
  chain_ruins c old fin s new e r h

/-- The methods of these types change nothing if they return an error. -/
theorem C99_kept (c : ChainTy) (hc : c ∈ [.blob, .blockNum, .blockTimestamp, .bytes, .checksum160, .checksum256, .checksum512, .float128, .int128, .name, .symbol, .symbolCode, .timePoint, .timePointSec,
    .uint128, .uint64]) (old new : c.Val) (fin : Err) (s r : Bytes) (e : Err) (h : (c.unmarshal old).runE fin s = .ok (new, some e) r) : new = old := by
  have := C99_chain c old new fin s r e h
  cases c <;> first | exact this | simp at hc

/-- Decode(&x) for any type, any previous content (`Held`) and any input. -/
theorem C99_decode (t : Ty) (ht : t.Exported) (old : t.Val) (ho : t.Held old) (fin : Err) (s : Bytes) (new : t.Val) (e : Err) (r : Bytes) (h : (decode t old).runE fin s = .ok (new, some e) r) :
    t.Leaves fin .decode old s new := ty_ruins t ht .decode old ho fin s new e r h

/-- DecodeVariant(&x): nothing is changed if the index cannot be read or is too large; otherwise the selected member is as it was and the others are nil. -/
theorem C99_variant (fs : Fields) (ht : fs.Exported) (old : fs.Val) (ho : fs.Held old) (fin : Err) (s : Bytes) (new : fs.Val) (e : Err) (r : Bytes)
    (h : (decodeVariant (.struct fs) old).runE fin s = .ok (new, some e) r) :
    s = [] ∧ new = old ∨ ∃ (idx : UInt8) (s' : Bytes), s = idx :: s' ∧ if fs.count ≤ idx.toNat then new = old else fs.LeavesMember idx.toNat old new := by
  obtain ⟨⟨i, o⟩, m, h1, h2⟩ := ruins_run h
  cases o with
  | some e => cases h2; exact .inl ⟨(readByte_ruins fin s _ _ _ h1).1, rfl⟩
  | none =>
    obtain ⟨w, rfl, rfl⟩ := (readByte_exactly fin s i m).1 h1
    exact .inr ⟨i, m, rfl, ty_ruins (.struct fs) ht (.variant i.toNat) old ho fin m new e r h2⟩

/-- Decode(&x) for a bool, a number or a string: x is set to zero. -/
theorem C99_basic (b : Basic) (old new : b.Val) (fin : Err) (s r : Bytes) (e : Err) (h : (decode (.basic b) old).runE fin s = .ok (new, some e) r) : new = b.zero := by
  have h' : if (Mode.decode = .decode ∨ Mode.decode = .elem) then new = b.zero else new = old := C99_decode (.basic b) trivial old trivial fin s new e r h
  rwa [if_pos (.inl rfl)] at h'

/-- Decode(&x) for a struct of two fields without tags: the second is untouched, or the first has been decoded. -/
theorem C99_pair (t u : Ty) (ht : t.Exported) (hu : u.Exported) (a a' : t.Val) (b b' : u.Val) (ha : t.Held a) (hb : u.Held b) (fin : Err) (s r : Bytes) (e : Err)
    (h : (decode (.struct (.cons .exported .none t (.cons .exported .none u .nil))) ((a, (b, ())) : t.Val × u.Val × Unit)).runE fin s = .ok (((a', (b', ())) : t.Val × u.Val × Unit), some e) r) :
    b' = b ∨ ∃ v m, t.Gives fin .elem v s m ∧ t.Agree a' v ∧ u.Leaves fin .elem b m b' := by
  have := C99_decode (.struct (.cons .exported .none t (.cons .exported .none u .nil))) ⟨by decide, ht, by decide, hu, trivial⟩ ((a, (b, ())) : t.Val × u.Val × Unit) ⟨ha, nofun, hb, nofun, trivial⟩ fin s _ e r h
  rcases this with ⟨_, h⟩ | ⟨m, ⟨v, h1, h2⟩, h⟩
  · exact .inl (congrArg (fun x : u.Val × Unit => x.1) h)
  · rcases h with ⟨h, _⟩ | ⟨m', ⟨w, h3, h4⟩, h⟩
    · exact .inr ⟨v, m, h1, h2, h⟩
    · exact nomatch h

/-! ## Examples -/

/- struct { A uint8; B uint16 } held {1, 2}, the input is one byte: A is new, B is set to 0 -/
example : (decode (.struct (.cons .exported .none (.basic .u8) (.cons .exported .none (.basic .u16) .nil))) ((1, (2, ())) : UInt8 × UInt16 × Unit)).run [7] =
    .ok (((7, (0, ())) : UInt8 × UInt16 × Unit), some .eof) [] := by decide +kernel
/- a name keeps its value -/
example : (decode (.chain .name) (5 : UInt64)).run [1, 2, 3] = .ok ((5 : UInt64), some .unexpectedEOF) [] := by decide +kernel
/- three numbers announced, one and a half there: the third is new and zero, although the slice held two others -/
example : (decode (.slice (.basic .u16)) (some [8, 9] : Option (List UInt16))).run [3, 1, 0, 2] = .ok ((some [1, 0, 0] : Option (List UInt16)), some .unexpectedEOF) [] := by decide +kernel
/- two announced: the old slice is used, the second is set to zero -/
example : (decode (.slice (.basic .u16)) (some [8, 9] : Option (List UInt16))).run [2, 1, 0] = .ok ((some [1, 0] : Option (List UInt16)), some .eof) [] := by decide +kernel
/- a union that held its first member: the second cannot be decoded -/
example : (decodeVariant (.struct (.cons .exported .none (.ptr (.basic .u32)) (.cons .exported .none (.ptr (.basic .u16)) .nil))) ((some 5, (none, ())) : Option UInt32 × Option UInt16 × Unit)).run [1, 1] =
    .ok (((none, (none, ())) : Option UInt32 × Option UInt16 × Unit), some .unexpectedEOF) [] := by decide +kernel

/-- A failed Decode is not undone: an asset of which only the amount is there gets this amount and no symbol. -/
theorem C99_undone_violated : ∃ (old new : Asset) (s : Bytes) (e : Err), (decode (.chain .asset) old).run s = .ok (new, some e) [] ∧ new ≠ old :=
  ⟨⟨1, 1124864004⟩, ⟨7, 0⟩, [7, 0, 0, 0, 0, 0, 0, 0], .eof, by decide +kernel, by decide⟩

end Verif
