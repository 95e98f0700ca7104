import Verif.Lemmas.ReflectEnds
import Verif.Props.Takes
/-! C93: what Decode makes of every input, extensions included; where it returns io.EOF -/
namespace Verif
open Dec

/-- The methods of package chain: io.EOF exactly where `ChainTy.Dry` says, and then the input is used up. -/
theorem C93_chain (c : ChainTy) (fin : Err) (s r : Bytes) : (∃ v, (c.unmarshal c.zero).runE fin s = .ok (v, some .eof) r) ↔ fin = .eof ∧ c.Dry s ∧ r = [] := chain_dries c fin s r

/-- Decode(&x), success: for any type, with extension fields. -/
theorem C93_decode (t : Ty) (_ht : t.Keyed) (fin : Err) (s : Bytes) (v : t.Val) (r : Bytes) : (decode t t.zero).runE fin s = .ok (v, none) r ↔ t.Gives fin .decode v s r :=
  (ty_does t .decode).gives fin s v r

/-- Decode(&x), io.EOF. -/
theorem C93_eof (t : Ty) (_ht : t.Keyed) (fin : Err) (s r : Bytes) : (∃ v, (decode t t.zero).runE fin s = .ok (v, some .eof) r) ↔ fin = .eof ∧ t.Stops .decode s ∧ r = [] :=
  (ty_does t .decode).stops fin s r

/-- If the variable for the error holds io.EOF after the last field, all fields are in place although io.EOF is returned. -/
theorem C93_lacking (fs : Fields) (_ht : fs.Keyed) (fin : Err) (s : Bytes) (v : fs.Val) (r : Bytes) (h : fs.Gives fin false true v s r) :
    fin = .eof ∧ r = [] ∧ (decode (.struct fs) (Ty.struct fs).zero).runE fin s = .ok (v, some .eof) [] := by
  have h1 := (fields_ran fs false fin s (by simp)).lacks v r h
  have h2 := ((fields_ran fs false fin s (by simp)).stops r).1 ⟨v, h1⟩
  refine ⟨h2.1, h2.2.2, ?_⟩
  rw [← h2.2.2]
  exact h1

/-- DecodeVariant(&x), success. -/
theorem C93_variant (t : Ty) (_ht : t.Keyed) (fin : Err) (s : Bytes) (v : t.Val) (r : Bytes) :
    (decodeVariant t t.zero).runE fin s = .ok (v, none) r ↔ ∃ (idx : UInt8) (s' : Bytes), s = idx :: s' ∧ t.Gives fin (.variant idx.toNat) v s' r := by
  have h := readByte_does.bind (f := fun x => match x with | (idx, err) => match err with | some e => pure (t.zero, some e) | none => decodeWith chainDecoder t (.variant idx.toNat) t.zero)
    (fun idx => ty_does t (.variant idx.toNat)) fun _ _ => ⟨_, rfl⟩
  refine (h.gives fin s v r).trans ⟨?_, ?_⟩
  · rintro ⟨idx, m, ⟨_, rfl, rfl⟩, h⟩
    exact ⟨idx, m, rfl, h⟩
  · rintro ⟨idx, m, rfl, h⟩
    exact ⟨idx, m, ⟨[idx], rfl, rfl⟩, h⟩

/-- DecodeVariant(&x), io.EOF. -/
theorem C93_variant_eof (t : Ty) (_ht : t.Keyed) (fin : Err) (s r : Bytes) :
    (∃ v, (decodeVariant t t.zero).runE fin s = .ok (v, some .eof) r) ↔ fin = .eof ∧ (s = [] ∨ ∃ (idx : UInt8) (s' : Bytes), s = idx :: s' ∧ t.Stops (.variant idx.toNat) s') ∧ r = [] := by
  have h := readByte_does.bind (f := fun x => match x with | (idx, err) => match err with | some e => pure (t.zero, some e) | none => decodeWith chainDecoder t (.variant idx.toNat) t.zero)
    (fun idx => ty_does t (.variant idx.toNat)) fun _ _ => ⟨_, rfl⟩
  refine (h.stops fin s r).trans (and_congr_right fun _ => and_congr_left fun _ => or_congr Iff.rfl ⟨?_, ?_⟩)
  · rintro ⟨idx, m, ⟨_, rfl, rfl⟩, h⟩
    exact ⟨idx, m, rfl, h⟩
  · rintro ⟨idx, m, rfl, h⟩
    exact ⟨idx, m, ⟨[idx], rfl, rfl⟩, h⟩

/-- Without extensions the end of the input plays no role for success: the language is that of C81. -/
theorem C93_strait (t : Ty) (ht : t.Strait) (fin : Err) (s r : Bytes) (v : t.Val) : t.Gives fin .decode v s r ↔ ∃ w, t.Takes .decode v w ∧ s = w ++ r := by
  rw [← (ty_does t .decode).gives fin s v r]
  exact (C81_decode t ht fin s v r).trans ⟨fun ⟨w, h1, h2⟩ => ⟨w, h2, h1⟩, fun ⟨w, h1, h2⟩ => ⟨w, h2, h1⟩⟩

/-- struct{ A uint8; B []uint16 `extension`; C [0]uint8 } -/
def cutType : Ty := .struct (.cons .exported .none (.basic .u8) (.cons .exported .extension (.slice (.basic .u16)) (.cons .exported .none (.array 0 (.basic .u8)) .nil)))

/-- Decode should not report success on an input that ends inside a field. It does: the extension is announced with two elements and has one; it is dropped, and the
last field, which takes no bytes, resets the error. -/
theorem C93_silent_violated : (decode cutType cutType.zero).runE .eof [7, 2, 1, 0] = .ok (((7 : UInt8), (none : Option (List UInt16)), ([] : List UInt8), ()), none) [] := by rfl

/-! ## Examples -/

/-- struct{ A uint8; B uint16 `extension` } -/
def extType : Ty := .struct (.cons .exported .none (.basic .u8) (.cons .exported .extension (.basic .u16) .nil))

example : extType.Keyed := ⟨trivial, trivial, trivial⟩
example : cutType.Keyed := ⟨trivial, trivial, trivial, trivial⟩

/- the extension is there -/
example : extType.Gives .eof .decode ((7 : UInt8), (258 : UInt16), ()) [7, 2, 1] [] :=
  (C93_decode extType ⟨trivial, trivial, trivial⟩ _ _ _ _).1 rfl
/- the extension is absent: all fields are in place, io.EOF is returned -/
example : Fields.Gives .eof (.cons .exported .none (.basic .u8) (.cons .exported .extension (.basic .u16) .nil)) false true ((7 : UInt8), (0 : UInt16), ()) [7] [] :=
  ⟨[], ⟨[7], ⟨.inr (.inl rfl), by exact ⟨rfl, rfl⟩⟩, rfl⟩, .inr ⟨rfl, ⟨.inr (.inl rfl), rfl⟩, rfl, rfl, rfl⟩⟩
example : extType.Stops .decode [7] := ((C93_eof extType ⟨trivial, trivial, trivial⟩ .eof [7] []).1 ⟨((7 : UInt8), (0 : UInt16), ()), rfl⟩).2.1
/- half of the extension is there: another error -/
example : ¬ extType.Stops .decode [7, 2] := fun h => by
  obtain ⟨v, h⟩ := (C93_eof extType ⟨trivial, trivial, trivial⟩ .eof [7, 2] []).2 ⟨rfl, h, rfl⟩
  cases h
/- an Action that ends inside the account -/
example : ChainTy.Dry .action [1, 2, 3] := .inl (by decide)

end Verif
