import Verif.Lemmas.Evolve
import Verif.Lemmas.Run
/-! # C107: Go structs that get further fields -/
namespace Verif

/-- Encode writes the struct without the further fields, then a struct of the further fields. -/
theorem C107_encode (fs gs : Fields) (x : fs.Val) (y : gs.Val) : encode (.struct (fs.append gs)) (fs.join gs x y) =
    encode (.struct fs) x >>= fun err => match err with
      | some e => pure (some e)
      | none => encode (.struct gs) y := encodeFields_append _ gs y fs x

/-- Decode, into any destination: the struct without the further fields is decoded, and if that succeeds a struct of the further fields; otherwise they keep what they held. The first fields
contain no extension. -/
theorem C107_decode (fs gs : Fields) (h : fs.NoTail) (x : fs.Val) (y : gs.Val) : decode (.struct (fs.append gs)) (fs.join gs x y) =
    decode (.struct fs) x >>= fun (xs, err) => match err with
      | some e => pure (fs.join gs xs y, some e)
      | none => decode (.struct gs) y >>= fun (ys, err) => pure (fs.join gs xs ys, err) := decodeFields_append _ gs y fs x h

/-- Data written with the further fields, read by a program that does not know them: the fields it knows are the same, and what is left are the further fields. -/
theorem C107_new_data (fs gs : Fields) (h : fs.NoTail) (x : fs.Val) (y : gs.Val) (fin : Err) (s r : Bytes) (xs : fs.Val) (ys : gs.Val) (m : Bytes)
    (h1 : (decode (.struct fs) x).runE fin s = .ok (xs, none) m) : (decode (.struct (fs.append gs)) (fs.join gs x y)).runE fin s = .ok (fs.join gs xs ys, none) r ↔
      (decode (.struct gs) y).runE fin m = .ok (ys, none) r := by
  rw [decodeFields_run fs gs h x y fin s xs m h1]
  cases (decode (.struct gs) y).runE fin m with
  | panic w => exact ⟨(fun h => nomatch h), (fun h => nomatch h)⟩
  | diverge => exact ⟨(fun h => nomatch h), (fun h => nomatch h)⟩
  | ok a r' =>
    obtain ⟨ys', err⟩ := a
    constructor
    · intro h
      have h : Out.ok (fs.join gs xs ys', err) r' = .ok (fs.join gs xs ys, none) r := h
      injection h with h h'
      injection h with h h''
      rw [join_inj fs gs xs ys' ys h, h'', h']
    · intro h
      injection h with h h'
      injection h with h h''
      rw [h, h', h'']
      rfl

/-- Data written before the further field was added, as a binary extension: everything is in its place, the further field is zero, but io.EOF is returned. The field is of any type that is
not read from no input. -/
theorem C107_old_data_violated (fs : Fields) (h : fs.NoTail) (t : Ty) (x : fs.Val) (y z : t.Val) (s : Bytes) (xs : fs.Val) (r : Bytes)
    (h1 : (decode (.struct fs) x).run s = .ok (xs, none) [])
    (h2 : (decode (.struct (.cons .exported .none t .nil)) (y, ())).run [] = .ok ((z, ()), some .eof) r) :
    (decode (.struct (fs.append (.cons .exported .extension t .nil))) (fs.join _ x (y, ()))).run s = .ok (fs.join _ xs (t.zero, ()), some .eof) r := by
  refine (decodeFields_run fs (.cons .exported .extension t .nil) h x (y, ()) .eof s xs [] h1).trans ?_
  have h2 : (decodeWith chainDecoder t .elem (t.alloc y) >>= fun (w, err) => match err with
    | some e => (pure ((w, ()), some e) : Dec ((t.Val × Unit) × Option Err))
    | none => pure ((w, ()), none)).runE .eof [] = .ok ((z, ()), some .eof) r := h2
  rw [Dec.runE_bind] at h2
  have h3 : (decode (.struct (.cons .exported .extension t .nil)) (y, ())).runE .eof [] = .ok ((t.zero, ()), some .eof) r := by
    show (decodeWith chainDecoder t .elem (t.alloc y) >>= fun (w, err) => match err with
      | some e => if e = .eof then (pure ((t.zero, ()), some .eof) : Dec ((t.Val × Unit) × Option Err)) else pure ((w, ()), some e)
      | none => pure ((w, ()), none)).runE .eof [] = _
    rw [Dec.runE_bind]
    cases hd : (decodeWith chainDecoder t .elem (t.alloc y)).runE .eof [] with
    | panic w => rw [hd] at h2; cases h2
    | diverge => rw [hd] at h2; cases h2
    | ok a r' =>
      rw [hd] at h2
      obtain ⟨w, _ | e⟩ := a
      · cases h2
      · have h2 : Out.ok ((w, ()), some e) r' = .ok ((z, ()), some .eof) r := h2
        injection h2 with h2 h'
        injection h2 with _ h2
        cases h2
        rw [← h']
        rfl
  rw [h3]
  rfl

/-- A variant that gets further members (pointers, slices or maps): what has the index of a member it had is decoded as before, and the further members are set to nil. -/
theorem C107_variant (fs gs : Fields) (idx : Nat) (hi : idx < fs.count) (x : fs.Val) (y y' : gs.Val) (hy : gs.clear none y = some y') :
    decodeWith chainDecoder (.struct (fs.append gs)) (.variant idx) (fs.join gs x y) =
      decodeWith chainDecoder (.struct fs) (.variant idx) x >>= fun (xs, err) => pure (fs.join gs xs y', err) := by
  rw [variant_struct fs]
  exact (variant_struct (fs.append gs) idx (fs.join gs x y)).trans (variantOf_append fs gs idx hi x y y' hy)

/-- The index of a further member is refused by a program that does not know it. -/
theorem C107_variant_new (fs : Fields) (x : fs.Val) (idx : UInt8) (hi : fs.count ≤ idx.toNat) (fin : Err) (s : Bytes) :
    (decodeVariant (.struct fs) x).runE fin (idx :: s) = .ok (x, some errVariantIndex) s := by
  show (decodeWith chainDecoder (.struct fs) (.variant idx.toNat) x).runE fin s = _
  rw [variant_struct, variantOf_past fs _ hi]
  rfl

/-! ## Examples -/

/-- struct { A uint8; B string } -/
def oldFields : Fields := .cons .exported .none (.basic .u8) (.cons .exported .none (.basic .string) .nil)
/-- C uint16 `eosio:"extension"` -/
def moreFields : Fields := .cons .exported .extension (.basic .u16) .nil

example : oldFields.NoTail := ⟨by decide, by decide, trivial⟩
example : (encode (.struct (oldFields.append moreFields)) ((7 : UInt8), asc "hi", (300 : UInt16), ())).run = .ok none [7, 2, 104, 105, 44, 1] := rfl
/-- The further field is left -/
example : (decode (.struct oldFields) (Ty.struct oldFields).zero).run [7, 2, 104, 105, 44, 1] = .ok (((7 : UInt8), asc "hi", ()), none) [44, 1] := rfl
/-- Old data: every field is set, and io.EOF is returned. -/
example : (decode (.struct (oldFields.append moreFields)) ((0 : UInt8), ([] : Bytes), (9 : UInt16), ())).run [7, 2, 104, 105] =
    .ok (((7 : UInt8), asc "hi", (0 : UInt16), ()), some .eof) [] :=
  C107_old_data_violated oldFields ⟨by decide, by decide, trivial⟩ (.basic .u16) ((0 : UInt8), ([] : Bytes), ()) (9 : UInt16) (0 : UInt16) _ ((7 : UInt8), asc "hi", ()) [] rfl rfl

/-- struct { A *uint32; B *uint64 }, then C *string -/
def oldVariant : Fields := .cons .exported .none (.ptr (.basic .u32)) (.cons .exported .none (.ptr (.basic .u64)) .nil)
def moreVariant : Fields := .cons .exported .none (.ptr (.basic .string)) .nil
example : moreVariant.clear none (some (asc "x"), ()) = some ((none : Option Bytes), ()) := rfl
example : (decodeVariant (.struct (oldVariant.append moreVariant)) ((none : Option UInt32), (some 3 : Option UInt64), (some (asc "x") : Option Bytes), ())).run [0, 5, 0, 0, 0] =
    .ok (((some 5 : Option UInt32), (none : Option UInt64), (none : Option Bytes), ()), none) [] := rfl
example : (decodeVariant (.struct oldVariant) ((none : Option UInt32), (none : Option UInt64), ())).run [2, 1, 120] =
    .ok (((none : Option UInt32), (none : Option UInt64), ()), some errVariantIndex) [1, 120] := C107_variant_new oldVariant _ 2 (by decide) .eof _

end Verif
