import Verif.Lemmas.CodegenCompile
import Verif.Props.Reflect
/-! # C60: pkg/codegen -/
namespace Verif

/-! ## MarshalABI -/

/-- The full claim, over all structs of supported fields, is false; see the `violated` theorems. Proved for the fields `WriteOk`: the generated MarshalABI
succeeds exactly when the reflection codec does, with the same bytes. -/
theorem C60_marshal_partial (n : Nat) (fs : Fields) (h : fs.All (WriteOk (HasCode WriteOk n))) (v : fs.Val) (hv : fs.Fits v) (bs : Bytes) :
    (runMarshal (generated n) fs v).Writes bs ↔ (encode (.struct fs) v).Writes bs := runMarshal_eqv (generated_marshal n) fs h v hv bs

/-- It compiles unless it has arrays and no slices. -/
theorem C60_marshal_compiles_partial (n : Nat) (fs : Fields) (h : fs.All (WriteOk (HasCode WriteOk n))) (has : Ty → Bool) (hh : ∀ u, HasCode WriteOk n u → has u = true) :
    fs.marshalCompiles has = true ↔ (fs.Any ArrayField → fs.Any SliceField) := by
  obtain ⟨l, h1, h2, h3, h4⟩ := writeOk_fields (code_kind _ n) hh fs h
  have e : l.any (fun f => f.isSlice || f.isArray) = (l.any (·.isSlice) || l.any (·.isArray)) := by
    clear h1 h3 h4
    induction l with
    | nil => rfl
    | cons f l ih => simp only [List.any_cons, ih]; cases f.isSlice <;> cases f.isArray <;> cases l.any (·.isSlice) <;> simp
  unfold Fields.marshalCompiles
  simp only [h1, h2, writeDecls, FnDecls.fit, genWrite_exists, genWrite_length, e, ← h3, ← h4]
  cases l.any (·.isSlice) <;> cases l.any (·.isArray) <;> simp

/-! ## UnmarshalABI -/

/-- Proved for the fields `ReadOk` and a new variable: the generated UnmarshalABI succeeds on the inputs on which the reflection codec does, reads the same bytes
and finds the same value, up to nil for empty slices. -/
theorem C60_unmarshal_partial (n : Nat) (fs : Fields) (h : fs.All (ReadOk (HasCode ReadOk n))) (fin : Err) (bs rest : Bytes) :
    (∀ v, (runUnmarshal (generated n) fs fs.zero).runE fin bs = .ok (v, none) rest → ∃ w, fs.Same v w ∧ (decode (.struct fs) fs.zero).runE fin bs = .ok (w, none) rest) ∧
    (∀ w, (decode (.struct fs) fs.zero).runE fin bs = .ok (w, none) rest → ∃ v, fs.Same v w ∧ (runUnmarshal (generated n) fs fs.zero).runE fin bs = .ok (v, none) rest) := by
  have := runUnmarshal_both (generated_unmarshal n) (fun c => by cases n <;> exact trivial) fs h
  exact ⟨fun v hv => this.1 fin bs v rest hv, fun w hw => this.2 fin bs w rest hw⟩

/-- It compiles if at most one field is a pointer that is not optional. -/
theorem C60_unmarshal_compiles_partial (n : Nat) (fs : Fields) (h : fs.All (ReadOk (HasCode ReadOk n))) (has : Ty → Bool) (hh : ∀ u, HasCode ReadOk n u → has u = true) :
    fs.unmarshalCompiles has = true ↔ fs.AtMostOne PtrField := by
  obtain ⟨l, h1, h2, h3, h4⟩ := readOk_fields (code_kind _ n) hh (fun c => by cases n <;> exact trivial) fs h
  unfold Fields.unmarshalCompiles
  simp only [h1, h2, readDecls, FnDecls.fit, genRead_exists, genRead_length, ← h4]
  simp

/-- Bytes written by the one codec are read by the other. -/
theorem C60_interop_partial (n : Nat) (fs : Fields) (hW : fs.All (WriteOk (HasCode WriteOk n))) (hR : fs.All (ReadOk (HasCode ReadOk n))) (v : fs.Val) (hv : fs.Fits v)
    (he : (Ty.struct fs).Encodable) (hd : (Ty.struct fs).Decodable .decode) (hw : (Ty.struct fs).Wf v) :
    ∃ bs, (runMarshal (generated n) fs v).Writes bs ∧ (encode (.struct fs) v).Writes bs ∧
      ∀ fin rest, ∃ w, fs.Same v w ∧ (decode (.struct fs) fs.zero).runE fin (bs ++ rest) = .ok (w, none) rest ∧
        ∃ u, fs.Same u w ∧ (runUnmarshal (generated n) fs fs.zero).runE fin (bs ++ rest) = .ok (u, none) rest := by
  obtain ⟨bs, h1, h2⟩ := C40_roundtrip_partial (.struct fs) v he hd hw
  obtain ⟨w, h3, h4⟩ := h2 fs.zero (clean_zero (.struct fs))
  refine ⟨bs, (C60_marshal_partial n fs hW v hv bs).2 h1, h1, fun fin rest => ⟨w, h3, h4 fin rest, (C60_unmarshal_partial n fs hR fin (bs ++ rest) rest).2 w (h4 fin rest)⟩⟩

/-! A struct with a nested struct, an array, a slice, an optional and a pointer -/

/-- struct { A uint16; B []chain.Name; C struct { X uint8; Y chain.Asset }; D [2]uint32; E *int32 `eosio:"optional"`; F *string } -/
def cgSample : Fields := .cons .exported .none (.basic .u16) <| .cons .exported .none (.slice (.chain .name)) <|
  .cons .exported .none (.struct <| .cons .exported .none (.basic .u8) <| .cons .exported .none (.chain .asset) .nil) <|
  .cons .exported .none (.array 2 (.basic .u32)) <| .cons .exported .optional (.ptr (.basic .i32)) <| .cons .exported .none (.ptr (.basic .string)) .nil
def cgSampleVal : cgSample.Val :=
  ((0x0102 : UInt16), (some [7] : Option (List UInt64)), (((9 : UInt8), (⟨1, 2⟩ : Asset), ()) : UInt8 × Asset × Unit), ([3, 4] : List UInt32), (none : Option Int32), (some (asc "a") : Option Bytes), ())

theorem cgSample_ok : cgSample.All (WriteOk (HasCode WriteOk 1)) ∧ cgSample.All (ReadOk (HasCode ReadOk 1)) ∧ cgSample.Fits cgSampleVal ∧ (Ty.struct cgSample).Encodable ∧
    (Ty.struct cgSample).Decodable .decode ∧ (Ty.struct cgSample).Wf cgSampleVal := by
  refine ⟨?_, ?_, ?_, ?_, ?_, ?_⟩
  · simp [cgSample, Fields.All, WriteOk, WriteElem, HasCode]
  · simp [cgSample, Fields.All, ReadOk, ReadElem, HasCode]
  · exact ⟨trivial, fun _ _ => trivial, ⟨trivial, trivial, trivial⟩, ⟨rfl, fun _ _ => trivial⟩, fun _ _ => trivial, fun _ _ => trivial, trivial⟩
  · simp [cgSample, Ty.Encodable, Fields.Encodable]
  · simp [cgSample, Ty.Decodable, Fields.Decodable]
  · exact ⟨.inr trivial, .inr ⟨by decide, by decide, fun _ _ => trivial⟩, .inr ⟨.inr trivial, .inr trivial, trivial⟩, .inr ⟨rfl, fun _ _ => trivial⟩, .inl ⟨rfl, rfl⟩,
      .inr ⟨asc "a", rfl, (by decide : (asc "a").length < 2 ^ 28)⟩, trivial⟩

example : (runMarshal (generated 1) cgSample cgSampleVal).Writes [2, 1, 1, 7, 0, 0, 0, 0, 0, 0, 0, 9, 1, 0, 0, 0, 0, 0, 0, 0, 2, 0, 0, 0, 0, 0, 0, 0, 3, 0, 0, 0, 4, 0, 0, 0, 0, 1, 97] := by decide +kernel
example : cgSample.Any ArrayField ∧ cgSample.Any SliceField ∧ cgSample.AtMostOne PtrField := by
  simp [cgSample, Fields.Any, Fields.AtMostOne, ArrayField, SliceField, PtrField]
example : cgSample.marshalCompiles (fun _ => true) = true ∧ cgSample.unmarshalCompiles (fun _ => true) = true := by decide +kernel

/-! ## Structs that go wrong -/

/-- struct { X T } -/
def oneField (tag : Tag) (t : Ty) : Fields := .cons .exported tag t .nil

/-- struct { X [2]uint8 }: `length` is declared and not used. -/
theorem C60_array_violated : (oneField .none (.array 2 (.basic .u8))).All (WriteOk (HasCode WriteOk 0)) ∧ ∀ has, (oneField .none (.array 2 (.basic .u8))).marshalCompiles has = false := by
  have h : (oneField .none (.array 2 (.basic .u8))).All (WriteOk (HasCode WriteOk 0)) := by simp [oneField, Fields.All, WriteOk, WriteElem]
  exact ⟨h, fun has => rfl⟩

/-- struct { X [][]byte }: MarshalABI compiles and writes the elements without their lengths; UnmarshalABI calls ReadBytes without its argument. -/
theorem C60_bytes_violated (has : Ty → Bool) : (oneField .none (.slice .bytes)).marshalCompiles has = true ∧ (oneField .none (.slice .bytes)).unmarshalCompiles has = false ∧
    ∀ n, ∃ (v : (oneField .none (.slice .bytes)).Val) (bs bs' : Bytes), (oneField .none (.slice .bytes)).Fits v ∧ (Ty.struct (oneField .none (.slice .bytes))).Wf v ∧
      (runMarshal (generated n) (oneField .none (.slice .bytes)) v).Writes bs ∧ (encode (.struct (oneField .none (.slice .bytes))) v).Writes bs' ∧ bs ≠ bs' := by
  refine ⟨rfl, rfl, fun n => ⟨((some [some (asc "a")] : Option (List (Option Bytes))), ()), [1, 97], [1, 1, 97], ?_, ?_, rfl, rfl, by decide⟩⟩
  · exact ⟨fun _ _ => trivial, trivial⟩
  · refine ⟨.inr ⟨by decide, by decide, fun x hx => ?_⟩, trivial⟩
    cases List.mem_singleton.1 hx
    exact (by decide : (asc "a").length < 2 ^ 28)

/-- struct { X []T } with T a struct of the same package: UnmarshalABI names it main.T. -/
theorem C60_struct_slice_violated (fs : Fields) (has : Ty → Bool) (hh : has (.struct fs) = true) :
    (oneField .none (.slice (.struct fs))).marshalCompiles has = true ∧ (oneField .none (.slice (.struct fs))).unmarshalCompiles has = false := by
  have h : readTyped has .none (.slice (.struct fs)) = false := by
    unfold readTyped
    rw [show (Ty.slice (.struct fs)).goString = asc "[]" ++ (Ty.struct fs).goString from rfl, cgField_slice]
    simp only [genRead_slice]
    simp [RStmt.typed, Ty.resolves]
  refine ⟨?_, ?_⟩
  · have : writeTyped has .none (.slice (.struct fs)) = true := hh
    unfold Fields.marshalCompiles
    rw [show (oneField .none (.slice (.struct fs))).cgFields = some [⟨asc "main.T", false, false, true, false, 0⟩] from rfl,
      show (oneField .none (.slice (.struct fs))).typed (writeTyped has) = true by simp [oneField, Fields.typed, this]]
    rfl
  · unfold Fields.unmarshalCompiles
    rw [show (oneField .none (.slice (.struct fs))).typed (readTyped has) = false by simp [oneField, Fields.typed, h]]
    cases (oneField .none (.slice (.struct fs))).cgFields <;> simp

/-- struct { X *[]uint64 }, struct { X *[2]uint64 }: MarshalABI compiles, UnmarshalABI does not. -/
theorem C60_ptr_list_violated (has : Ty → Bool) : (oneField .none (.ptr (.slice (.basic .u64)))).marshalCompiles has = true ∧ (oneField .none (.ptr (.slice (.basic .u64)))).unmarshalCompiles has = false ∧
    (oneField .none (.ptr (.array 2 (.basic .u64)))).unmarshalCompiles has = false := ⟨rfl, rfl, rfl⟩

/-- struct { X, Y *uint64 }: `tmp` is declared twice. -/
theorem C60_two_pointers_violated (has : Ty → Bool) : (Fields.cons .exported .none (.ptr (.basic .u64)) (oneField .none (.ptr (.basic .u64)))).unmarshalCompiles has = false := rfl

/-- struct { X T } with T declared as []byte or as an integer type: the reflection codec writes a []byte, the generated code calls methods that T need not have. -/
theorem C60_declared_violated (has : Ty → Bool) : (oneField .none (.slice (.basic .u8))).marshalCompiles has = has (.slice (.basic .u8)) ∧
    (oneField .none (.slice (.basic .u8))).unmarshalCompiles has = has (.slice (.basic .u8)) ∧ (oneField .none (.named .u32)).marshalCompiles has = has (.named .u32) ∧
    ∃ bs, (encode (.struct (oneField .none (.slice (.basic .u8)))) ((some [7] : Option (List UInt8)), ())).Writes bs := by
  have tt : ∀ b : Bool, (b && true) = b := by decide
  refine ⟨?_, ?_, ?_, [1, 7], ?_⟩
  · unfold Fields.marshalCompiles
    rw [show (oneField .none (.slice (.basic .u8))).cgFields = some [⟨asc "main.T", false, false, false, false, 0⟩] by rfl,
      show (oneField .none (.slice (.basic .u8))).typed (writeTyped has) = has (.slice (.basic .u8)) by
        show (_ && true) = _
        rw [tt]; rfl]
    exact tt _
  · unfold Fields.unmarshalCompiles
    rw [show (oneField .none (.slice (.basic .u8))).cgFields = some [⟨asc "main.T", false, false, false, false, 0⟩] by rfl,
      show (oneField .none (.slice (.basic .u8))).typed (readTyped has) = has (.slice (.basic .u8)) by
        show (_ && true) = _
        rw [tt]; rfl]
    exact (tt _).trans (tt _)
  · unfold Fields.marshalCompiles
    rw [show (oneField .none (.named .u32)).cgFields = some [⟨asc "main.T", false, false, false, false, 0⟩] by rfl,
      show (oneField .none (.named .u32)).typed (writeTyped has) = has (.named .u32) by
        show (_ && true) = _
        rw [tt]; rfl]
    exact tt _
  · decide +kernel

/-- struct { X *chain.Name }, optional or not, and struct { X []*chain.Name }: both functions compile if Name has its methods, UnmarshalABI calls Name's on a nil pointer. -/
theorem C60_nil_violated (n : Nat) (has : Ty → Bool) (hh : has (.chain .name) = true) :
    (oneField .none (.ptr (.chain .name))).unmarshalCompiles has = true ∧ (oneField .optional (.ptr (.chain .name))).unmarshalCompiles has = true ∧
    (oneField .none (.slice (.ptr (.chain .name)))).unmarshalCompiles has = true ∧
    (∀ fin bs, ∃ w, (runUnmarshal (generated n) (oneField .none (.ptr (.chain .name))) (none, ())).runE fin bs = .panic w) ∧
    (∀ fin bs, ∃ w, (runUnmarshal (generated n) (oneField .optional (.ptr (.chain .name))) (none, ())).runE fin (1 :: bs) = .panic w) ∧
    (∀ fin bs, ∃ w, (runUnmarshal (generated n) (oneField .none (.slice (.ptr (.chain .name)))) (none, ())).runE fin (1 :: bs) = .panic w) ∧
    ∃ v, (decode (.struct (oneField .none (.ptr (.chain .name)))) (none, ())).run [0, 0, 0, 0, 0, 0, 0, 128] = .ok (v, none) [] := by
  have one (has : Ty → Bool) (hh : has (.chain .name) = true) : readTyped has .none (.ptr (.chain .name)) = true ∧ readTyped has .optional (.ptr (.chain .name)) = true ∧
    readTyped has .none (.slice (.ptr (.chain .name))) = true := ⟨hh, hh, hh⟩
  obtain ⟨h1, h2, h3⟩ := one has hh
  refine ⟨?_, ?_, ?_, ?_, ?_, ?_, ?_⟩
  · unfold Fields.unmarshalCompiles
    rw [show (oneField .none (.ptr (.chain .name))).typed (readTyped has) = true by simp [oneField, Fields.typed, h1]]
    rfl
  · unfold Fields.unmarshalCompiles
    rw [show (oneField .optional (.ptr (.chain .name))).typed (readTyped has) = true by simp [oneField, Fields.typed, h2]]
    rfl
  · unfold Fields.unmarshalCompiles
    rw [show (oneField .none (.slice (.ptr (.chain .name)))).typed (readTyped has) = true by simp [oneField, Fields.typed, h3]]
    rfl
  · cases n <;> exact fun fin bs => ⟨_, rfl⟩
  · cases n <;> exact fun fin bs => ⟨_, rfl⟩
  · cases n <;> exact fun fin bs => ⟨_, by with_unfolding_all rfl⟩
  · exact ⟨((some 0x8000000000000000 : Option UInt64), ()), by decide +kernel⟩

/-- Absent optionals leave the old content in place. -/
theorem C60_stale_violated (n : Nat) : (runUnmarshal (generated n) (oneField .optional (.ptr (.basic .u8))) ((some 7 : Option UInt8), ())).run [0] = .ok (((some 7 : Option UInt8), ()), none) [] ∧
    (decode (.struct (oneField .optional (.ptr (.basic .u8)))) ((some 7 : Option UInt8), ())).run [0] = .ok (((none : Option UInt8), ()), none) [] := ⟨rfl, rfl⟩

/-- Binary extensions are read as if they were always there: Decode sets all absent ones to zero, UnmarshalABI stops at the first. -/
theorem C60_extension_violated (n : Nat) : (runUnmarshal (generated n) (.cons .exported .extension (.basic .u8) (oneField .extension (.basic .u8))) ((1 : UInt8), (2 : UInt8), ())).run [] =
      .ok (((0 : UInt8), (2 : UInt8), ()), some .eof) [] ∧
    (decode (.struct (.cons .exported .extension (.basic .u8) (oneField .extension (.basic .u8)))) ((1 : UInt8), (2 : UInt8), ())).run [] =
      .ok (((0 : UInt8), (0 : UInt8), ()), some .eof) [] := ⟨rfl, rfl⟩

/-- The generator panics on optionals that are not pointers, which reflection writes and reads. -/
theorem C60_optional_violated : (oneField .optional (.basic .u8)).cgFields = none ∧ (Ty.struct (oneField .optional (.basic .u8))).Encodable ∧
    (Ty.struct (oneField .optional (.basic .u8))).Decodable .decode := ⟨rfl, by simp [oneField, Ty.Encodable, Fields.Encodable], by simp [oneField, Ty.Decodable, Fields.Decodable]⟩

/-- Maps, which reflection writes and reads: MarshalABI is called on the map. -/
theorem C60_map_violated (has : Ty → Bool) (h : ∀ k e, has (.map k e) = false) (k e : Ty) : (oneField .none (.map k e)).marshalCompiles has = false := by
  have hm : ∀ s ∈ methodNames, s.head? ≠ some 109 := by decide +kernel
  have h' : writeTyped has .none (.map k e) = false := by
    unfold writeTyped
    rw [cgField_plain (Ty.map k e).goString ⟨show some (109 : UInt8) ≠ some 42 by decide, show some (109 : UInt8) ≠ some 91 by decide⟩]
    simp only [genWrite_plain, codeW, methodOf_none (Ty.map k e).goString (fun h => hm _ h rfl)]
    exact h k e
  unfold Fields.marshalCompiles
  rw [show (oneField .none (.map k e)).typed (writeTyped has) = false by simp [oneField, Fields.typed, h']]
  cases (oneField .none (.map k e)).cgFields <;> simp

end Verif
