import Verif.Lemmas.MethodVariants
import Verif.Props.Methods
/-! # C116: DecodeVariant of types with methods -/
namespace Verif

/-- A variant whose alternatives may have methods: after the index n, the format of alternative n is read, into a new variable; the other pointers become nil, whatever was there -/
theorem C116_alternative (W : Formats) (M : Program) (hM : M.Keeps W) (ts : List MTy) (n : Nat) (hn : n < 256) (t : MTy) (ht : ts[n]? = some t) (b : Bool)
    (hs : t.Sound W (fun i t => (M i t).receiver) .decode b) (v : t.bare.Val) (hv : t.Wf W v) (bs : Bytes) (hl : t.Layout W v bs) (old : (variantFields ts).bare.Val) :
    ∃ w x, t.bare.Same v w ∧ Chosen t w ts n x ∧ (decodeVariantM M (.struct (variantFields ts)) old).Reads (UInt8.ofNat n :: bs) x := by
  obtain ⟨w, s, r⟩ := decodeM_layout hM t .decode b v t.bare.zero bs (.inl rfl) hs hv (clean_zero _) hl
  obtain ⟨c, h1, h2⟩ := clear_variantFields ts n t ht old
  obtain ⟨x, h3, h4⟩ := h2 r
  refine ⟨w, x, s, h3, ?_⟩
  refine Dec.Reads.bind (b1 := [UInt8.ofNat n]) (readByte_reads _) ?_
  show (variantM M (.struct (variantFields ts)) (UInt8.ofNat n).toNat old).Reads bs x
  have hlt : n < ts.length := (List.getElem?_eq_some_iff.mp ht).1
  rw [UInt8.toNat_ofNat_of_lt' (by simpa using hn)]
  have key := variantM_struct M (variantFields ts) n old
  rw [count_variantFields, if_neg (by omega), h1] at key
  intro fin rest
  exact (congrArg (fun d => Dec.runE fin d (bs ++ rest)) key).trans (h4 fin rest)

/-- An index out of range is an error; the destination stays as it was and no more than the index is read -/
theorem C116_index (M : Program) (ts : List MTy) (b : UInt8) (hb : ts.length ≤ b.toNat) (old : (variantFields ts).bare.Val) (fin : Err) (bs : Bytes) :
    (decodeVariantM M (.struct (variantFields ts)) old).runE fin (b :: bs) = .ok (old, some errVariantIndex) bs := by
  have key := variantM_struct M (variantFields ts) b.toNat old
  rw [count_variantFields, if_pos hb] at key
  exact (decodeVariantM_cons M (.struct (variantFields ts)) old fin b bs).trans (congrArg (fun d => Dec.runE fin d bs) key)

/-- A type with UnmarshalABI, or a pointer to it: one byte is skipped, whatever it is, and UnmarshalABI does the rest -/
theorem C116_methods (M : Program) (i : Nat) (t : MTy) (u : t.bare.Val → Dec (t.bare.Val × Option Err)) (h : (M i t).unmarshal = some u) (old : t.bare.Val) (fin : Err) (b : UInt8) (bs : Bytes) :
    (decodeVariantM M (.own i t) old).runE fin (b :: bs) = (u old).runE fin bs ∧
    (decodeVariantM M (.ptr (.own i t)) (some old : Option t.bare.Val)).runE fin (b :: bs) =
      (Dec.bind (u old) fun p => .ret ((some p.1 : Option t.bare.Val), p.2)).runE fin bs := by
  have key : ∀ n, variantM M (.own i t) n old = u old := fun n => (variantM_own M i t n old).trans (by rw [h])
  exact ⟨(decodeVariantM_cons M (.own i t) old fin b bs).trans (congrArg (fun d => Dec.runE fin d bs) (key b.toNat)),
    (decodeVariantM_cons M (.ptr (.own i t)) (some old : Option t.bare.Val) fin b bs).trans
      (congrArg (fun d : Dec (t.bare.Val × Option Err) => Dec.runE fin (Dec.bind d fun p => .ret ((some p.1 : Option t.bare.Val), p.2)) bs) (key b.toNat))⟩

/-- Without UnmarshalABI it is DecodeVariant of C43, C81 and C93 -/
theorem C116_methodless (M : Program) (hM : ∀ i t, (M i t).unmarshal = none) (t : MTy) (old : t.bare.Val) : decodeVariantM M t old = decodeVariant t.bare old := by
  unfold decodeVariantM decodeVariant
  simp only [variantM_none hM]
  rfl

/-- A type whose UnmarshalABI calls DecodeVariant with its receiver is never decoded: on every input all bytes are read and the result is the error at the end of the input (io.EOF).
The depth of the calls is the number of bytes and one more. -/
theorem C116_self_violated (i : Nat) (t : MTy) (old : t.bare.Val) (fin : Err) (bs : Bytes) (n : Nat) (hn : bs.length < n) :
    (decodeM (variantCallers n) (.own i t) .decode old).runE fin bs = .ok (old, some fin) [] := by
  obtain ⟨u, hu⟩ : ∃ u, (variantCallers n i t).unmarshal = some u := by cases n <;> exact ⟨_, rfl⟩
  refine (congrArg (fun d => Dec.runE fin d bs) ((decodeM_own _ i t .decode old).trans (by rw [hu]))).trans ?_
  exact variantCallers_run i t old fin n bs hn u hu

/-- The methods keep one format, Encode writes it and Decode reads it, DecodeVariant does not: it skips a byte -/
theorem C116_violated : (shifting .value).Keeps shiftedBy1 ∧
    (encodeM (shifting .value) (.own 0 (.struct oneByte)) ((5, ()) : UInt8 × Unit)).run = .ok none [6] ∧
    (decodeM (shifting .value) (.own 0 (.struct oneByte)) .decode ((0, ()) : UInt8 × Unit)).run [6] = .ok (((5, ()) : UInt8 × Unit), none) [] ∧
    (decodeVariantM (shifting .value) (.own 0 (.struct oneByte)) ((0, ()) : UInt8 × Unit)).run [6] = .ok (((0, ()) : UInt8 × Unit), some .eof) [] :=
  ⟨shifting_keeps _, rfl, rfl, rfl⟩

/-! ### An example: struct { *T; *uint16 } with the methods of `shifting` -/

def eitherOr : List MTy := [.own 0 (.struct oneByte), .plain (.basic .u16)]

example : eitherOr[0]? = some (.own 0 (.struct oneByte)) := rfl
example : MTy.Sound shiftedBy1 (fun i t => (shifting .value i t).receiver) (.own 0 (.struct oneByte)) .decode false := .inl rfl
example : MTy.Wf shiftedBy1 (.own 0 (.struct oneByte)) ((5, ()) : UInt8 × Unit) := trivial
example : MTy.Layout shiftedBy1 (.own 0 (.struct oneByte)) ((5, ()) : UInt8 × Unit) [6] := rfl
example : (decodeVariantM (shifting .value) (.struct (variantFields eitherOr)) ((none, some 7, ()) : Option (UInt8 × Unit) × Option UInt16 × Unit)).run [0, 6] =
    .ok (((some (5, ()), none, ()) : Option (UInt8 × Unit) × Option UInt16 × Unit), none) [] := rfl
example : (decodeVariantM (shifting .value) (.struct (variantFields eitherOr)) ((some (1, ()), none, ()) : Option (UInt8 × Unit) × Option UInt16 × Unit)).run [1, 6, 2] =
    .ok (((none, some 518, ()) : Option (UInt8 × Unit) × Option UInt16 × Unit), none) [] := rfl
example : eitherOr.length ≤ (2 : UInt8).toNat := by decide
example : ∃ u, (shifting .value 0 (.struct oneByte)).unmarshal = some u := ⟨_, rfl⟩
example : ∀ i t, ((fun _ _ => ⟨.none, fun _ => pure none, pure none, none⟩ : Program) i t).unmarshal = none := fun _ _ => rfl
example : (decodeM (variantCallers 4) (.own 0 (.struct oneByte)) .decode ((7, ()) : UInt8 × Unit)).run [0, 1, 2] = .ok (((7, ()) : UInt8 × Unit), some .eof) [] := rfl

end Verif
