import Verif.Model.Args
import Verif.Lemmas.Fault
import Verif.Lemmas.Safe
import Verif.Lemmas.Run
/-! # C83: what Decode and DecodeVariant do with arguments that are no place to decode into -/
namespace Verif

/-- A pointer that is not nil -/
def Arg.Pointer : Arg → Prop
  | .of (.ptr t) v => ∃ x : t.Val, v = (some x : Option t.Val)
  | _ => False

/-- The types that `Decode` handles before it looks at the pointer (decode.go:33-82): bool, string, numbers, []byte, the types of package chain except ExtendedAsset -/
def Ty.Fast : Ty → Prop
  | .basic _ => True
  | .bytes => True
  | .chain c => c ≠ .extendedAsset
  | _ => False

/-- The claim for Decode: every argument that is not a pointer, or is nil, is refused with nothing read -/
def RefusesDecode (a : Arg) : Prop := ∀ (fin : Err) (bs : Bytes), ∃ e, (decodeArg a).runE fin bs = .ok (a, some e) bs

/-- The same for DecodeVariant -/
def RefusesVariant (a : Arg) : Prop := ∀ (fin : Err) (bs : Bytes), ∃ e, (decodeVariantArg a).runE fin bs = .ok (a, some e) bs

/-- Refused: values that are not pointers -/
theorem C83_value_partial (t : Ty) (v : t.Val) (ht : ∀ u, t ≠ .ptr u) : RefusesDecode (.of t v) ∧ RefusesVariant (.of t v) := by
  constructor <;> intro fin bs
  · refine ⟨errInvalidDest, ?_⟩
    cases t with
    | ptr u => exact absurd rfl (ht u)
    | _ => rfl
  · refine ⟨errInvalidVariantDest, ?_⟩
    cases t with
    | ptr u => exact absurd rfl (ht u)
    | _ => rfl

/-- Refused: nil pointers to types other than the fast ones; DecodeVariant refuses all of them -/
theorem C83_nil_partial (t : Ty) : (¬ t.Fast → RefusesDecode (.of (.ptr t) (none : Option t.Val))) ∧ RefusesVariant (.of (.ptr t) (none : Option t.Val)) := by
  refine ⟨fun ht fin bs => ⟨errInvalidDest, ?_⟩, fun fin bs => ⟨errInvalidVariantDest, rfl⟩⟩
  cases t with
  | basic b => exact absurd trivial ht
  | bytes => exact absurd trivial ht
  | chain c =>
    cases c with
    | extendedAsset => rfl
    | _ => exact absurd (fun h => nomatch h) ht
  | _ => rfl

/-- Pointers that are not nil go to their target -/
theorem C83_pointer (t : Ty) (x : t.Val) (fin : Err) (bs : Bytes) :
    (∀ y err r, (decode t x).runE fin bs = .ok (y, err) r →
      (decodeArg (.of (.ptr t) (some x : Option t.Val))).runE fin bs = .ok (.of (.ptr t) (some y : Option t.Val), err) r) ∧
    (∀ y err r, (decodeVariant t x).runE fin bs = .ok (y, err) r →
      (decodeVariantArg (.of (.ptr t) (some x : Option t.Val))).runE fin bs = .ok (.of (.ptr t) (some y : Option t.Val), err) r) := by
  constructor
  · intro y err r h
    show (Dec.bind (decode t x) _).runE fin bs = _
    rw [Dec.runE_bind', h]; rfl
  · intro y err r h
    show (Dec.bind (decodeVariant t x) _).runE fin bs = _
    rw [Dec.runE_bind', h]; rfl

/-- Encode: nil pointers are refused with nothing written, unless they point to a type of package chain, where they panic; other pointers are encoded as what they point to -/
theorem C83_encode (t : Ty) :
    ((∀ c, t ≠ .chain c) → (encodeArg (.of (.ptr t) (none : Option t.Val))).run = .ok (some errNilPtr) []) ∧
    ((∃ c, t = .chain c) → ∃ w, (encodeArg (.of (.ptr t) (none : Option t.Val))).run = .panic w) ∧
    ∀ x : t.Val, (encodeArg (.of (.ptr t) (some x : Option t.Val))).run = (encodeArg (.of t x)).run := by
  refine ⟨fun h => ?_, ?_, fun x => congrArg Enc.run (encode_ptr_some t x)⟩
  · cases t with
    | chain c => exact absurd rfl (h c)
    | _ => rfl
  · rintro ⟨c, rfl⟩
    exact ⟨_, rfl⟩

/-- Encode of a value is the encoder of its type (C40, C85): it writes the layout of the value, or ends with its fault -/
theorem C83_encode_value (t : Ty) (hw : t.Whole) (v : t.Val) (hr : t.Real v) : (encodeArg (.of t v)).Ends (t.fault v) (t.Layout v) := ends_ty t hw v hr

/-- Nil itself is not refused: the error message asks for its type -/
theorem C83_violated : ¬ (∀ a : Arg, ¬ a.Pointer → RefusesDecode a) ∧ ¬ (∀ a : Arg, ¬ a.Pointer → RefusesVariant a) ∧
    (∀ fin bs, ∃ w, (decodeArg .nil).runE fin bs = .panic w) ∧ (∀ fin bs, ∃ w, (decodeVariantArg .nil).runE fin bs = .panic w) ∧ ∃ w, (encodeArg .nil).run = .panic w := by
  refine ⟨fun h => ?_, fun h => ?_, fun _ _ => ⟨_, rfl⟩, fun _ _ => ⟨_, rfl⟩, _, rfl⟩
  · obtain ⟨e, he⟩ := h .nil (fun h => h) .eof []
    cases he
  · obtain ⟨e, he⟩ := h .nil (fun h => h) .eof []
    cases he

theorem basic_read_safe (b : Basic) : b.read.Safe true := by
  cases b
  · exact readBool_safe true
  · exact readString_safe
  · exact readUint8_safe true
  · exact readUint16_safe true
  · exact readUint32_safe true
  · exact readUint64_safe true
  · exact readInt8_safe true
  · exact readInt16_safe true
  · exact readInt32_safe true
  · exact readInt64_safe true
  · exact readFloat32_safe true
  · exact readFloat64_safe true
  · exact readVarintD_safe true
  · exact readVaruint_safe true

/-- Nil pointers to bool, string and numbers: the panic comes with every input, also an empty one, after reading -/
theorem C83_nil_basic_violated (b : Basic) (fin : Err) (bs : Bytes) : ∃ w, (decodeArg (.of (.ptr (.basic b)) (none : Option b.Val))).runE fin bs = .panic w := by
  show ∃ w, (Dec.bind (Dec.bind b.read _) _).runE fin bs = .panic w
  rw [Dec.runE_bind', Dec.runE_bind']
  cases h : b.read.runE fin bs with
  | ok a r => exact ⟨_, rfl⟩
  | panic w => exact ⟨_, rfl⟩
  | diverge => exact absurd h ((basic_read_safe b).run fin bs).1

theorem nilAfter_ok {α : Type} {q : Dec (α × Option Err)} {fin : Err} {bs r : Bytes} {err : Option Err} (h : (nilAfter q).runE fin bs = .ok err r) :
    ∃ a e, err = some e ∧ q.runE fin bs = .ok (a, some e) r := by
  unfold nilAfter at h
  rw [Dec.runE_bind] at h
  cases hq : q.runE fin bs with
  | ok x r' =>
    rw [hq] at h
    obtain ⟨a, _ | e⟩ := x
    · cases h
    · cases h; exact ⟨a, e, rfl, rfl⟩
  | panic w => rw [hq] at h; cases h
  | diverge => rw [hq] at h; cases h

/-- A method that reads first, returns an error of that and otherwise goes on -/
theorem nilAfter_like {α β : Type} {q : Dec (α × Option Err)} {f : α × Option Err → Dec (β × Option Err)} {fin : Err} {bs r : Bytes} {err : Option Err}
    (h : (nilAfter q).runE fin bs = .ok err r) (hf : ∀ a e, ∃ v, f (a, some e) = pure (v, some e)) : ∃ v e, err = some e ∧ (q >>= f).runE fin bs = .ok (v, some e) r := by
  obtain ⟨a, e, he, hq⟩ := nilAfter_ok h
  obtain ⟨v, hv⟩ := hf a e
  refine ⟨v, e, he, ?_⟩
  rw [Dec.runE_bind, hq]
  show (f (a, some e)).runE fin r = _
  rw [hv]; rfl

theorem nilBytes_ok {n : Int} {fin : Err} {bs r : Bytes} {err : Option Err}
    (h : (nilAfter (do let (_, b, err) ← readBytes n; pure (b, err))).runE fin bs = .ok err r) :
    ∃ an b e, err = some e ∧ (readBytes n).runE fin bs = .ok (an, b, some e) r := by
  obtain ⟨a, e, he, hq⟩ := nilAfter_ok h
  rw [Dec.runE_bind] at hq
  cases hr : (readBytes n).runE fin bs with
  | ok x r' =>
    rw [hr] at hq
    obtain ⟨an, b, err'⟩ := x
    cases hq
    exact ⟨an, _, e, he, rfl⟩
  | panic w => rw [hr] at hq; cases hq
  | diverge => rw [hr] at hq; cases hq

theorem nilThen_ok {α : Type} {q : Dec (α × Option Err)} {k : α → Dec (Option Err)} {fin : Err} {bs r : Bytes} {err : Option Err}
    (h : (do let (l, err) ← q
             match err with
             | some e => pure (some e)
             | none => k l).runE fin bs = .ok err r) :
    (∃ a e, err = some e ∧ q.runE fin bs = .ok (a, some e) r) ∨ ∃ a r', q.runE fin bs = .ok (a, none) r' ∧ (k a).runE fin r' = .ok err r := by
  rw [Dec.runE_bind] at h
  cases hq : q.runE fin bs with
  | ok x r' =>
    rw [hq] at h
    obtain ⟨a, _ | e⟩ := x
    · exact .inr ⟨a, r', rfl, h⟩
    · cases h; exact .inl ⟨a, e, rfl, rfl⟩
  | panic w => rw [hq] at h; cases h
  | diverge => rw [hq] at h; cases h

theorem checksum_nil (n : Nat) (old : Bytes) {fin : Err} {bs r : Bytes} {err : Option Err}
    (h : (nilAfter (do let (_, b, err) ← readBytes n; pure (b, err))).runE fin bs = .ok err r) :
    ∃ v e, err = some e ∧ (Checksum.unmarshal n old).runE fin bs = .ok (v, some e) r := by
  obtain ⟨an, b, e, he, hr⟩ := nilBytes_ok h
  refine ⟨old, e, he, ?_⟩
  unfold Checksum.unmarshal
  rw [Dec.runE_bind, hr]; rfl

theorem bytesT_nil (old : Option Bytes) {fin : Err} {bs r : Bytes} {err : Option Err} (h : ChainTy.bytes.unmarshalNil.runE fin bs = .ok err r) :
    ∃ v e, err = some e ∧ (unmarshalBytes old).runE fin bs = .ok (v, some e) r := by
  unfold unmarshalBytes BytesT.unmarshal
  rcases nilThen_ok (q := readVaruint) (k := fun l => nilAfter (do let (_, b, err) ← readBytes (goInt l); pure (b, err))) h with ⟨a, e, he, hq⟩ | ⟨a, r', hq, hk⟩
  · refine ⟨old, e, he, ?_⟩
    rw [Dec.runE_bind, Dec.runE_bind, hq]; rfl
  · obtain ⟨an, b, e, he, hr⟩ := nilBytes_ok hk
    refine ⟨old, e, he, ?_⟩
    rw [Dec.runE_bind, Dec.runE_bind, hq]
    simp only [Out.bind]
    rw [Dec.runE_bind, hr]; rfl

theorem u128_nil (old : U128) {fin : Err} {bs r : Bytes} {err : Option Err} (h : ChainTy.uint128.unmarshalNil.runE fin bs = .ok err r) :
    ∃ v e, err = some e ∧ (U128.unmarshal old).runE fin bs = .ok (v, some e) r := by
  unfold U128.unmarshal
  rcases nilThen_ok (q := readUint64) (k := fun _ => nilAfter readUint64) h with ⟨a, e, he, hq⟩ | ⟨a, r', hq, hk⟩
  · refine ⟨old, e, he, ?_⟩
    rw [Dec.runE_bind, hq]; rfl
  · obtain ⟨b, e, he, hr⟩ := nilAfter_ok hk
    refine ⟨old, e, he, ?_⟩
    rw [Dec.runE_bind, hq]
    simp only [Out.bind]
    rw [Dec.runE_bind, hr]; rfl

theorem panics_after {α β : Type} {q : Dec α} {w : String} {fin : Err} {bs r : Bytes} {a : β} (h : (q >>= fun _ => (.panic w : Dec β)).runE fin bs = .ok a r) : False := by
  rw [Dec.runE_bind] at h
  cases hq : q.runE fin bs with
  | ok x r' => rw [hq] at h; cases h
  | panic w => rw [hq] at h; cases h
  | diverge => rw [hq] at h; cases h

theorem unmarshalNil_like (c : ChainTy) (old : c.Val) {fin : Err} {bs r : Bytes} {err : Option Err} (h : c.unmarshalNil.runE fin bs = .ok err r) :
    ∃ v e, err = some e ∧ (c.unmarshal old).runE fin bs = .ok (v, some e) r := by
  cases c <;> first | (exact nilAfter_like h fun _ _ => ⟨_, rfl⟩) | (cases h; done) | skip
  · exact bytesT_nil old h
  · exact bytesT_nil old h
  · exact checksum_nil 20 old h
  · exact checksum_nil 32 old h
  · exact checksum_nil 64 old h
  · obtain ⟨an, b, e, he, hr⟩ := nilBytes_ok h
    refine ⟨old, e, he, ?_⟩
    show (Float128.unmarshal old).runE fin bs = _
    unfold Float128.unmarshal
    rw [Dec.runE_bind, hr]; rfl
  · exact u128_nil old h
  · exact (panics_after h).elim
  · exact u128_nil old h

theorem decodeNil_like (t : Ty) (old : t.Val) {fin : Err} {bs r : Bytes} {err : Option Err} (h : (decodeNil t).runE fin bs = .ok err r) :
    ∃ e, err = some e ∧ (r = bs ∧ ¬ t.Fast ∨ ∃ v, (decode t old).runE fin bs = .ok (v, some e) r) := by
  cases t with
  | basic b => exact (panics_after h).elim
  | bytes =>
    rcases nilThen_ok (q := readVaruint) (k := fun l => do let _ ← readBytes (goInt l); .panic nilDeref) h with ⟨a, e, he, hq⟩ | ⟨a, r', hq, hk⟩
    · refine ⟨e, he, .inr ⟨old, ?_⟩⟩
      show (decodeBytes old).runE fin bs = _
      unfold decodeBytes
      rw [Dec.runE_bind, hq]; rfl
    · exact (panics_after hk).elim
  | chain c =>
    by_cases hc : c = .extendedAsset
    · subst hc; cases h; exact ⟨_, rfl, .inl ⟨rfl, fun h => absurd h (by simp [Ty.Fast])⟩⟩
    · have h' : c.unmarshalNil.runE fin bs = .ok err r := by cases c <;> first | exact absurd rfl hc | exact h
      obtain ⟨v, e, he, hv⟩ := unmarshalNil_like c old h'
      refine ⟨e, he, .inr ⟨v, ?_⟩⟩
      have : (decode (.chain c) old) = (do
          let (x, done, err) ← (do let (v, err) ← c.unmarshal old; pure (v, true, err) : Dec (c.Val × Bool × Option Err))
          if done || err.isSome then pure (x, err) else c.unmarshal x) := by cases c <;> first | exact absurd rfl hc | rfl
      rw [this, Dec.runE_bind, Dec.runE_bind, hv]; rfl
  | _ => cases h; exact ⟨_, rfl, .inl ⟨rfl, fun h => absurd h (by simp [Ty.Fast])⟩⟩

/-- No nil pointer is ever decoded into with success; if the call returns, it returns an error, and unless the pointer was refused with nothing read it is the
error that Decode into any variable of the type returns on the same input -/
theorem C83_nil_fails (t : Ty) (old : t.Val) (fin : Err) (bs r : Bytes) (a : Arg) (err : Option Err)
    (h : (decodeArg (.of (.ptr t) (none : Option t.Val))).runE fin bs = .ok (a, err) r) :
    a = .of (.ptr t) (none : Option t.Val) ∧ ∃ e, err = some e ∧ (r = bs ∧ ¬ t.Fast ∨ ∃ v, (decode t old).runE fin bs = .ok (v, some e) r) := by
  have h' : (Dec.bind (decodeNil t) fun err => pure (Arg.of (.ptr t) (none : Option t.Val), err)).runE fin bs = .ok (a, err) r := h
  rw [Dec.runE_bind'] at h'
  cases hn : (decodeNil t).runE fin bs with
  | ok x r' =>
    rw [hn] at h'
    cases h'
    exact ⟨rfl, decodeNil_like t old hn⟩
  | panic w => rw [hn] at h'; cases h'
  | diverge => rw [hn] at h'; cases h'

/-- Nil pointers to the types of package chain: with enough input the panic comes for every one of them -/
theorem C83_nil_chain_violated (c : ChainTy) (hc : c ≠ .extendedAsset) (fin : Err) :
    ∃ bs w, (decodeArg (.of (.ptr (.chain c)) (none : Option c.Val))).runE fin bs = .panic w := by
  refine ⟨List.replicate 64 0, nilDeref, ?_⟩
  cases c <;> first | exact absurd rfl hc | rfl

/-- A nil *Name: io.EOF or io.ErrUnexpectedEOF with less than eight bytes, else a panic -/
theorem C83_nil_name (bs : Bytes) :
    (8 ≤ bs.length → (decodeArg (.of (.ptr (.chain .name)) (none : Option UInt64))).run bs = .panic nilDeref) ∧
    (bs.length < 8 → (decodeArg (.of (.ptr (.chain .name)) (none : Option UInt64))).run bs =
      .ok (.of (.ptr (.chain .name)) (none : Option UInt64), some (if bs = [] then .eof else .unexpectedEOF)) []) := by
  have hn : (nilAfter readUint64).runE .eof bs =
      if 8 ≤ bs.length then .panic nilDeref else .ok (some (if bs = [] then .eof else .unexpectedEOF)) [] := by
    change (Dec.read 8 _).runE .eof bs = _
    simp only [Dec.runE]
    split
    · rfl
    · cases bs <;> rfl
  constructor <;> intro h
  · show (Dec.bind (nilAfter readUint64) _).runE .eof bs = _
    rw [Dec.runE_bind', hn, if_pos h]; rfl
  · show (Dec.bind (nilAfter readUint64) _).runE .eof bs = _
    rw [Dec.runE_bind', hn, if_neg (by omega)]; rfl

/-! The hypotheses are met -/

/-- struct { A uint8 } by value, a nil pointer to it, a nil *[]uint16, a nil *chain.ExtendedAsset: refused -/
example : RefusesDecode (.of (.struct (.cons .exported .none (.basic .u8) .nil)) ((7, ()) : UInt8 × Unit)) := (C83_value_partial _ _ (by intro u h; cases h)).1
example : RefusesDecode (.of (.ptr (.struct (.cons .exported .none (.basic .u8) .nil))) (none : Option (UInt8 × Unit))) :=
  (C83_nil_partial (.struct (.cons .exported .none (.basic .u8) .nil))).1 fun h => h
example : RefusesDecode (.of (.ptr (.chain .extendedAsset)) (none : Option ExtendedAsset)) := (C83_nil_partial (.chain .extendedAsset)).1 fun h => h rfl
/-- Encode of a *struct { A uint8 } that is nil, of a nil *chain.Name, of a pointer to 7 -/
example : (encodeArg (.of (.ptr (.struct (.cons .exported .none (.basic .u8) .nil))) (none : Option (UInt8 × Unit)))).run = .ok (some errNilPtr) [] := (C83_encode _).1 nofun
example : ∃ w, (encodeArg (.of (.ptr (.chain .name)) (none : Option UInt64))).run = .panic w := (C83_encode (.chain .name)).2.1 ⟨_, rfl⟩
example : (encodeArg (.of (.ptr (.basic .u8)) (some 7 : Option UInt8))).run = .ok none [7] := (C83_encode (.basic .u8)).2.2 (7 : UInt8)
/-- A pointer to a variable holding 7 -/
example : (decodeArg (.of (.ptr (.basic .u8)) (some 7 : Option UInt8))).run [9, 1] = .ok (.of (.ptr (.basic .u8)) (some 9 : Option UInt8), none) [1] :=
  (C83_pointer (.basic .u8) (7 : UInt8) .eof [9, 1]).1 (9 : UInt8) none [1] rfl
example : (decodeArg (.of (.ptr (.chain .name)) (none : Option UInt64))).run [1, 2] = .ok (.of (.ptr (.chain .name)) (none : Option UInt64), some .unexpectedEOF) [] :=
  (C83_nil_name [1, 2]).2 (by decide)

end Verif
