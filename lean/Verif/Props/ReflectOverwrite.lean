import Verif.Lemmas.ReflectOverwrite
import Verif.Props.Reflect
/-! # C37 for values decoded by reflection

pkg/abi/decode.go:84-316. The decoder reuses what it finds: the array of a slice that is long enough, the variable behind a pointer, structs and arrays in place. What was
there does not show in the result, except for actions (`C37_reflect_violated`): then the hypothesis `Held` fails. -/
namespace Verif

/-- Decode(&x): for any two previous contents and any stream, the same error, the same bytes left, and without an error the same value; a slice that was nil may stay nil where
another is empty. -/
theorem C37_reflect_partial (t : Ty) (ht : t.Exported) (v w : t.Val) (hv : t.Held v) (hw : t.Held w) (fin : Err) (bs : Bytes) :
    SameRun (fun _ x y => x.2 = y.2 ∧ (x.2 = none → t.Agree x.1 y.1)) ((decode t v).runE fin bs) ((decode t w).runE fin bs) :=
  decode_over t ht .decode v w hv hw fin bs

/-- In particular the result is that of decoding into a zero value. -/
theorem C37_reflect_zero_partial (t : Ty) (ht : t.Exported) (v : t.Val) (hv : t.Held v) (fin : Err) (bs r : Bytes) (x : t.Val) (h : (decode t t.zero).runE fin bs = .ok (x, none) r) :
    ∃ y, (decode t v).runE fin bs = .ok (y, none) r ∧ t.Agree y x := by
  have := decode_over t ht .decode v t.zero hv (held_zero t) fin bs
  change SameRun _ ((decode t v).runE fin bs) ((decode t t.zero).runE fin bs) at this
  rw [h] at this
  match hd : (decode t v).runE fin bs, this with
  | .ok (y, none) r', h => exact ⟨y, by rw [h.1], h.2.2 rfl⟩
  | .ok (y, some e) r', h => exact nomatch h.2.1
  | .panic _, h => exact h.elim
  | .diverge, h => exact h.elim

/-- DecodeVariant(&x): members set before are gone. -/
theorem C37_decodeVariant_partial (t : Ty) (ht : t.Exported) (v w : t.Val) (hv : t.Held v) (hw : t.Held w) (fin : Err) (bs : Bytes) :
    SameRun (fun _ x y => x.2 = y.2 ∧ (x.2 = none → t.Agree x.1 y.1)) ((decodeVariant t v).runE fin bs) ((decodeVariant t w).runE fin bs) := by
  refine Over.step ?_ fin bs
  rintro ⟨p, _ | e⟩
  · exact decode_over t ht (.variant p.toNat) v w hv hw
  · exact .fail _ _ e

/-- Non-vacuity: a struct with a slice of pointers, a map, an optional and an array. -/
example : sampleTy.Exported ∧ sampleTy.Held sampleVal := by
  refine ⟨by simp [sampleTy, Ty.Exported, Fields.Exported], ?_⟩
  refine ⟨trivial, nofun, ⟨(by decide : ([some (7 : UInt64)] : List (Option UInt64)).length * 8 ≤ maxAlloc), fun x _ => fun y _ => trivial⟩, nofun, trivial, nofun, fun x _ => trivial, nofun,
    ⟨rfl, fun x _ => trivial⟩, nofun, trivial, nofun, trivial⟩

/-- Two numbers over three: the slice shrinks. A union that held its first member is given the second. -/
example : (decode (.slice (.basic .u16)) (some [7, 8, 9] : Option (List UInt16))).run [2, 1, 0, 2, 0] = .ok ((some [1, 2] : Option (List UInt16)), none) [] := by decide +kernel
example : (decodeVariant (.struct (.cons .exported .none (.ptr (.basic .u32)) (.cons .exported .none (.ptr (.basic .bool)) .nil))) ((some 5, (none, ())) : Option UInt32 × Option Bool × Unit)).run [1, 1] =
    .ok (((none, (some true, ())) : Option UInt32 × Option Bool × Unit), none) [] := by decide +kernel

/-- `Held` cannot be dropped: the actions of a []Action decoded over another keep the authorizations of the old elements. -/
theorem C37_reflect_violated : ∃ (v w : (Ty.slice (.chain .action)).Val) (bs : Bytes), (decode (.slice (.chain .action)) (Ty.slice (.chain .action)).zero).run bs = .ok (w, none) [] ∧
    (decode (.slice (.chain .action)) v).run bs = .ok ((some [⟨1, 2, [⟨3, 4⟩, ⟨3, 4⟩], []⟩] : Option (List Action)), none) [] ∧ w = (some [oneAuth] : Option (List Action)) :=
  ⟨(some [oneAuth] : Option (List Action)), (some [oneAuth] : Option (List Action)), 1 :: oneAuth.bytes, by decide +kernel, by decide +kernel, rfl⟩

end Verif
