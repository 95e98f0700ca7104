import Verif.Lemmas.MethodFault
import Verif.Props.Fault
import Verif.Props.MethodErrors
/-! # C118: which values Encode writes if there are types with methods, and how it fails for others -/
namespace Verif

/-- A value without a fault is written -/
theorem C118_writes (M : Program) (C : Conducts) (hM : M.Follows C) (t : MTy) (hw : t.bare.Whole) (v : t.bare.Val) (hr : t.bare.Real v) (h : t.fault C v = none) :
    ∃ bs, t.Wire C v bs ∧ (encodeM M t v).Writes bs := by
  have := encodeM_ends hM t hw v hr
  rw [h] at this
  exact this

/-- If the first fault is an error, Encode returns that error. -/
theorem C118_error (M : Program) (C : Conducts) (hM : M.Follows C) (t : MTy) (hw : t.bare.Whole) (v : t.bare.Val) (hr : t.bare.Real v) (e : Err) (h : t.fault C v = some (.error e)) :
    ∃ out, (encodeM M t v).run = .ok (some e) out := by
  have := encodeM_ends hM t hw v hr
  rw [h] at this
  exact this

/-- Otherwise it panics. -/
theorem C118_panics (M : Program) (C : Conducts) (hM : M.Follows C) (t : MTy) (hw : t.bare.Whole) (v : t.bare.Val) (hr : t.bare.Real v) (h : t.fault C v = some .panics) :
    ∃ w, (encodeM M t v).run = .panic w := by
  have := encodeM_ends hM t hw v hr
  rw [h] at this
  exact this

/-- What is written has no fault, and is written in no other way -/
theorem C118_only (M : Program) (C : Conducts) (hM : M.Follows C) (t : MTy) (hw : t.bare.Whole) (v : t.bare.Val) (hr : t.bare.Real v) (bs : Bytes) (h : (encodeM M t v).Writes bs) :
    t.fault C v = none ∧ t.Wire C v bs := ends_none (encodeM_ends hM t hw v hr) bs h

/-! ### An example: the methods of Props/MethodErrors, which return the error e for 9 -/

def fussyConduct (e : Err) : Conducts := fun _ t =>
  match t with
  | .struct (.cons .none (.plain (.basic .u8)) .nil) =>
    ⟨.value, fun v => if (show UInt8 × Unit from v).1 = 9 then some (.error e) else none, fun v bs => bs = [(show UInt8 × Unit from v).1], none, fun _ => False⟩
  | _ => ⟨.none, fun _ => none, fun _ _ => False, none, fun _ => False⟩

theorem fussy_follows (e : Err) : (fussy e).Follows (fussyConduct e) := by
  intro i t
  by_cases h : t = .struct oneByte
  · cases h
    refine ⟨rfl, fun _ v => ?_, nofun⟩
    obtain ⟨a, u⟩ : UInt8 × Unit := v
    show Enc.Outcome (if a = 9 then pure (some e) else writeByte a) (if a = 9 then some (.error e) else none) _
    by_cases ha : a = 9
    · rw [if_pos ha, if_pos ha]
      exact ⟨[], rfl⟩
    · rw [if_neg ha, if_neg ha]
      exact ⟨[a], rfl, writeByte_writes a⟩
  · have h1 : fussy e i t = ⟨.none, fun _ => pure none, pure none, none⟩ := by
      unfold fussy
      split
      · exact absurd rfl h
      · rfl
    have h2 : fussyConduct e i t = ⟨.none, fun _ => none, fun _ _ => False, none, fun _ => False⟩ := by
      unfold fussyConduct
      split
      · exact absurd rfl h
      · rfl
    rw [h1, h2]
    exact ⟨rfl, fun h => absurd rfl h, nofun⟩

/-- []*T: 5 can be written, 9 gives the error, a nil pointer panics, and the first of them counts -/
def pointers : MTy := .slice (.ptr (.own 0 (.struct oneByte)))

example : pointers.bare.Whole := ⟨trivial, trivial⟩
example : pointers.bare.Real (some [some (5, ()), none] : Option (List (Option (UInt8 × Unit)))) := by
  refine ⟨?_, fun x _ y _ => ⟨trivial, trivial⟩⟩
  show 2 < 2 ^ 63
  decide
example : pointers.fault (fussyConduct .eof) (some [some (5, ())] : Option (List (Option (UInt8 × Unit)))) = none := rfl
example : pointers.fault (fussyConduct .eof) (some [some (5, ()), some (9, ()), none] : Option (List (Option (UInt8 × Unit)))) = some (.error .eof) := rfl
example : pointers.fault (fussyConduct .eof) (some [some (5, ()), none, some (9, ())] : Option (List (Option (UInt8 × Unit)))) = some .panics := rfl
example : (encodeM (fussy .eof) pointers (some [some (5, ())] : Option (List (Option (UInt8 × Unit))))).Writes [1, 5] := rfl

end Verif
