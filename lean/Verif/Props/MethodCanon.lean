import Verif.Lemmas.MethodCanon
import Verif.Props.MethodTakes
import Verif.Props.MethodFault
/-! # C119: writing what was read, for types with methods -/
namespace Verif

/-- Encode never returns an error for what Decode read: it writes it, or panics. -/
theorem C119_writes_or_panics (M : Program) (A : Accepted) (C : Conducts) (hA : M.Exact A) (hC : M.Follows C) (hM : Matched A C) (t : MTy) (hs : t.Strait) (hw : t.bare.Whole)
    (hd : t.Decodable A .decode) (fin : Err) (bs r : Bytes) (v : t.bare.Val) (h : (decodeM M t .decode t.bare.zero).runE fin bs = .ok (v, none) r) :
    (∃ out, (encodeM M t v).Writes out) ∨ ∃ w, (encodeM M t v).run = .panic w := by
  obtain ⟨w, _, ht⟩ := (C117_decode M A hA t hs fin bs v r).1 h
  obtain ⟨hr, hf | hf⟩ := calmM_ty hM t .decode (by simp [Mode.Plain]) hs hd v w ht
  · obtain ⟨out, _, ho⟩ := C118_writes M C hC t hw v hr hf
    exact .inl ⟨out, ho⟩
  · exact .inr (C118_panics M C hC t hw v hr hf)

/-- What is written is not longer than what was read, and is read as the same value -/
theorem C119_normalises (M : Program) (A : Accepted) (C : Conducts) (hA : M.Exact A) (hC : M.Follows C) (hM : Matched A C) (t : MTy) (hs : t.Strait) (hw : t.bare.Whole)
    (hd : t.Decodable A .decode) (fin : Err) (bs r out : Bytes) (v : t.bare.Val) (h : (decodeM M t .decode t.bare.zero).runE fin bs = .ok (v, none) r) (ho : (encodeM M t v).Writes out) :
    ∃ w, bs = w ++ r ∧ out.length ≤ w.length ∧ (decodeM M t .decode t.bare.zero).Reads out v := by
  obtain ⟨w, hb, ht⟩ := (C117_decode M A hA t hs fin bs v r).1 h
  obtain ⟨hr, _⟩ := calmM_ty hM t .decode (by simp [Mode.Plain]) hs hd v w ht
  obtain ⟨hf, hl⟩ := C118_only M C hC t hw v hr out ho
  obtain ⟨o, h1, h2, h3⟩ := canonM_ty hM t .decode (by simp [Mode.Plain]) hs hd v w hf ht
  rw [wire_unique hM t v o out h1 hl] at h2 h3
  exact ⟨w, hb, h3, (C117_decode M A hA t hs).reads h2⟩

/-! ### An example: the methods of Props/Methods on the value, which write A + 1 -/

def plusOne : Conducts := fun _ t =>
  match t with
  | .struct (.cons .none (.plain (.basic .u8)) .nil) => ⟨.value, fun _ => none, fun v bs => bs = [(show UInt8 × Unit from v).1 + 1], none, fun _ => False⟩
  | _ => ⟨.none, fun _ => none, fun _ _ => False, none, fun _ => False⟩

theorem shifting_follows : (shifting .value).Follows plusOne := by
  intro i t
  by_cases h : t = .struct oneByte
  · cases h
    exact ⟨rfl, fun _ v => ⟨_, rfl, writeByte_writes _⟩, nofun⟩
  · have h1 : (shifting .value i t).receiver = .none := by
      unfold shifting
      split
      · exact absurd rfl h
      · rfl
    have h2 : plusOne i t = ⟨.none, fun _ => none, fun _ _ => False, none, fun _ => False⟩ := by
      unfold plusOne
      split
      · exact absurd rfl h
      · rfl
    rw [h1, h2]
    exact ⟨rfl, fun h => absurd rfl h, nofun⟩

theorem shifting_matched : Matched oneMore plusOne := by
  intro i t
  by_cases h : t = .struct oneByte
  · cases h
    exact ⟨rfl, fun v a b (h1 : a = _) (h2 : b = _) => h1.trans h2.symm, fun v w (hw : w = _) => ⟨⟨trivial, trivial⟩, .inr ⟨rfl, _, rfl, rfl, by rw [hw]⟩⟩⟩
  · have h1 : oneMore i t = none := by
      unfold oneMore
      split
      · exact absurd rfl h
      · rfl
    have h2 : (plusOne i t).receiver = .none := by
      unfold plusOne
      split
      · exact absurd rfl h
      · rfl
    rw [h1]
    exact h2

example : nestedBytes.Decodable oneMore .decode := ⟨nofun, nofun, nofun, trivial⟩
example : nestedBytes.bare.Whole := ⟨⟨trivial, trivial⟩, ⟨trivial, trivial⟩, ⟨trivial, trivial⟩, trivial⟩
/-- Six bytes with a padded length are read, five are written -/
example : (decodeM (shifting .value) nestedBytes .decode nestedBytes.bare.zero).run [0x81, 0, 6, 8, 2, 7] =
    .ok (((some [(5, ())], some (7, ()), (6, ()), ()) : Option (List (UInt8 × Unit)) × Option (UInt8 × Unit) × (UInt8 × Unit) × Unit), none) [] ∧
    (encodeM (shifting .value) nestedBytes ((some [(5, ())], some (7, ()), (6, ()), ()) : Option (List (UInt8 × Unit)) × Option (UInt8 × Unit) × (UInt8 × Unit) × Unit)).Writes [1, 6, 8, 1, 7] :=
  ⟨rfl, rfl⟩

/-- If MarshalABI is defined on the pointer, what is written need not be read as the same value, although both methods agree: 5 is read from 6, 5 is written, and 4 is read from it. -/
theorem C119_pointer_differs : (shifting .pointer).Exact oneMore ∧
    (decodeM (shifting .pointer) (.own 0 (.struct oneByte)) .decode ((0, ()) : UInt8 × Unit)).run [6] = .ok (((5, ()) : UInt8 × Unit), none) [] ∧
    (encodeM (shifting .pointer) (.own 0 (.struct oneByte)) ((5, ()) : UInt8 × Unit)).Writes [5] ∧
    (decodeM (shifting .pointer) (.own 0 (.struct oneByte)) .decode ((0, ()) : UInt8 × Unit)).run [5] = .ok (((4, ()) : UInt8 × Unit), none) [] := by
  refine ⟨fun i t => ?_, rfl, rfl, rfl⟩
  have h := shifting_exact i t
  have e : (shifting .pointer i t).unmarshal = (shifting .value i t).unmarshal := by
    unfold shifting
    split <;> rfl
  rw [e]
  exact h

end Verif
