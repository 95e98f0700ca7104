import Verif.Lemmas.AbiTakes
import Verif.Lemmas.AbiExact
import Verif.Props.AbiCodec
/-! C82: exactly which inputs Abi.Decode accepts, and as what. -/
namespace Verif
open Dec

theorem noExtension_table {a : Abi} {n : Bytes} {ts : Types} (h : resolve a n = .val ts) (hx : a.NoExtension n) : ∀ m t, ts.get m = some t → t.isExtension = false := by
  intro m t ht
  obtain ⟨h1, h2⟩ := C46_describes a n ts h
  have hs := (h2 m t ht).2.1
  match he : t.isExtension with
  | false => rfl
  | true =>
    rw [he] at hs
    exact absurd hs (hx m _ _ _ ((h1 m).1 ⟨t, ht⟩))

theorem decode_steps {a : Abi} {n : Bytes} (hn : a.NoShort n) (hx : a.NoExtension n) : (∀ k, (a.decode k n).Exactly (stepsType a k n)) ∧
    ∀ v w, Accepts a n v w → ∃ N, ∀ k, N ≤ k → stepsType a k n v w := by
  obtain ⟨ts, hts⟩ := noShort_resolves hn
  obtain ⟨hr, t, ht⟩ := resolve_ready hts
  have hx' := noExtension_table hts hx
  refine ⟨fun k => ?_, fun v w h => accepts_steps hr hx' h t ht⟩
  unfold Abi.decode
  rw [hts]
  exact steps_exactly hr hx' k n t ht

/-- Decode yields v without an error and leaves r, given enough stack, exactly if the input is a byte string that the type accepts as v, and r. -/
theorem C82_decode (a : Abi) (n : Bytes) (hn : a.NoShort n) (hx : a.NoExtension n) (fin : Err) (bs : Bytes) (v : AV) (r : Bytes) :
    (∃ N, ∀ fuel, N ≤ fuel → (a.decode fuel n).runE fin bs = .ok (v, none) r) ↔ ∃ w, bs = w ++ r ∧ Accepts a n v w := by
  obtain ⟨h1, h2⟩ := decode_steps hn hx
  constructor
  · rintro ⟨N, h⟩
    obtain ⟨w, e, hw⟩ := (h1 N fin bs v r).1 (h N (Nat.le_refl _))
    exact ⟨w, e, steps_accepts _ _ _ _ hw⟩
  · rintro ⟨w, rfl, hw⟩
    obtain ⟨N, h⟩ := h2 v w hw
    exact ⟨N, fun fuel hf => (h1 fuel fin _ v r).2 ⟨w, rfl, h fuel hf⟩⟩

/-- Nothing else is ever returned without an error, whatever the depth of the stack. -/
theorem C82_sound (a : Abi) (n : Bytes) (hn : a.NoShort n) (hx : a.NoExtension n) (fuel : Nat) (fin : Err) (bs : Bytes) (v : AV) (r : Bytes) (h : (a.decode fuel n).runE fin bs = .ok (v, none) r) :
    ∃ w, bs = w ++ r ∧ Accepts a n v w := by
  obtain ⟨w, e, hw⟩ := ((decode_steps hn hx).1 fuel fin bs v r).1 h
  exact ⟨w, e, steps_accepts _ _ _ _ hw⟩

/-- Accepted byte strings have one meaning, and none is a proper prefix of another. -/
theorem C82_prefix_free (a : Abi) (n : Bytes) (hn : a.NoShort n) (hx : a.NoExtension n) (v v' : AV) (w r : Bytes) (h : Accepts a n v w) (h' : Accepts a n v' (w ++ r)) : r = [] ∧ v = v' := by
  obtain ⟨N, h1⟩ := (C82_decode a n hn hx .eof (w ++ r) v r).2 ⟨w, rfl, h⟩
  obtain ⟨M, h2⟩ := (C82_decode a n hn hx .eof (w ++ r) v' []).2 ⟨w ++ r, by simp, h'⟩
  have e1 := h1 (N + M) (by omega)
  have e2 := h2 (N + M) (by omega)
  rw [e1] at e2
  simp only [Out.ok.injEq, Prod.mk.injEq, and_true] at e2
  exact ⟨e2.2, e2.1⟩

/-- What Encode writes is among it. -/
theorem C82_wire (a : Abi) (n : Bytes) (hn : a.NoShort n) (hx : a.NoExtension n) (v : AV) (bs : Bytes) (h : Wire a DecodesAs true n v bs) : Accepts a n v bs := by
  obtain ⟨N, h1⟩ := C47_decode a n hn v bs h
  have h2 := h1 N (Nat.le_refl _) .eof []
  obtain ⟨w, e, hw⟩ := C82_sound a n hn hx N .eof _ v [] h2
  rw [List.append_nil, List.append_nil] at e
  exact e ▸ hw

/-! ## Examples -/

/-- A list of optional structs, in a variant -/
def takesAbi : Abi := { structs := [⟨asc "pair", [], [⟨asc "x", asc "bool?"⟩, ⟨asc "y", asc "string"⟩]⟩], variants := [⟨asc "vv", [asc "uint8", asc "pair[]"]⟩] }

theorem noExtension_of {a : Abi} {n : Bytes} (h : (match resolve a n with
    | .val ts => ts.all fun e => !e.2.isExtension
    | _ => false) = true) : a.NoExtension n := by
  intro m b arr opt hm hs
  match hr : resolve a n with
  | .val ts =>
    rw [hr] at h
    obtain ⟨h1, h2⟩ := C46_describes a n ts hr
    obtain ⟨t, ht⟩ := (h1 m).2 hm
    have he := (spelled_unique hs (h2 m t ht).2.1).2.2.1
    unfold Types.get at ht
    obtain ⟨e, he', rfl⟩ := Option.map_eq_some_iff.1 ht
    have := List.all_eq_true.1 h e (List.mem_of_find?_eq_some he')
    rw [← he] at this
    cases this
  | .panic => rw [hr] at h; cases h
  | .diverge => rw [hr] at h; cases h

example : takesAbi.NoShort (asc "vv") ∧ takesAbi.NoExtension (asc "vv") := ⟨noShort_of (by decide +kernel), noExtension_of (by decide +kernel)⟩
/-- The index 1 and the length 2 in two bytes each, a presence byte 7, true written as 9 -/
def takesBytes : Bytes := [0x81, 0, 0x82, 0, 7, 9, 1, 104, 0, 0x81, 0, 105]
def takesValue : AV := .slice [.basic .string (asc "pair[]"), .slice [.map [(asc "x", .basic .bool true), (asc "y", .basic .string (asc "h"))], .map [(asc "x", .nil), (asc "y", .basic .string (asc "i"))]]]
example : Accepts takesAbi (asc "vv") takesValue takesBytes := by
  obtain ⟨w, e, h⟩ := C82_sound takesAbi (asc "vv") (noShort_of (by decide +kernel)) (noExtension_of (by decide +kernel)) 6 .eof takesBytes takesValue [] rfl
  rw [List.append_nil] at e
  exact e ▸ h

end Verif
