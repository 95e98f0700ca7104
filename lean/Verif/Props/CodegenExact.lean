import Verif.Lemmas.CodegenExact
/-! # C60: exactly when the generated functions compile -/
namespace Verif

/-- MarshalABI compiles exactly for structs without a field `_`, all of whose fields can be written, and that have no array unless they also have a loop over a slice:
the code for arrays does not use the variable `length` that is declared for it. -/
theorem C60_marshal_compiles_iff (has : Ty → Bool) (fs : Fields) :
    fs.marshalCompiles has = true ↔ fs.All (FieldWrites has) ∧ (fs.Any ArrayField → fs.Any LoopField) := by
  obtain ⟨h1, h2⟩ := write_fields has fs
  unfold Fields.marshalCompiles
  constructor
  · intro h
    cases hl : fs.cgFields with
    | none => rw [hl] at h; exact nomatch h
    | some l =>
      rw [hl] at h
      simp only [Bool.and_eq_true] at h
      have ha := h1.mp h.1
      obtain ⟨l', e, h3, h4⟩ := h2 ha
      cases hl.symm.trans e
      refine ⟨ha, fun hr => h3.mp ?_⟩
      have h5 := h4.mpr hr
      have h6 := h.2
      simp only [FnDecls.fit, writeDecls, genWrite_length, Bool.and_eq_true, decide_eq_true_eq] at h6
      rw [← h6.2, List.any_eq_true]
      obtain ⟨f, hf, hf'⟩ := List.any_eq_true.mp h5
      exact ⟨f, hf, by simp [hf']⟩
  · rintro ⟨ha, hr⟩
    obtain ⟨l, e, h3, h4⟩ := h2 ha
    rw [e]
    simp only [Bool.and_eq_true]
    refine ⟨h1.mpr ha, ?_⟩
    simp only [FnDecls.fit, writeDecls, genWrite_length, genWrite_exists, Bool.and_eq_true, decide_eq_true_eq, true_and]
    by_cases hs : l.any (·.isSlice) = true
    · rw [hs, List.any_eq_true]
      obtain ⟨f, hf, hf'⟩ := List.any_eq_true.mp hs
      exact ⟨f, hf, by simp [hf']⟩
    · have hn : ¬ l.any (·.isArray) = true := fun h => hs (h3.mpr (hr (h4.mp h)))
      refine Bool.eq_iff_iff.mpr ⟨fun h => ?_, fun h => absurd h hs⟩
      obtain ⟨f, hf, hf'⟩ := List.any_eq_true.mp h
      rcases Bool.or_eq_true _ _ |>.mp hf' with h | h
      · exact List.any_eq_true.mpr ⟨f, hf, h⟩
      · exact absurd (List.any_eq_true.mpr ⟨f, hf, h⟩) hn

/-- UnmarshalABI compiles exactly for structs without a field `_`, all of whose fields can be read, at most one of them a plain pointer to a basic type: each of these
declares the variable `tmp`. -/
theorem C60_unmarshal_compiles_iff (has : Ty → Bool) (fs : Fields) :
    fs.unmarshalCompiles has = true ↔ fs.All (FieldReads has) ∧ fs.AtMostOne TmpField := by
  obtain ⟨h1, h2⟩ := read_fields has fs
  unfold Fields.unmarshalCompiles
  constructor
  · intro h
    cases hl : fs.cgFields with
    | none => rw [hl] at h; exact nomatch h
    | some l =>
      rw [hl] at h
      simp only [Bool.and_eq_true, decide_eq_true_eq] at h
      have ha := h1.mp h.1.1
      obtain ⟨l', e, _, h4⟩ := h2 ha
      cases hl.symm.trans e
      exact ⟨ha, h4.mp h.2⟩
  · rintro ⟨ha, hr⟩
    obtain ⟨l, e, _, h4⟩ := h2 ha
    rw [e]
    simp only [Bool.and_eq_true, decide_eq_true_eq]
    refine ⟨⟨h1.mpr ha, ?_⟩, h4.mpr hr⟩
    simp [FnDecls.fit, readDecls, genRead_length, genRead_exists]

/-- Types of package chain have methods -/
private def ofChain : Ty → Bool
  | .chain _ => true
  | _ => false

/-- `A [2]chain.Name; B *[]*chain.Asset; c uint8` -/
example : (Fields.cons .exported .none (.array 2 (.chain .name)) (.cons .exported .optional (.ptr (.slice (.ptr (.chain .asset)))) (.cons .unexported .none (.basic .u8) .nil))).All (FieldWrites ofChain) ∧
    (Fields.cons .exported .none (.array 2 (.chain .name)) (.cons .exported .optional (.ptr (.slice (.ptr (.chain .asset)))) (.cons .unexported .none (.basic .u8) .nil))).Any LoopField := by
  simp [Fields.All, Fields.Any, FieldWrites, PointeeWrites, ElemWrites, LoopField, ofChain]
/-- Neither an array of arrays nor an optional string nor a field `_` can be written. -/
example : ¬ FieldWrites ofChain .exported .none (.array 2 (.array 2 (.basic .u8))) ∧ ¬ FieldWrites ofChain .exported .optional (.basic .string) ∧ ¬ FieldWrites ofChain .blank .none (.basic .u8) := by
  simp [FieldWrites, PointeeWrites, ElemWrites, ofChain]
/-- `A []chain.Name; B *string; C *chain.Asset; D *uint8 abi:"optional"` -/
example : (Fields.cons .exported .none (.slice (.chain .name)) (.cons .exported .none (.ptr (.basic .string)) (.cons .exported .none (.ptr (.chain .asset)) (.cons .exported .optional (.ptr (.basic .u8)) .nil)))).All (FieldReads ofChain) ∧
    (Fields.cons .exported .none (.slice (.chain .name)) (.cons .exported .none (.ptr (.basic .string)) (.cons .exported .none (.ptr (.chain .asset)) (.cons .exported .optional (.ptr (.basic .u8)) .nil)))).AtMostOne TmpField := by
  simp [Fields.All, Fields.Any, Fields.AtMostOne, FieldReads, ElemReads, TmpField, Ty.Foreign, ofChain]
/-- Neither a pointer to a slice nor a slice of a struct of package main can be read, whatever has methods. -/
example (fs : Fields) : ¬ FieldReads (fun _ => true) .exported .none (.ptr (.slice (.basic .u16))) ∧ ¬ FieldReads (fun _ => true) .exported .none (.slice (.struct fs)) := by
  simp [FieldReads, Ty.Foreign]

end Verif
