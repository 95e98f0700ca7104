import Verif.Lemmas.CodegenRead
/-! Helper lemmas: when the generated code compiles. -/
namespace Verif

theorem genWrite_exists (f : CgField) : (genWrite f).usesExists = (f.isOptional || f.isPtr) := by
  obtain ⟨s, p, o, l, a, n⟩ := f
  unfold genWrite
  cases methodOf s <;> cases p <;> cases o <;> cases l <;> cases a <;> rfl
theorem genWrite_length (f : CgField) : (genWrite f).usesLength = f.isSlice := by
  obtain ⟨s, p, o, l, a, n⟩ := f
  unfold genWrite
  cases methodOf s <;> cases p <;> cases o <;> cases l <;> cases a <;> rfl
theorem genRead_exists (f : CgField) : (genRead f).usesExists = f.isOptional := by
  obtain ⟨s, p, o, l, a, n⟩ := f
  unfold genRead
  cases methodOf s <;> cases p <;> cases o <;> cases l <;> cases a <;> rfl
theorem genRead_length (f : CgField) : (genRead f).usesLength = f.isSlice := by
  obtain ⟨s, p, o, l, a, n⟩ := f
  unfold genRead
  cases methodOf s <;> cases p <;> cases o <;> cases l <;> cases a <;> rfl

/-- What the generator and the compiler make of a field -/
def FieldC (typed : CgField → Bool) (vis : Vis) (tag : Tag) (t : Ty) : Prop :=
  ∃ f, cgField t.goString tag = some f ∧ typed f = true ∧ (f.isSlice = true ↔ SliceField vis tag t) ∧ (f.isArray = true ↔ ArrayField vis tag t)

theorem codeW_typed {code : Ty → Prop} {has : Ty → Bool} (hk : ∀ u, code u → (∃ c, u = .chain c) ∨ ∃ fs, u = .struct fs) (hh : ∀ u, code u → has u = true) {u : Ty} (hu : WriteElem code u)
    {r r' : Ref} {t : Ty} (h : r.type t = some u) (h' : r'.type t = some u) : (codeW u r r').typed has t = true := by
  unfold codeW
  cases u with
  | basic b => rw [show methodOf (Ty.basic b).goString = _ from methodOf_basic b]; simp [WStmt.typed, h, Method.takes]
  | ptr t => rw [show methodOf (Ty.ptr t).goString = none from methodOf_ptr _]; simp [WStmt.typed, h', callable, hh t hu]
  | chain c => rw [show methodOf (Ty.chain c).goString = none from methodOf_chain c]; simp [WStmt.typed, h', callable, hh _ hu]
  | struct fs => rw [show methodOf (Ty.struct fs).goString = none from methodOf_main]; simp [WStmt.typed, h', callable, hh _ hu]
  | _ => rcases hk _ hu with ⟨_, h⟩ | ⟨_, h⟩ <;> cases h

theorem code_elem {code : Ty → Prop} (hk : ∀ u, code u → (∃ c, u = .chain c) ∨ ∃ fs, u = .struct fs) {u : Ty} (h : code u) : WriteElem code u := by
  rcases hk u h with ⟨c, rfl⟩ | ⟨fs, rfl⟩ <;> exact h

theorem writeOk_compiles {code : Ty → Prop} {has : Ty → Bool} (hk : ∀ u, code u → (∃ c, u = .chain c) ∨ ∃ fs, u = .struct fs) (hh : ∀ u, code u → has u = true) {vis : Vis} {tag : Tag} {t : Ty}
    (h : WriteOk code vis tag t) : FieldC (fun f => (genWrite f).typed has t) vis tag t := by
  have elem (t : Ty) (ht : PlainName t.goString) (hw : WriteElem code t) (hs : ¬ SliceField vis .none t) (ha : ¬ ArrayField vis .none t) :
      FieldC (fun f => (genWrite f).typed has t) vis .none t := by
    refine ⟨_, cgField_plain _ ht, ?_, by simpa using hs, by simpa using ha⟩
    simp only [genWrite_plain]
    exact codeW_typed hk hh hw rfl rfl
  have slice (t u : Ty) (e : t.goString = asc "[]" ++ u.goString) (hu : WriteElem code u) (hi : Ref.type ⟨false, true⟩ t = some u) (hs : t.isSlice false = true) (hs' : SliceField vis .none t)
      (ha : ¬ ArrayField vis .none t) : FieldC (fun f => (genWrite f).typed has t) vis .none t := by
    refine ⟨_, by rw [e]; exact cgField_slice _, ?_, by simpa using hs', by simpa using ha⟩
    simp only [genWrite_slice, Bool.or_self, Bool.false_eq_true, if_false, WStmt.typed, hs, Bool.true_and]
    exact codeW_typed hk hh hu hi hi
  have array (n : Nat) (u : Ty) (hn : n < 2 ^ 63) (hu : WriteElem code u) : FieldC (fun f => (genWrite f).typed has (.array n u)) vis .none (.array n u) := by
    refine ⟨_, cgField_array n hn _, ?_, by simp [SliceField], by simp [ArrayField]⟩
    simp only [genWrite_array, Bool.or_self, Bool.false_eq_true, if_false, WStmt.typed]
    exact codeW_typed hk hh hu rfl rfl
  have ptr_basic (b : Basic) (ht : tag = .none ∨ tag = .optional) : FieldC (fun f => (genWrite f).typed has (.ptr (.basic b))) vis tag (.ptr (.basic b)) := by
    refine ⟨_, cgField_ptr _ (plainName_basic b) tag ht, ?_, by simp [SliceField], by simp [ArrayField]⟩
    unfold genWrite
    simp [methodOf_basic, WStmt.typed, Ref.type, Ty.isPtr, Method.takes]
  have ptr_code (u : Ty) (hu : code u) (ht : tag = .none ∨ tag = .optional) : FieldC (fun f => (genWrite f).typed has (.ptr u)) vis tag (.ptr u) := by
    obtain ⟨h1, h2⟩ := goString_code (hk u hu)
    refine ⟨_, cgField_ptr _ h2 tag ht, ?_, ?_, ?_⟩
    · unfold genWrite
      simp [h1, WStmt.typed, Ref.type, Ty.isPtr, callable, hh u hu]
    · rcases hk u hu with ⟨c, rfl⟩ | ⟨fs, rfl⟩ <;> simp [SliceField]
    · rcases hk u hu with ⟨c, rfl⟩ | ⟨fs, rfl⟩ <;> simp [ArrayField]
  have ptr_slice (t u : Ty) (e : t.goString = asc "[]" ++ u.goString) (hu : WriteElem code u) (hi : Ref.type ⟨true, true⟩ (.ptr t) = some u) (hs : (Ty.ptr t).isSlice true = true)
      (hs' : SliceField vis tag (.ptr t)) (ha : ¬ ArrayField vis tag (.ptr t)) : FieldC (fun f => (genWrite f).typed has (.ptr t)) vis tag (.ptr t) := by
    refine ⟨_, (congrArg (fun s => cgField (42 :: s) tag) e).trans (cgField_ptr_slice _ tag), ?_, by simpa using hs', by simpa using ha⟩
    simp only [genWrite_slice, Bool.or_true, if_true, WStmt.typed, hs, Bool.true_and]
    exact (Bool.and_eq_true _ _).mpr ⟨rfl, codeW_typed hk hh hu hi hi⟩
  have ptr_array (n : Nat) (u : Ty) (hn : n < 2 ^ 63) (hu : WriteElem code u) : FieldC (fun f => (genWrite f).typed has (.ptr (.array n u))) vis tag (.ptr (.array n u)) := by
    refine ⟨_, cgField_ptr_array n hn _ tag, ?_, by simp [SliceField], by simp [ArrayField]⟩
    simp only [genWrite_array, Bool.or_true, if_true, WStmt.typed]
    exact (Bool.and_eq_true _ _).mpr ⟨rfl, codeW_typed hk hh hu rfl rfl⟩
  obtain ⟨_, h⟩ := h
  have ptr (u : Ty) (ht : tag = .none ∨ tag = .optional) (h : match u with
      | .basic _ => True
      | .bytes => True
      | .slice u => u ≠ .basic .u8 ∧ WriteElem code u
      | .array n u => n < 2 ^ 63 ∧ WriteElem code u
      | t => code t) : FieldC (fun f => (genWrite f).typed has (.ptr u)) vis tag (.ptr u) := by
    cases u with
    | basic b => exact ptr_basic b ht
    | bytes => exact ptr_slice .bytes (.basic .u8) bytes_goString trivial rfl rfl trivial (fun h => h)
    | slice u => exact ptr_slice (.slice u) u (goString_slice h.1) h.2 rfl rfl trivial (fun h => h)
    | array n u => exact ptr_array n u h.1 h.2
    | _ => exact ptr_code _ h ht
  cases tag with
  | none =>
    cases t with
    | bytes => exact slice .bytes (.basic .u8) bytes_goString trivial rfl rfl trivial (fun h => h)
    | slice u => exact slice (.slice u) u (goString_slice h.1) h.2 rfl rfl trivial (fun h => h)
    | array n u => exact array n u h.1 h.2
    | ptr u => exact ptr u (.inl rfl) (by cases u <;> exact h)
    | basic b => exact elem _ (plainName_basic b) trivial (fun h => h) (fun h => h)
    | _ => exact elem _ (goString_code (hk _ h)).2 h (fun h => h) (fun h => h)
  | optional =>
    cases t with
    | ptr u => exact ptr u (.inr rfl) (by cases u <;> exact h)
    | _ => exact h.elim
  | _ => exact h.elim

theorem codeR_typed {code : Ty → Prop} {has : Ty → Bool} (hk : ∀ u, code u → (∃ c, u = .chain c) ∨ ∃ fs, u = .struct fs) (hh : ∀ u, code u → has u = true) {u : Ty} (hu : ReadElem code u)
    {i : Bool} {t : Ty} (h : Ref.type ⟨false, i⟩ t = some u) : (codeR u ⟨false, i⟩).typed has t = true := by
  unfold codeR
  cases u with
  | basic b => rw [show methodOf (Ty.basic b).goString = _ from methodOf_basic b]; simp [RStmt.typed, h]
  | chain c => rw [show methodOf (Ty.chain c).goString = none from methodOf_chain c]; simp [RStmt.typed, h, callable, hh _ hu]
  | struct fs => rw [show methodOf (Ty.struct fs).goString = none from methodOf_main]; simp [RStmt.typed, h, callable, hh _ hu]
  | _ => rcases hk _ hu with ⟨_, h⟩ | ⟨_, h⟩ <;> cases h

theorem codeR_tmp (u : Ty) (r : Ref) : (codeR u r).declaresTmp = false := by
  unfold codeR
  cases methodOf u.goString <;> rfl

theorem readOk_compiles {code : Ty → Prop} {has : Ty → Bool} (hk : ∀ u, code u → (∃ c, u = .chain c) ∨ ∃ fs, u = .struct fs) (hh : ∀ u, code u → has u = true) (hc : ∀ c, code (.chain c))
    {vis : Vis} {tag : Tag} {t : Ty} (h : ReadOk code vis tag t) :
    ∃ f, cgField t.goString tag = some f ∧ (genRead f).typed has t = true ∧ ((genRead f).declaresTmp = true ↔ PtrField vis tag t) := by
  have elem (t : Ty) (ht : PlainName t.goString) (hw : ReadElem code t) (hp : ∀ u, t ≠ .ptr u) :
      ∃ f, cgField t.goString .none = some f ∧ (genRead f).typed has t = true ∧ ((genRead f).declaresTmp = true ↔ PtrField vis .none t) := by
    refine ⟨_, cgField_plain _ ht, ?_, ?_⟩ <;> rw [genRead_plain]
    · exact codeR_typed hk hh hw rfl
    · rw [codeR_tmp]
      cases t with
      | ptr u => exact absurd rfl (hp u)
      | _ => simp [PtrField]
  have slice (t u : Ty) (e : t.goString = asc "[]" ++ u.goString) (hu : ReadElem code u) (hi : Ref.type ⟨false, true⟩ t = some u) (hs : t.resolves = true) (hp : ∀ u, t ≠ .ptr u) :
      ∃ f, cgField t.goString .none = some f ∧ (genRead f).typed has t = true ∧ ((genRead f).declaresTmp = true ↔ PtrField vis .none t) := by
    refine ⟨_, by rw [e]; exact cgField_slice _, ?_, ?_⟩ <;> rw [genRead_slice]
    · simp [RStmt.typed, e, hs, codeR_typed hk hh hu hi]
    · cases t with
      | ptr u => exact absurd rfl (hp u)
      | _ => simp [PtrField, RStmt.declaresTmp]
  obtain ⟨_, h⟩ := h
  cases tag with
  | none =>
    cases t with
    | bytes => exact slice .bytes (.basic .u8) bytes_goString trivial rfl rfl (fun _ h => nomatch h)
    | slice u =>
      cases u with
      | basic b => exact slice (.slice (.basic b)) (.basic b) (goString_slice fun e => by cases e; exact h rfl) trivial rfl (by cases b <;> first | rfl | exact absurd rfl h) (fun _ h => nomatch h)
      | chain c => exact slice (.slice (.chain c)) (.chain c) rfl (hc c) rfl rfl (fun _ h => nomatch h)
      | _ => rcases hk _ h with ⟨_, h⟩ | ⟨_, h⟩ <;> cases h
    | array n u =>
      refine ⟨_, cgField_array n h.1 _, ?_, ?_⟩ <;> rw [genRead_array]
      · exact codeR_typed hk hh h.2 rfl
      · simp [PtrField, RStmt.declaresTmp]
    | ptr u =>
      cases u with
      | basic b =>
        refine ⟨_, cgField_ptr _ (plainName_basic b) .none (.inl rfl), ?_, ?_⟩ <;> rw [genRead_ptr]
        · simp [RStmt.typed, Ref.type]
        · simp [PtrField, RStmt.declaresTmp]
      | _ => rcases hk _ h with ⟨_, h⟩ | ⟨_, h⟩ <;> cases h
    | basic b => exact elem _ (plainName_basic b) trivial (fun _ h => nomatch h)
    | _ => exact elem _ (goString_code (hk _ h)).2 h (fun _ h => nomatch h)
  | optional =>
    cases t with
    | ptr u =>
      cases u with
      | basic b =>
        refine ⟨_, cgField_ptr _ (plainName_basic b) .optional (.inr rfl), ?_, ?_⟩ <;> simp only [genRead_ptr]
        · simp [RStmt.typed, Ref.type]
        · simp [PtrField, RStmt.declaresTmp]
      | _ => exact h.elim
    | _ => exact h.elim
  | _ => exact h.elim

theorem bool_eq_iff {a b : Bool} : (a = true ↔ b = true) ↔ a = b := by cases a <;> cases b <;> simp

/-- All fields -/
theorem writeOk_fields {code : Ty → Prop} {has : Ty → Bool} (hk : ∀ u, code u → (∃ c, u = .chain c) ∨ ∃ fs, u = .struct fs) (hh : ∀ u, code u → has u = true) : (fs : Fields) → fs.All (WriteOk code) →
    ∃ l, fs.cgFields = some l ∧ fs.typed (writeTyped has) = true ∧ (l.any (·.isSlice) = true ↔ fs.Any SliceField) ∧ (l.any (·.isArray) = true ↔ fs.Any ArrayField)
  | .nil, _ => ⟨[], rfl, rfl, by simp [Fields.Any], by simp [Fields.Any]⟩
  | .cons vis tag t fs, h => by
    obtain ⟨l, h1, h2, h3, h4⟩ := writeOk_fields hk hh fs h.2
    obtain ⟨f, h5, h6, h7, h8⟩ := writeOk_compiles hk hh h.1
    refine ⟨f :: l, ?_, ?_, ?_, ?_⟩
    · simp [Fields.cgFields, h5, h1]
    · simp only [Fields.typed, writeTyped, h.1.1, h5, h2]
      simpa using h6
    · simp only [List.any_cons, Bool.or_eq_true, h7, h3, Fields.Any]
    · simp only [List.any_cons, Bool.or_eq_true, h8, h4, Fields.Any]

theorem readOk_fields {code : Ty → Prop} {has : Ty → Bool} (hk : ∀ u, code u → (∃ c, u = .chain c) ∨ ∃ fs, u = .struct fs) (hh : ∀ u, code u → has u = true) (hc : ∀ c, code (.chain c)) :
    (fs : Fields) → fs.All (ReadOk code) →
    ∃ l, fs.cgFields = some l ∧ fs.typed (readTyped has) = true ∧ (l.any (fun f => (genRead f).declaresTmp) = true ↔ fs.Any PtrField) ∧ (l.countP (fun f => (genRead f).declaresTmp) ≤ 1 ↔ fs.AtMostOne PtrField)
  | .nil, _ => ⟨[], rfl, rfl, by simp [Fields.Any], by simp [Fields.AtMostOne]⟩
  | .cons vis tag t fs, h => by
    obtain ⟨l, h1, h2, h3, h4⟩ := readOk_fields hk hh hc fs h.2
    obtain ⟨f, h5, h6, h7⟩ := readOk_compiles hk hh hc h.1
    refine ⟨f :: l, ?_, ?_, ?_, ?_⟩
    · simp [Fields.cgFields, h5, h1]
    · simp only [Fields.typed, readTyped, h.1.1, h5, h2]
      simpa using h6
    · simp only [List.any_cons, Bool.or_eq_true, h7, h3, Fields.Any]
    · rw [List.countP_cons, Fields.AtMostOne, ← h4, ← h7, ← h3]
      by_cases hf : (genRead f).declaresTmp = true
      · rw [if_pos hf]
        have : l.any (fun f => (genRead f).declaresTmp) = true ↔ 0 < l.countP (fun f => (genRead f).declaresTmp) := by
          rw [List.countP_pos_iff, List.any_eq_true]
        rw [this]
        constructor
        · intro h; exact ⟨by omega, fun _ => by omega⟩
        · intro h; have := h.2 hf; omega
      · rw [if_neg hf]
        simp [hf]

end Verif
