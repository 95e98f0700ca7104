import Verif.Spec.AbiBinary
import Verif.Lemmas.Reflect
/-! # chain.Abi in the reflection codec -/
namespace Verif

/-! ## Lists -/

section
variable {α β : Type} {Rel : α → β → Prop} {xs xs' : List α} {ys : List β} {R : α → Bytes → Prop} {S : β → Bytes → Prop} {bs : Bytes}

theorem rep_length (h : Forall2 Rel xs ys) : xs.length = ys.length := by
  induction h with
  | nil => rfl
  | cons _ _ ih => simp [ih]

theorem each_iff (h : Forall2 Rel xs ys) (hR : ∀ x y, Rel x y → ∀ b, R x b ↔ S y b) (bs : Bytes) : Each R xs bs ↔ Each S ys bs := by
  induction h generalizing bs with
  | nil => constructor <;> (intro h; cases h; exact .nil)
  | cons h1 _ ih =>
    constructor
    · intro h; cases h with
      | cons a b => exact .cons ((hR _ _ h1 _).1 a) ((ih _).1 b)
    · intro h; cases h with
      | cons a b => exact .cons ((hR _ _ h1 _).2 a) ((ih _).2 b)

theorem counted_iff {o : Option (List α)} (h : RepSlice Rel o ys) (hR : ∀ x y, Rel x y → ∀ b, R x b ↔ S y b) (bs : Bytes) : Counted R (o.getD []) bs ↔ Counted S ys bs := by
  unfold Counted
  rw [rep_length h]
  simp only [each_iff h hR]

theorem repSlice_same {T : α → α → Prop} {o o' : Option (List α)} (h : RepSlice Rel o ys) (hs : Forall2 T (o.getD []) (o'.getD [])) (hR : ∀ x x' y, Rel x y → T x x' → Rel x' y) :
    RepSlice Rel o' ys := by
  unfold RepSlice at *
  generalize o.getD [] = l at *
  generalize o'.getD [] = l' at *
  induction h generalizing l' with
  | nil => cases hs; exact .nil
  | cons h1 _ ih => cases hs with
    | cons a b => exact .cons (hR _ _ _ h1 a) (ih _ b)

theorem repSlice_exists (h : ∀ y, ∃ x, Rel x y) (ys : List β) : ∃ o, RepSlice Rel o ys := by
  suffices ∃ l, Forall2 Rel l ys from this.elim fun l h => ⟨some l, h⟩
  induction ys with
  | nil => exact ⟨[], .nil⟩
  | cons y ys ih =>
    obtain ⟨x, hx⟩ := h y
    obtain ⟨xs, hxs⟩ := ih
    exact ⟨x :: xs, .cons hx hxs⟩

theorem forall2_mem {P : α → Prop} {Q : β → Prop} (h : Forall2 Rel xs ys) (hR : ∀ x y, Rel x y → Q y → P x) (hy : ∀ y ∈ ys, Q y) : ∀ x ∈ xs, P x := by
  induction h with
  | nil => simp
  | cons h1 _ ih =>
    simp only [List.forall_mem_cons] at hy ⊢
    exact ⟨hR _ _ h1 hy.1, ih hy.2⟩

theorem forall2_fun {ys' : List β} (hR : ∀ x y y', Rel x y → Rel x y' → y = y') (h : Forall2 Rel xs ys) (h' : Forall2 Rel xs ys') : ys = ys' := by
  induction h generalizing ys' with
  | nil => cases h'; rfl
  | cons h1 _ ih => cases h' with
    | cons a b => rw [hR _ _ _ h1 a, ih b]

theorem rep_eq {l l' : List α} : Forall2 (fun x y => x = y) l l' → l = l' := by
  intro h
  induction h with
  | nil => rfl
  | cons h _ ih => rw [h, ih]
theorem forall2_refl (l : List α) : Forall2 (fun x y => x = y) l l := by
  induction l with
  | nil => exact .nil
  | cons x l ih => exact .cons rfl ih

theorem wf_slice {t : Ty} {Rel : t.Val → β → Prop} {Q : β → Prop} (ht : t.size ≤ 2 ^ 20) (o : Option (List t.Val)) (h : RepSlice Rel o ys) (hl : Short ys) (hq : ∀ y ∈ ys, Q y)
    (hR : ∀ x y, Rel x y → Q y → t.Wf x) : (Ty.slice t).Wf o := by
  have e := rep_length h
  unfold Short at hl
  refine ⟨by omega, ?_, forall2_mem h hR hq⟩
  have : (o.getD []).length * t.size ≤ 2 ^ 28 * 2 ^ 20 := Nat.mul_le_mul (by omega) ht
  unfold maxAlloc
  exact this
end

/-! ## Structs -/

theorem layout_cons (t : Ty) (fs : Fields) (x : t.Val) (xs : fs.Val) (bs : Bytes) :
    Fields.Layout (plainField t fs) ((x, xs) : t.Val × fs.Val) bs ↔ ∃ b1 b2, t.Layout x b1 ∧ fs.Layout xs b2 ∧ bs = b1 ++ b2 := by
  simp only [Fields.Layout, reduceCtorEq, if_false]
  constructor
  · rintro ⟨b1, b2, h1, h2, h3⟩; exact ⟨b1, b2, h3, h1, h2⟩
  · rintro ⟨b1, b2, h1, h2, h3⟩; exact ⟨b1, b2, h2, h3, h1⟩
theorem wf_cons (t : Ty) (fs : Fields) (x : t.Val) (xs : fs.Val) (h : t.Wf x) (h' : fs.Wf xs) : Fields.Wf (plainField t fs) ((x, xs) : t.Val × fs.Val) := ⟨.inr h, h'⟩

theorem strings_layout (o : Option (List Bytes)) (l : List Bytes) (h : o.getD [] = l) (bs : Bytes) : (Ty.slice (.basic .string)).Layout o bs ↔ StringsLayout l bs := by
  subst h; exact Iff.rfl
theorem strings_wf (o : Option (List Bytes)) (l : List Bytes) (h : o.getD [] = l) (hs : Shorts l) : (Ty.slice (.basic .string)).Wf o := by
  subst h
  exact wf_slice (t := .basic .string) (Rel := fun x y => x = y) (Q := Short) (by decide) o (forall2_refl _) hs.1 hs.2 (fun x y e h => by subst e; exact h)

abbrev val2 (t1 t2 : Ty) : Type := t1.Val × t2.Val × Unit
abbrev val3 (t1 t2 t3 : Ty) : Type := t1.Val × t2.Val × t3.Val × Unit
abbrev val5 (t1 t2 t3 t4 t5 : Ty) : Type := t1.Val × t2.Val × t3.Val × t4.Val × t5.Val × Unit

section
variable {t1 t2 t3 t4 t5 : Ty} {P1 P2 P3 P4 P5 : Bytes → Prop}

theorem fields_cons {fs : Fields} {xs : fs.Val} {x : t1.Val} {Q : Bytes → Prop} (h1 : ∀ b, t1.Layout x b ↔ P1 b) (h2 : ∀ b, fs.Layout xs b ↔ Q b) (bs : Bytes) :
    Fields.Layout (plainField t1 fs) ((x, xs) : t1.Val × fs.Val) bs ↔ ∃ x y, P1 x ∧ Q y ∧ bs = x ++ y := by
  rw [layout_cons]
  simp only [h1, h2]

theorem fields_one {x : t1.Val} (h1 : ∀ b, t1.Layout x b ↔ P1 b) (bs : Bytes) : Fields.Layout (plainField t1 .nil) ((x, ()) : t1.Val × Unit) bs ↔ P1 bs := by
  refine (fields_cons (fs := .nil) (Q := fun b => b = []) h1 (fun _ => Iff.rfl) bs).trans ?_
  constructor
  · rintro ⟨x, y, h, rfl, rfl⟩; rwa [List.append_nil]
  · exact fun h => ⟨bs, [], h, rfl, by simp⟩

theorem layout2 (v : val2 t1 t2) (h1 : ∀ b, t1.Layout v.1 b ↔ P1 b) (h2 : ∀ b, t2.Layout v.2.1 b ↔ P2 b) (bs : Bytes) :
    (Ty.struct (plainField t1 (plainField t2 .nil))).Layout v bs ↔ ∃ x y, P1 x ∧ P2 y ∧ bs = x ++ y :=
  fields_cons (fs := plainField t2 .nil) h1 (fields_one h2) bs

theorem layout3 (v : val3 t1 t2 t3) (h1 : ∀ b, t1.Layout v.1 b ↔ P1 b) (h2 : ∀ b, t2.Layout v.2.1 b ↔ P2 b) (h3 : ∀ b, t3.Layout v.2.2.1 b ↔ P3 b) (bs : Bytes) :
    (Ty.struct (plainField t1 (plainField t2 (plainField t3 .nil)))).Layout v bs ↔ ∃ x y z, P1 x ∧ P2 y ∧ P3 z ∧ bs = x ++ y ++ z := by
  refine (fields_cons (fs := plainField t2 (plainField t3 .nil)) h1 (layout2 v.2 h2 h3) bs).trans ?_
  constructor
  · rintro ⟨x, _, a, ⟨y, z, b, c, rfl⟩, rfl⟩; exact ⟨x, y, z, a, b, c, by simp⟩
  · rintro ⟨x, y, z, a, b, c, rfl⟩; exact ⟨x, _, a, ⟨y, z, b, c, rfl⟩, by simp⟩

theorem layout5 (v : val5 t1 t2 t3 t4 t5) (h1 : ∀ b, t1.Layout v.1 b ↔ P1 b) (h2 : ∀ b, t2.Layout v.2.1 b ↔ P2 b) (h3 : ∀ b, t3.Layout v.2.2.1 b ↔ P3 b)
    (h4 : ∀ b, t4.Layout v.2.2.2.1 b ↔ P4 b) (h5 : ∀ b, t5.Layout v.2.2.2.2.1 b ↔ P5 b) (bs : Bytes) :
    (Ty.struct (plainField t1 (plainField t2 (plainField t3 (plainField t4 (plainField t5 .nil)))))).Layout v bs ↔
      ∃ x y z u w, P1 x ∧ P2 y ∧ P3 z ∧ P4 u ∧ P5 w ∧ bs = x ++ y ++ z ++ u ++ w := by
  refine (fields_cons (fs := plainField t2 (plainField t3 (plainField t4 (plainField t5 .nil)))) h1
    (fields_cons (fs := plainField t3 (plainField t4 (plainField t5 .nil))) h2 (layout3 v.2.2 h3 h4 h5)) bs).trans ?_
  constructor
  · rintro ⟨x, _, a, ⟨y, _, b, ⟨z, u, w, c, d, e, rfl⟩, rfl⟩, rfl⟩; exact ⟨x, y, z, u, w, a, b, c, d, e, by simp⟩
  · rintro ⟨x, y, z, u, w, a, b, c, d, e, rfl⟩; exact ⟨x, _, a, ⟨y, _, b, ⟨z, u, w, c, d, e, rfl⟩, rfl⟩, by simp⟩

theorem wf2 (v : val2 t1 t2) (h1 : t1.Wf v.1) (h2 : t2.Wf v.2.1) : (Ty.struct (plainField t1 (plainField t2 .nil))).Wf v := ⟨.inr h1, .inr h2, trivial⟩
theorem wf3 (v : val3 t1 t2 t3) (h1 : t1.Wf v.1) (h2 : t2.Wf v.2.1) (h3 : t3.Wf v.2.2.1) : (Ty.struct (plainField t1 (plainField t2 (plainField t3 .nil)))).Wf v :=
  ⟨.inr h1, .inr h2, .inr h3, trivial⟩
end

theorem string_layout {s s' : Bytes} (h : s = s') (b : Bytes) : (Ty.basic .string).Layout s b ↔ Prefixed b s' := by rw [h]; exact Iff.rfl
theorem u64_layout {s s' : UInt64} (h : s = s') (b : Bytes) : (Ty.chain .name).Layout s b ↔ LeForm 8 s'.toNat b := by rw [h]; exact Iff.rfl
theorem data_layout {o : Option Bytes} {s : Bytes} (h : o.getD [] = s) (b : Bytes) : (Ty.chain .bytes).Layout o b ↔ Prefixed b s := by rw [← h]; exact Iff.rfl

theorem rep_type_layout (v : Bytes × Bytes × Unit) (t : AbiType) (h : RepType v t) : ∀ bs, abiTypeTy.Layout v bs ↔ t.Layout bs :=
  layout2 (t1 := .basic .string) (t2 := .basic .string) v (string_layout h.1) (string_layout h.2)
theorem rep_field_layout (v : Bytes × Bytes × Unit) (t : AbiField) (h : RepField v t) : ∀ bs, abiFieldTy.Layout v bs ↔ t.Layout bs :=
  layout2 (t1 := .basic .string) (t2 := .basic .string) v (string_layout h.1) (string_layout h.2)
theorem rep_clause_layout (v : Bytes × Bytes × Unit) (t : AbiClause) (h : RepClause v t) : ∀ bs, abiClauseTy.Layout v bs ↔ t.Layout bs :=
  layout2 (t1 := .basic .string) (t2 := .basic .string) v (string_layout h.1) (string_layout h.2)
theorem rep_error_layout (v : UInt64 × Bytes × Unit) (t : AbiErrorMessage) (h : RepError v t) : ∀ bs, abiErrorMessageTy.Layout v bs ↔ t.Layout bs :=
  layout2 (t1 := .chain .uint64) (t2 := .basic .string) v (u64_layout h.1) (string_layout h.2)
theorem rep_extension_layout (v : Option (UInt16 × Option Bytes × Unit)) (t : AbiExtension) (h : RepExtension v t) : ∀ bs, (Ty.ptr abiExtensionTy).Layout v bs ↔ t.Layout bs := by
  obtain ⟨x, rfl, h1, h2⟩ := h
  have := layout2 (t1 := .basic .u16) (t2 := .chain .bytes) x (P1 := LeForm 2 t.type.toNat) (fun b => by rw [h1]; exact Iff.rfl) (data_layout h2)
  intro bs
  refine Iff.trans ?_ (this bs)
  constructor
  · rintro ⟨y, e, h⟩; cases e; exact h
  · exact fun h => ⟨x, rfl, h⟩
theorem rep_variant_layout (v : Bytes × Option (List Bytes) × Unit) (t : AbiVariant) (h : RepVariant v t) : ∀ bs, abiVariantTy.Layout v bs ↔ t.Layout bs :=
  layout2 (t1 := .basic .string) (t2 := .slice (.basic .string)) v (string_layout h.1) (strings_layout _ _ h.2)
theorem rep_action_layout (v : UInt64 × Bytes × Bytes × Unit) (t : AbiAction) (h : RepAction v t) : ∀ bs, abiActionTy.Layout v bs ↔ t.Layout bs :=
  layout3 (t1 := .chain .name) (t2 := .basic .string) (t3 := .basic .string) v (u64_layout h.1) (string_layout h.2.1) (string_layout h.2.2)
theorem rep_struct_layout (v : Bytes × Bytes × Option (List (Bytes × Bytes × Unit)) × Unit) (t : AbiStruct) (h : RepStruct v t) : ∀ bs, abiStructTy.Layout v bs ↔ t.Layout bs :=
  layout3 (t1 := .basic .string) (t2 := .basic .string) (t3 := .slice abiFieldTy) v (string_layout h.1) (string_layout h.2.1) (counted_iff h.2.2 rep_field_layout)
theorem rep_table_layout (v : UInt64 × Bytes × Option (List Bytes) × Option (List Bytes) × Bytes × Unit) (t : AbiTable) (h : RepTable v t) : ∀ bs, abiTableTy.Layout v bs ↔ t.Layout bs :=
  layout5 (t1 := .chain .name) (t2 := .basic .string) (t3 := .slice (.basic .string)) (t4 := .slice (.basic .string)) (t5 := .basic .string) v (u64_layout h.1) (string_layout h.2.1)
    (strings_layout _ _ h.2.2.1) (strings_layout _ _ h.2.2.2.1) (string_layout h.2.2.2.2)

/-! ## The whole -/

/-- The fields before the variants -/
def abiHead : Ty := .struct <| plainField (.basic .string) <| plainField (.slice abiTypeTy) <| plainField (.slice abiStructTy) <| plainField (.slice abiActionTy) <|
  plainField (.slice abiTableTy) <| plainField (.slice abiClauseTy) <| plainField (.slice abiErrorMessageTy) <| plainField (.slice (.ptr abiExtensionTy)) .nil

theorem abi_layout (v : abiTy.Val) (a : Abi) (h : Represents v a) (bs : Bytes) : abiTy.Layout v bs ↔ a.Layout bs := by
  obtain ⟨ver, types, structs, actions, tables, clauses, errors, extensions, variants, u⟩ : GoAbi := v
  obtain ⟨h1, h2, h3, h4, h5, h6, h7, h8, h9⟩ := h
  have hv : ∀ b, Fields.Layout (.cons .exported .extension (.slice abiVariantTy) .nil) ((variants, ()) : (Ty.slice abiVariantTy).Val × Unit) b ↔ Counted AbiVariant.Layout a.variants b :=
    fields_one (t1 := .slice abiVariantTy) (counted_iff h9 rep_variant_layout)
  refine (fields_cons (t1 := .basic .string) (fs := plainField (.slice abiTypeTy) _) (string_layout h1) (fields_cons (t1 := .slice abiTypeTy) (fs := plainField (.slice abiStructTy) _) (counted_iff h2 rep_type_layout)
    (fields_cons (t1 := .slice abiStructTy) (fs := plainField (.slice abiActionTy) _) (counted_iff h3 rep_struct_layout) (fields_cons (t1 := .slice abiActionTy) (fs := plainField (.slice abiTableTy) _) (counted_iff h4 rep_action_layout)
    (fields_cons (t1 := .slice abiTableTy) (fs := plainField (.slice abiClauseTy) _) (counted_iff h5 rep_table_layout) (fields_cons (t1 := .slice abiClauseTy) (fs := plainField (.slice abiErrorMessageTy) _) (counted_iff h6 rep_clause_layout)
    (fields_cons (t1 := .slice abiErrorMessageTy) (fs := plainField (.slice (.ptr abiExtensionTy)) _) (counted_iff h7 rep_error_layout)
    (fields_cons (t1 := .slice (.ptr abiExtensionTy)) (fs := .cons .exported .extension (.slice abiVariantTy) .nil) (counted_iff h8 rep_extension_layout) hv))))))) bs).trans ?_
  constructor
  · rintro ⟨b1, _, p1, ⟨b2, _, p2, ⟨b3, _, p3, ⟨b4, _, p4, ⟨b5, _, p5, ⟨b6, _, p6, ⟨b7, _, p7, ⟨b8, b9, p8, p9, rfl⟩, rfl⟩, rfl⟩, rfl⟩, rfl⟩, rfl⟩, rfl⟩, rfl⟩
    exact ⟨_, b9, ⟨b1, b2, b3, b4, b5, b6, b7, b8, p1, p2, p3, p4, p5, p6, p7, p8, rfl⟩, p9, by simp⟩
  · rintro ⟨_, b9, ⟨b1, b2, b3, b4, b5, b6, b7, b8, p1, p2, p3, p4, p5, p6, p7, p8, rfl⟩, p9, rfl⟩
    exact ⟨b1, _, p1, ⟨b2, _, p2, ⟨b3, _, p3, ⟨b4, _, p4, ⟨b5, _, p5, ⟨b6, _, p6, ⟨b7, _, p7, ⟨b8, b9, p8, p9, rfl⟩, rfl⟩, rfl⟩, rfl⟩, rfl⟩, rfl⟩, rfl⟩, by simp⟩

theorem u64_wf (x : UInt64) : (Ty.chain .name).Wf x := trivial
theorem string_wf {s s' : Bytes} (h : s = s') (hs : Short s') : (Ty.basic .string).Wf s := by rw [h]; exact hs

theorem rep_field_wf (v : Bytes × Bytes × Unit) (t : AbiField) (h : RepField v t) (hs : Short t.name ∧ Short t.type) : abiFieldTy.Wf v :=
  wf2 (t1 := .basic .string) (t2 := .basic .string) v (string_wf h.1 hs.1) (string_wf h.2 hs.2)
theorem rep_extension_wf (v : Option (UInt16 × Option Bytes × Unit)) (t : AbiExtension) (h : RepExtension v t) (hs : Short t.data) : (Ty.ptr abiExtensionTy).Wf v := by
  obtain ⟨x, rfl, h1, h2⟩ := h
  exact ⟨x, rfl, wf2 (t1 := .basic .u16) (t2 := .chain .bytes) x trivial (show (x.2.1.getD []).length < 2 ^ 28 from h2 ▸ hs)⟩
theorem rep_struct_wf (v : Bytes × Bytes × Option (List (Bytes × Bytes × Unit)) × Unit) (t : AbiStruct) (h : RepStruct v t)
    (hs : Short t.name ∧ Short t.base ∧ Short t.fields ∧ ∀ f ∈ t.fields, Short f.name ∧ Short f.type) : abiStructTy.Wf v :=
  wf3 (t1 := .basic .string) (t2 := .basic .string) (t3 := .slice abiFieldTy) v (string_wf h.1 hs.1) (string_wf h.2.1 hs.2.1)
    (wf_slice (t := abiFieldTy) (by decide) v.2.2.1 h.2.2 hs.2.2.1 hs.2.2.2 rep_field_wf)
theorem rep_table_wf (v : UInt64 × Bytes × Option (List Bytes) × Option (List Bytes) × Bytes × Unit) (t : AbiTable) (h : RepTable v t)
    (hs : Short t.indexType ∧ Shorts t.keyNames ∧ Shorts t.keyTypes ∧ Short t.type) : abiTableTy.Wf v :=
  ⟨.inr (u64_wf v.1), .inr (string_wf h.2.1 hs.1), .inr (strings_wf _ _ h.2.2.1 hs.2.1), .inr (strings_wf _ _ h.2.2.2.1 hs.2.2.1), .inr (string_wf h.2.2.2.2 hs.2.2.2), trivial⟩

theorem abi_wf (v : abiTy.Val) (a : Abi) (h : Represents v a) (hs : a.Small) : abiTy.Wf v := by
  obtain ⟨ver, types, structs, actions, tables, clauses, errors, extensions, variants, u⟩ : GoAbi := v
  obtain ⟨h1, h2, h3, h4, h5, h6, h7, h8, h9⟩ := h
  exact ⟨.inr (string_wf h1 hs.version),
    .inr (wf_slice (t := abiTypeTy) (by decide) types h2 hs.types.1 hs.types.2 fun v t h hs => wf2 (t1 := .basic .string) (t2 := .basic .string) v (string_wf h.1 hs.1) (string_wf h.2 hs.2)),
    .inr (wf_slice (t := abiStructTy) (by decide) structs h3 hs.structs.1 hs.structs.2 rep_struct_wf),
    .inr (wf_slice (t := abiActionTy) (by decide) actions h4 hs.actions.1 hs.actions.2 fun v t h hs =>
      wf3 (t1 := .chain .name) (t2 := .basic .string) (t3 := .basic .string) v (u64_wf _) (string_wf h.2.1 hs.1) (string_wf h.2.2 hs.2)),
    .inr (wf_slice (t := abiTableTy) (by decide) tables h5 hs.tables.1 hs.tables.2 rep_table_wf),
    .inr (wf_slice (t := abiClauseTy) (by decide) clauses h6 hs.clauses.1 hs.clauses.2 fun v t h hs => wf2 (t1 := .basic .string) (t2 := .basic .string) v (string_wf h.1 hs.1) (string_wf h.2 hs.2)),
    .inr (wf_slice (t := abiErrorMessageTy) (by decide) errors h7 hs.errors.1 hs.errors.2 fun v t h hs => wf2 (t1 := .chain .uint64) (t2 := .basic .string) v trivial (string_wf h.2 hs)),
    .inr (wf_slice (t := .ptr abiExtensionTy) (by decide) extensions h8 hs.extensions.1 hs.extensions.2 rep_extension_wf),
    .inr (wf_slice (t := abiVariantTy) (by decide) variants h9 hs.variants.1 hs.variants.2 fun v t h hs =>
      wf2 (t1 := .basic .string) (t2 := .slice (.basic .string)) v (string_wf h.1 hs.1) (strings_wf _ _ h.2 hs.2)), trivial⟩

theorem strings_same {o o' : Option (List Bytes)} {l : List Bytes} (h : o.getD [] = l) (hs : (Ty.slice (.basic .string)).Same o o') : o'.getD [] = l := by
  rw [← h]; exact (rep_eq hs).symm

theorem rep_field_same (v w : Bytes × Bytes × Unit) (t : AbiField) (h : RepField v t) (hs : abiFieldTy.Same v w) : RepField w t := ⟨hs.1.symm.trans h.1, hs.2.1.symm.trans h.2⟩
theorem rep_extension_same (v w : Option (UInt16 × Option Bytes × Unit)) (t : AbiExtension) (h : RepExtension v t) (hs : (Ty.ptr abiExtensionTy).Same v w) : RepExtension w t := by
  obtain ⟨x, rfl, h1, h2⟩ := h
  rcases hs with ⟨h, _⟩ | ⟨x', y, e1, e2, e3⟩
  · cases h
  · cases e1
    exact ⟨y, e2, (show x.1 = Prod.fst (α := UInt16) (β := Option Bytes × Unit) y from e3.1).symm.trans h1,
      (show x.2.1.getD [] = (Prod.fst (Prod.snd (α := UInt16) (β := Option Bytes × Unit) y)).getD [] from e3.2.1).symm.trans h2⟩

theorem abi_same (v w : abiTy.Val) (a : Abi) (h : Represents v a) (hs : abiTy.Same v w) : Represents w a := by
  obtain ⟨ver, types, structs, actions, tables, clauses, errors, extensions, variants, u⟩ : GoAbi := v
  obtain ⟨ver', types', structs', actions', tables', clauses', errors', extensions', variants', u'⟩ : GoAbi := w
  obtain ⟨h1, h2, h3, h4, h5, h6, h7, h8, h9⟩ := h
  obtain ⟨g1, g2, g3, g4, g5, g6, g7, g8, g9, _⟩ := hs
  exact ⟨g1.symm.trans h1, repSlice_same h2 g2 fun v w t h hs => ⟨hs.1.symm.trans h.1, hs.2.1.symm.trans h.2⟩,
    repSlice_same h3 g3 fun v w t h hs => ⟨hs.1.symm.trans h.1, hs.2.1.symm.trans h.2.1, repSlice_same h.2.2 hs.2.2.1 rep_field_same⟩,
    repSlice_same h4 g4 fun v w t h hs => ⟨hs.1.symm.trans h.1, hs.2.1.symm.trans h.2.1, hs.2.2.1.symm.trans h.2.2⟩,
    repSlice_same h5 g5 fun v w t h hs => ⟨hs.1.symm.trans h.1, hs.2.1.symm.trans h.2.1, strings_same h.2.2.1 hs.2.2.1, strings_same h.2.2.2.1 hs.2.2.2.1, hs.2.2.2.2.1.symm.trans h.2.2.2.2⟩,
    repSlice_same h6 g6 fun v w t h hs => ⟨hs.1.symm.trans h.1, hs.2.1.symm.trans h.2⟩,
    repSlice_same h7 g7 fun v w t h hs => ⟨hs.1.symm.trans h.1, hs.2.1.symm.trans h.2⟩,
    repSlice_same h8 g8 rep_extension_same,
    repSlice_same h9 g9 fun v w t h hs => ⟨hs.1.symm.trans h.1, strings_same h.2 hs.2.1⟩⟩

theorem abi_exists (a : Abi) : ∃ v, Represents v a := by
  obtain ⟨types, h2⟩ := repSlice_exists (Rel := RepType) (fun y => ⟨(y.1, y.2, ()), rfl, rfl⟩) a.types
  obtain ⟨structs, h3⟩ := repSlice_exists (Rel := RepStruct) (fun y => (repSlice_exists (Rel := RepField) (fun y => ⟨(y.1, y.2, ()), rfl, rfl⟩) y.fields).elim
    fun fs h => ⟨(y.1, y.2, fs, ()), rfl, rfl, h⟩) a.structs
  obtain ⟨actions, h4⟩ := repSlice_exists (Rel := RepAction) (fun y => ⟨(y.1, y.2, y.3, ()), rfl, rfl, rfl⟩) a.actions
  obtain ⟨tables, h5⟩ := repSlice_exists (Rel := RepTable) (fun y => ⟨(y.1, y.2, some y.3, some y.4, y.5, ()), rfl, rfl, rfl, rfl, rfl⟩) a.tables
  obtain ⟨clauses, h6⟩ := repSlice_exists (Rel := RepClause) (fun y => ⟨(y.1, y.2, ()), rfl, rfl⟩) a.ricardianClauses
  obtain ⟨errors, h7⟩ := repSlice_exists (Rel := RepError) (fun y => ⟨(y.1, y.2, ()), rfl, rfl⟩) a.errorMessages
  obtain ⟨extensions, h8⟩ := repSlice_exists (Rel := RepExtension) (fun y => ⟨some (y.1, some y.2, ()), _, rfl, rfl, rfl⟩) a.extensions
  obtain ⟨variants, h9⟩ := repSlice_exists (Rel := RepVariant) (fun y => ⟨(y.1, some y.2, ()), rfl, rfl⟩) a.variants
  exact ⟨((a.version, types, structs, actions, tables, clauses, errors, extensions, variants, ()) : GoAbi), rfl, h2, h3, h4, h5, h6, h7, h8, h9⟩

theorem abi_fun (v : abiTy.Val) (a a' : Abi) (h : Represents v a) (h' : Represents v a') : a = a' := by
  obtain ⟨ver, types, structs, actions, tables, clauses, errors, extensions, variants, u⟩ : GoAbi := v
  obtain ⟨_, _, _, _, _, _, _, _, _⟩ := a
  obtain ⟨_, _, _, _, _, _, _, _, _⟩ := a'
  obtain ⟨h1, h2, h3, h4, h5, h6, h7, h8, h9⟩ := h
  obtain ⟨g1, g2, g3, g4, g5, g6, g7, g8, g9⟩ := h'
  dsimp only at *
  congr 1
  · exact h1.symm.trans g1
  · exact forall2_fun (fun v t t' h g => by cases t; cases t'; obtain ⟨rfl, rfl⟩ := h; obtain ⟨rfl, rfl⟩ := g; rfl) h2 g2
  · refine forall2_fun (fun v t t' h g => ?_) h3 g3
    obtain ⟨_, _, f⟩ := t
    obtain ⟨_, _, f'⟩ := t'
    obtain ⟨rfl, rfl, h⟩ := h
    obtain ⟨rfl, rfl, g⟩ := g
    have : f = f' := forall2_fun (fun v t t' h g => by cases t; cases t'; obtain ⟨rfl, rfl⟩ := h; obtain ⟨rfl, rfl⟩ := g; rfl) h g
    rw [this]
  · exact forall2_fun (fun v t t' h g => by cases t; cases t'; obtain ⟨rfl, rfl, rfl⟩ := h; obtain ⟨rfl, rfl, rfl⟩ := g; rfl) h4 g4
  · exact forall2_fun (fun v t t' h g => by cases t; cases t'; obtain ⟨rfl, rfl, rfl, rfl, rfl⟩ := h; obtain ⟨rfl, rfl, rfl, rfl, rfl⟩ := g; rfl) h5 g5
  · exact forall2_fun (fun v t t' h g => by cases t; cases t'; obtain ⟨rfl, rfl⟩ := h; obtain ⟨rfl, rfl⟩ := g; rfl) h6 g6
  · exact forall2_fun (fun v t t' h g => by cases t; cases t'; obtain ⟨rfl, rfl⟩ := h; obtain ⟨rfl, rfl⟩ := g; rfl) h7 g7
  · exact forall2_fun (fun v t t' h g => by cases t; cases t'; obtain ⟨x, rfl, rfl, rfl⟩ := h; obtain ⟨y, e, rfl, rfl⟩ := g; cases e; rfl) h8 g8
  · exact forall2_fun (fun v t t' h g => by cases t; cases t'; obtain ⟨rfl, rfl⟩ := h; obtain ⟨rfl, rfl⟩ := g; rfl) h9 g9

theorem abi_clean (v : abiTy.Val) : abiTy.Clean v :=
  ⟨trivial, fun _ _ => ⟨trivial, trivial, trivial⟩, fun _ _ => ⟨trivial, trivial, fun _ _ => ⟨trivial, trivial, trivial⟩, trivial⟩, fun _ _ => ⟨trivial, trivial, trivial, trivial⟩,
    fun _ _ => ⟨trivial, trivial, fun _ _ => trivial, fun _ _ => trivial, trivial, trivial⟩, fun _ _ => ⟨trivial, trivial, trivial⟩, fun _ _ => ⟨trivial, trivial, trivial⟩,
    fun _ _ _ _ => ⟨trivial, trivial, trivial⟩, fun _ _ => ⟨trivial, fun _ _ => trivial, trivial⟩, trivial⟩

theorem abi_encodable : abiTy.Encodable := by simp [abiTy, abiTypeTy, abiStructTy, abiFieldTy, abiActionTy, abiTableTy, abiClauseTy, abiErrorMessageTy, abiExtensionTy, abiVariantTy, Ty.Encodable, Fields.Encodable]
theorem abi_decodable : abiTy.Decodable .decode := by
  simp [abiTy, abiTypeTy, abiStructTy, abiFieldTy, abiActionTy, abiTableTy, abiClauseTy, abiErrorMessageTy, abiExtensionTy, abiVariantTy, Ty.Decodable, Fields.Decodable]

end Verif
