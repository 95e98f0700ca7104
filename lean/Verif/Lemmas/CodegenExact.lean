import Verif.Spec.CodegenExact
import Verif.Lemmas.CodegenCompile
namespace Verif

theorem methodNames_map : ∀ s ∈ methodNames, s.head? ≠ some 109 := by decide +kernel
theorem methodNames_array : ∀ s ∈ methodNames, s.head? = some 91 → s = asc "[]uint8" ∨ s = asc "[]byte" := by decide +kernel

theorem methodOf_slice (s : Bytes) (h1 : s ≠ asc "uint8") (h2 : s ≠ asc "byte") : methodOf (asc "[]" ++ s) = none := by
  refine methodOf_none _ fun h => ?_
  rcases methodNames_array _ h rfl with e | e
  · exact h1 (List.append_cancel_left (as := asc "[]") e)
  · exact h2 (List.append_cancel_left (as := asc "[]") e)

/-- What prints as uint8 is uint8, nothing prints as byte. -/
theorem goString_byte (t : Ty) (h : t ≠ .basic .u8) : t.goString ≠ asc "uint8" ∧ t.goString ≠ asc "byte" := by
  cases t with
  | basic b =>
    have hb : b ≠ .u8 := fun e => h (by rw [e])
    show b.goName ≠ _ ∧ b.goName ≠ _
    cases b <;> first | exact absurd rfl hb | decide +kernel
  | named _ => exact (by decide +kernel : asc "main.T" ≠ asc "uint8" ∧ asc "main.T" ≠ asc "byte")
  | unsupported => exact (by decide +kernel : asc "complex128" ≠ asc "uint8" ∧ asc "complex128" ≠ asc "byte")
  | bytes => exact (by decide +kernel : asc "[]uint8" ≠ asc "uint8" ∧ asc "[]uint8" ≠ asc "byte")
  | chain c => show c.goName ≠ _ ∧ c.goName ≠ _; cases c <;> decide +kernel
  | ptr t => exact ⟨fun e => absurd (congrArg List.head? e) (by decide +kernel : some (42 : UInt8) ≠ some 117), fun e => absurd (congrArg List.head? e) (by decide +kernel : some (42 : UInt8) ≠ some 98)⟩
  | slice t =>
    by_cases ht : t = .basic .u8
    · subst ht; exact (by decide +kernel : asc "main.T" ≠ asc "uint8" ∧ asc "main.T" ≠ asc "byte")
    · rw [goString_slice ht]
      exact ⟨fun e => absurd (congrArg List.head? e) (by decide +kernel : some (91 : UInt8) ≠ some 117), fun e => absurd (congrArg List.head? e) (by decide +kernel : some (91 : UInt8) ≠ some 98)⟩
  | array n t => exact ⟨fun e => absurd (congrArg List.head? e) (by decide +kernel : some (91 : UInt8) ≠ some 117), fun e => absurd (congrArg List.head? e) (by decide +kernel : some (91 : UInt8) ≠ some 98)⟩
  | map k v => exact ⟨fun e => absurd (congrArg List.head? e) (by decide +kernel : some (109 : UInt8) ≠ some 117), fun e => absurd (congrArg List.head? e) (by decide +kernel : some (109 : UInt8) ≠ some 98)⟩
  | struct _ => exact (by decide +kernel : asc "main.T" ≠ asc "uint8" ∧ asc "main.T" ≠ asc "byte")
  | ref _ _ _ => exact (by decide +kernel : asc "main.T" ≠ asc "uint8" ∧ asc "main.T" ≠ asc "byte")

/-- The method for a type: none but for basic types and []byte. -/
def Ty.method : Ty → Option Method
  | .basic b => some (.basic b)
  | .bytes => some .bytes
  | _ => none

theorem methodOf_ty (t : Ty) : methodOf t.goString = t.method := by
  cases t with
  | basic b => exact methodOf_basic b
  | named _ => exact methodOf_main
  | unsupported => exact (by decide +kernel : methodOf (asc "complex128") = none)
  | bytes => exact methodOf_bytes
  | chain c => exact methodOf_chain c
  | ptr t => exact methodOf_ptr _
  | slice t =>
    by_cases ht : t = .basic .u8
    · subst ht; exact methodOf_main
    · rw [goString_slice ht]
      exact methodOf_slice _ (goString_byte t ht).1 (goString_byte t ht).2
  | array n t =>
    refine methodOf_none _ fun h => ?_
    obtain ⟨c, m, h1, h2⟩ := fmtNat_cons n
    have e1 : (Ty.array n t).goString = 91 :: c :: (m ++ 93 :: t.goString) := by
      show 91 :: (fmtNat n ++ 93 :: t.goString) = _
      rw [h1]; rfl
    rw [e1] at h
    rcases methodNames_array _ h rfl with e | e
    · exact h2 (List.cons.inj (List.cons.inj e).2).1
    · exact h2 (List.cons.inj (List.cons.inj e).2).1
  | map k v => exact methodOf_none _ fun h => methodNames_map _ h rfl
  | struct _ => exact methodOf_main
  | ref _ _ _ => exact methodOf_main

/-- The text of a pointer or of what it points to -/
def starred (p : Bool) (s : Bytes) : Bytes := if p then 42 :: s else s

theorem cg_none (s : Bytes) (h : s.head? ≠ some 42) : cgField s .optional = none := by
  cases s with
  | nil => rfl
  | cons c s =>
    have h : c ≠ 42 := fun e => h (by rw [e]; rfl)
    unfold cgField
    simp [h]

theorem cg_slice (s : Bytes) (p : Bool) (tag : Tag) (ht : tag = .optional → p = true) : cgField (starred p (asc "[]" ++ s)) tag = some ⟨s, p, tag = .optional, true, false, 0⟩ := by
  cases p with
  | true => exact cgField_ptr_slice s tag
  | false =>
    have ht : tag ≠ .optional := fun e => by simpa using ht e
    change (if tag = .optional ∧ ¬ false then none else some _) = _
    rw [if_neg (fun h => ht h.1)]
    rfl

theorem cg_array (n : Nat) (s : Bytes) (p : Bool) (tag : Tag) (ht : tag = .optional → p = true) : ∃ len, cgField (starred p (91 :: (fmtNat n ++ 93 :: s))) tag = some ⟨s, p, tag = .optional, false, true, len⟩ := by
  obtain ⟨c, m, h1, h2⟩ := fmtNat_cons n
  have h3 := cutArray_fmtNat n s
  rw [h1, List.cons_append] at h3
  rw [h1, List.cons_append]
  refine ⟨(parseInt 64 (c :: m)).1, ?_⟩
  cases p with
  | true => unfold starred cgField; simp [h2, h3]
  | false =>
    have ht : tag ≠ .optional := fun e => by simpa using ht e
    unfold starred cgField; simp [h2, h3, ht]

theorem cg_other (s : Bytes) (p : Bool) (tag : Tag) (ht : tag = .optional → p = true) (h1 : p = false → s.head? ≠ some 42) (h2 : s.head? ≠ some 91) :
    cgField (starred p s) tag = some ⟨s, p, tag = .optional, false, false, 0⟩ := by
  cases s with
  | nil =>
    cases p with
    | true => unfold starred cgField; simp
    | false =>
      have ht : tag ≠ .optional := fun e => by simpa using ht e
      unfold starred cgField; simp [ht]
  | cons c s =>
    have h2 : c ≠ 91 := fun e => h2 (by rw [e]; rfl)
    cases p with
    | true => unfold starred cgField; simp [h2]
    | false =>
      have h1 : c ≠ 42 := fun e => h1 rfl (by rw [e]; rfl)
      have ht : tag ≠ .optional := fun e => by simpa using ht e
      unfold starred cgField; simp [h1, h2, ht]

/-- What the generator sees of a field of type u, or of *u if p -/
inductive Seen (p : Bool) (tag : Tag) (u : Ty) : Prop
  | slice (e : Ty) : (Ty.indexed u = some e ∧ Ty.isSlice false u = true) → u.goString = asc "[]" ++ e.goString → (u = .bytes ∧ e = .basic .u8 ∨ u = .slice e ∧ e ≠ .basic .u8) →
      cgField (starred p u.goString) tag = some ⟨e.goString, p, tag = .optional, true, false, 0⟩ → Seen p tag u
  | array (n : Nat) (e : Ty) (len : Int) : u = .array n e → cgField (starred p u.goString) tag = some ⟨e.goString, p, tag = .optional, false, true, len⟩ → Seen p tag u
  | other : (∀ e, u = .slice e → e = .basic .u8) → u ≠ .bytes → (∀ n e, u ≠ .array n e) → cgField (starred p u.goString) tag = some ⟨u.goString, p, tag = .optional, false, false, 0⟩ → Seen p tag u

theorem seen (p : Bool) (tag : Tag) (u : Ty) (ht : tag = .optional → p = true) (hp : p = false → ∀ t, u ≠ .ptr t) : Seen p tag u := by
  have plain : PlainName u.goString → (∀ e, u = .slice e → e = .basic .u8) → u ≠ .bytes → (∀ n e, u ≠ .array n e) → Seen p tag u := fun h h1 h2 h3 =>
    .other h1 h2 h3 (cg_other _ p tag ht (fun _ => h.1) h.2)
  cases u with
  | basic b => exact plain (plainName_basic b) (fun _ h => nomatch h) (fun h => nomatch h) (fun _ _ h => nomatch h)
  | named _ => exact plain plainName_main (fun _ h => nomatch h) (fun h => nomatch h) (fun _ _ h => nomatch h)
  | unsupported => exact plain (show PlainName (asc "complex128") by unfold PlainName; decide +kernel) (fun _ h => nomatch h) (fun h => nomatch h) (fun _ _ h => nomatch h)
  | bytes => exact .slice (.basic .u8) ⟨rfl, rfl⟩ bytes_goString (.inl ⟨rfl, rfl⟩) (by rw [bytes_goString]; exact cg_slice _ p tag ht)
  | chain c => exact plain (plainName_chain c) (fun _ h => nomatch h) (fun h => nomatch h) (fun _ _ h => nomatch h)
  | ptr t =>
    refine .other (fun _ h => nomatch h) (fun h => nomatch h) (fun _ _ h => nomatch h) (cg_other _ p tag ht (fun e => absurd rfl (hp e t)) ?_)
    exact (by decide : some (42 : UInt8) ≠ some 91)
  | slice t =>
    by_cases h : t = .basic .u8
    · subst h
      exact plain plainName_main (fun _ h => by cases h; rfl) (fun h => nomatch h) (fun _ _ h => nomatch h)
    · exact .slice t ⟨rfl, rfl⟩ (goString_slice h) (.inr ⟨rfl, h⟩) (by rw [goString_slice h]; exact cg_slice _ p tag ht)
  | array n t =>
    obtain ⟨len, h⟩ := cg_array n t.goString p tag ht
    exact .array n t len rfl h
  | map k v =>
    exact plain ⟨(by decide : some (109 : UInt8) ≠ some 42), (by decide : some (109 : UInt8) ≠ some 91)⟩ (fun _ h => nomatch h) (fun h => nomatch h) (fun _ _ h => nomatch h)
  | struct _ => exact plain plainName_main (fun _ h => nomatch h) (fun h => nomatch h) (fun _ _ h => nomatch h)
  | ref _ _ _ => exact plain plainName_main (fun _ h => nomatch h) (fun h => nomatch h) (fun _ _ h => nomatch h)

/-- The type of the field -/
def pointed (p : Bool) (u : Ty) : Ty := if p then .ptr u else u

theorem elem_typed (has : Ty → Bool) (e t : Ty) (r : Ref) (h : r.type t = some e) : (codeW e r r).typed has t = true ↔ ElemWrites has e := by
  unfold codeW
  rw [methodOf_ty]
  cases e <;> simp [Ty.method, WStmt.typed, h, Method.takes, callable, ElemWrites]

theorem write_slice (has : Ty → Bool) (p o : Bool) (u e : Ty) (hp : o = true → p = true) (hi : u.indexed = some e) (hs : u.isSlice false = true) (hps : (Ty.ptr u).isSlice true = true) :
    (genWrite ⟨e.goString, p, o, true, false, 0⟩).typed has (pointed p u) = true ↔ ElemWrites has e := by
  rw [genWrite_slice]
  cases p with
  | true =>
    have hr : Ref.type ⟨true, true⟩ (.ptr u) = some e := hi
    simp only [Bool.or_true, if_true, pointed, WStmt.typed, hps, Bool.true_and, Ty.isPtr]
    exact elem_typed has e _ _ hr
  | false =>
    have : o = false := by cases o <;> simp_all
    subst this
    have hr : Ref.type ⟨false, true⟩ u = some e := hi
    simp only [Bool.or_false, Bool.false_eq_true, if_false, pointed, WStmt.typed, hs, Bool.true_and]
    exact elem_typed has e _ _ hr

theorem write_array (has : Ty → Bool) (p o : Bool) (n : Nat) (e : Ty) (len : Int) (hp : o = true → p = true) :
    (genWrite ⟨e.goString, p, o, false, true, len⟩).typed has (pointed p (.array n e)) = true ↔ ElemWrites has e := by
  rw [genWrite_array]
  cases p with
  | true =>
    simp only [Bool.or_true, if_true, pointed, WStmt.typed, Bool.true_and, Ty.isPtr]
    exact elem_typed has e _ _ rfl
  | false =>
    have : o = false := by cases o <;> simp_all
    subst this
    simp only [Bool.or_false, Bool.false_eq_true, if_false, pointed, WStmt.typed]
    exact elem_typed has e _ _ rfl

theorem write_other (has : Ty → Bool) (p o : Bool) (u : Ty) (hp : o = true → p = true) (hu : p = false → ∀ t, u ≠ .ptr t) (hb : u ≠ .bytes) (hs : ∀ e, u = .slice e → e = .basic .u8) (ha : ∀ n e, u ≠ .array n e) :
    (genWrite ⟨u.goString, p, o, false, false, 0⟩).typed has (pointed p u) = true ↔ PointeeWrites has u := by
  unfold genWrite
  simp only [methodOf_ty]
  have slice : ∀ e, u = .slice e → u = .slice (.basic .u8) := fun e h => by rw [h, hs e h]
  cases p with
  | true =>
    cases u with
    | bytes => exact absurd rfl hb
    | array n e => exact absurd rfl (ha n e)
    | slice e =>
      cases hs e rfl
      simp [Ty.method, pointed, WStmt.typed, Ty.isPtr, Ref.type, callable, PointeeWrites]
    | _ => simp [Ty.method, pointed, WStmt.typed, Ty.isPtr, Ref.type, callable, PointeeWrites, Method.takes]
  | false =>
    have : o = false := by cases o <;> simp_all
    subst this
    cases u with
    | bytes => exact absurd rfl hb
    | array n e => exact absurd rfl (ha n e)
    | ptr t => exact absurd rfl (hu rfl t)
    | slice e =>
      cases hs e rfl
      simp [Ty.method, pointed, WStmt.typed, Ref.type, callable, PointeeWrites]
    | _ => simp [Ty.method, pointed, WStmt.typed, Ref.type, callable, PointeeWrites, Method.takes]

/-- One field -/
theorem write_exact (has : Ty → Bool) (p : Bool) (tag : Tag) (u : Ty) (ht : tag = .optional → p = true) (hp : p = false → ∀ t, u ≠ .ptr t) :
    ∃ f, cgField (pointed p u).goString tag = some f ∧ ((genWrite f).typed has (pointed p u) = true ↔ PointeeWrites has u) ∧
      (f.isSlice = true ↔ LoopField .exported tag (pointed p u)) ∧ (f.isArray = true ↔ ArrayField .exported tag (pointed p u)) := by
  have hg : (pointed p u).goString = starred p u.goString := by cases p <;> rfl
  rw [hg]
  have hop : decide (tag = .optional) = true → p = true := fun h => ht (of_decide_eq_true h)
  cases seen p tag u ht hp with
  | slice e h1 h2 h3 h4 =>
    refine ⟨_, h4, ?_, ?_, ?_⟩
    · have hw : PointeeWrites has u ↔ ElemWrites has e := by
        rcases h3 with ⟨rfl, rfl⟩ | ⟨rfl, he⟩
        · exact ⟨fun _ => trivial, fun _ => trivial⟩
        · cases e with
          | basic b => cases b <;> first | exact absurd rfl he | exact .rfl
          | _ => exact .rfl
      rw [hw]
      refine write_slice has p _ u e hop h1.1 h1.2 ?_
      rcases h3 with ⟨rfl, _⟩ | ⟨rfl, _⟩ <;> rfl
    · rcases h3 with ⟨rfl, _⟩ | ⟨rfl, he⟩ <;> cases p <;> simp [LoopField, pointed, *]
    · rcases h3 with ⟨rfl, _⟩ | ⟨rfl, he⟩ <;> cases p <;> simp [ArrayField, pointed]
  | array n e len h1 h2 =>
    subst h1
    refine ⟨_, h2, write_array has p _ n e len hop, ?_, ?_⟩ <;> cases p <;> simp [LoopField, ArrayField, pointed]
  | other h1 h2 h3 h4 =>
    refine ⟨_, h4, write_other has p _ u hop hp h2 h1 h3, ?_, ?_⟩
    · cases p with
      | true =>
        cases u with
        | bytes => exact absurd rfl h2
        | slice e => cases h1 e rfl; simp [LoopField, pointed]
        | _ => simp [LoopField, pointed]
      | false =>
        cases u with
        | bytes => exact absurd rfl h2
        | slice e => cases h1 e rfl; simp [LoopField, pointed]
        | ptr t => exact absurd rfl (hp rfl t)
        | _ => simp [LoopField, pointed]
    · cases p with
      | true =>
        cases u with
        | array n e => exact absurd rfl (h3 n e)
        | _ => simp [ArrayField, pointed]
      | false =>
        cases u with
        | array n e => exact absurd rfl (h3 n e)
        | ptr t => exact absurd rfl (hp rfl t)
        | _ => simp [ArrayField, pointed]

/-! ## Reading -/

theorem foreign_iff : (t : Ty) → (t.resolves = true ↔ t.Foreign)
  | .basic _ | .unsupported | .bytes | .chain _ => by simp [Ty.resolves, Ty.Foreign]
  | .named _ | .struct _ | .ref _ _ _ => by simp [Ty.resolves, Ty.Foreign]
  | .ptr t => foreign_iff t
  | .slice t => by
    by_cases h : t = .basic .u8
    · subst h; simp [Ty.resolves, Ty.Foreign]
    · have ih := foreign_iff t
      cases t with
      | basic b => cases b <;> first | exact absurd rfl h | simp [Ty.resolves, Ty.Foreign]
      | _ => exact ih
  | .array _ t => foreign_iff t
  | .map k v => by
    have h1 := foreign_iff k
    have h2 := foreign_iff v
    simp [Ty.resolves, Ty.Foreign, h1, h2]

theorem elemR_typed (has : Ty → Bool) (e t : Ty) (h : Ref.type ⟨false, true⟩ t = some e) : (codeR e ⟨false, true⟩).typed has t = true ↔ ElemReads has e := by
  unfold codeR
  rw [methodOf_ty]
  cases e <;> simp [Ty.method, RStmt.typed, h, callable, ElemReads]

/-- What is read of a field, `p`: behind a pointer -/
def PointeeReads (has : Ty → Bool) (p : Bool) : Ty → Prop
  | .basic _ => True
  | .bytes => p = false
  | .slice (.basic .u8) => has (.slice (.basic .u8)) = true
  | .slice e => p = false ∧ e.Foreign ∧ ElemReads has e
  | .array _ (.basic _) => p = false
  | .array _ e => ElemReads has e
  | u => has u = true

theorem genRead_any (u : Ty) (p o sl ar : Bool) (n : Int) : genRead ⟨u.goString, p, o, sl, ar, n⟩ =
    let isList := sl || ar
    let code := match u.method with
      | some m => .read m p isList
      | none => .unmarshal ⟨p && isList, isList⟩
    let code := if sl then .slice u.goString code else code
    let code := if ar then .array n code else code
    if o then .optional code else code := by
  unfold genRead
  rw [methodOf_ty]
  rfl

theorem optional_typed (has : Ty → Bool) (t : Ty) (o : Bool) (r : RStmt) : (if o then RStmt.optional r else r).typed has t = r.typed has t := by cases o <;> rfl

/-- One field -/
theorem read_exact (has : Ty → Bool) (p : Bool) (tag : Tag) (u : Ty) (ht : tag = .optional → p = true) (hp : p = false → ∀ t, u ≠ .ptr t) :
    ∃ f, cgField (pointed p u).goString tag = some f ∧ ((genRead f).typed has (pointed p u) = true ↔ PointeeReads has p u) ∧
      ((genRead f).declaresTmp = true ↔ TmpField .exported tag (pointed p u)) := by
  have hg : (pointed p u).goString = starred p u.goString := by cases p <;> rfl
  rw [hg]
  cases seen p tag u ht hp with
  | slice e h1 h2 h3 h4 =>
    refine ⟨_, h4, ?_, ?_⟩ <;> rw [genRead_any]
    · simp only [if_true, Bool.true_or, Bool.false_eq_true, if_false, optional_typed, Bool.and_true]
      cases p with
      | true =>
        have hn : ¬ (Ty.ptr u).goString = asc "[]" ++ e.goString := fun h => absurd (congrArg List.head? h) (by decide +kernel : some (42 : UInt8) ≠ some 91)
        simp only [pointed, if_true, RStmt.typed, hn, decide_false, Bool.false_and, Bool.false_eq_true, false_iff]
        rcases h3 with ⟨rfl, rfl⟩ | ⟨rfl, he⟩
        · simp [PointeeReads]
        · cases e with
          | basic b => cases b <;> first | exact absurd rfl he | simp [PointeeReads]
          | _ => simp [PointeeReads]
      | false =>
        simp only [pointed, Bool.false_eq_true, if_false, RStmt.typed, h2, decide_true, Bool.true_and, Bool.and_eq_true, foreign_iff]
        rcases h3 with ⟨rfl, rfl⟩ | ⟨rfl, he⟩
        · simp [PointeeReads, Ty.method, Ty.Foreign, RStmt.typed, Ref.type, Ty.indexed]
        · cases e with
          | basic b => cases b <;> first | exact absurd rfl he | simp [PointeeReads, Ty.method, Ty.Foreign, RStmt.typed, Ref.type, Ty.indexed, ElemReads]
          | _ => simp [PointeeReads, Ty.method, Ty.Foreign, RStmt.typed, Ref.type, Ty.indexed, ElemReads, callable]
    · have : ¬ TmpField .exported tag (pointed p u) := by
        rintro ⟨_, b, h⟩
        rcases h3 with ⟨rfl, rfl⟩ | ⟨rfl, he⟩ <;> cases p <;> cases h
      simp only [this, iff_false, if_true, Bool.false_eq_true, if_false]
      cases tag <;> exact fun h => nomatch h
  | array n e len h1 h2 =>
    subst h1
    refine ⟨_, h2, ?_, ?_⟩ <;> rw [genRead_any]
    · simp only [if_true, Bool.or_true, Bool.false_eq_true, if_false, optional_typed, Bool.and_true, RStmt.typed]
      cases p <;> cases e <;> simp [pointed, PointeeReads, Ty.method, RStmt.typed, Ref.type, Ty.indexed, ElemReads, callable]
    · have : ¬ TmpField .exported tag (pointed p (.array n e)) := by
        rintro ⟨_, b, h⟩
        cases p <;> cases h
      simp only [this, iff_false, if_true, Bool.false_eq_true, if_false]
      cases tag <;> exact fun h => nomatch h
  | other h1 h2 h3 h4 =>
    refine ⟨_, h4, ?_, ?_⟩ <;> rw [genRead_any]
    · simp only [Bool.or_self, Bool.false_eq_true, if_false, optional_typed, Bool.and_false]
      cases u with
      | bytes => exact absurd rfl h2
      | array n e => exact absurd rfl (h3 n e)
      | slice e => cases h1 e rfl; cases p <;> simp [pointed, PointeeReads, Ty.method, RStmt.typed, Ref.type, callable]
      | ptr t =>
        cases p with
        | true => simp [pointed, PointeeReads, Ty.method, RStmt.typed, Ref.type, callable]
        | false => exact absurd rfl (hp rfl t)
      | _ => cases p <;> simp [pointed, PointeeReads, Ty.method, RStmt.typed, Ref.type, callable]
    · simp only [Bool.or_self, Bool.false_eq_true, if_false, Bool.and_false]
      have : TmpField .exported tag (pointed p u) ↔ tag ≠ .optional ∧ p = true ∧ ∃ b, u = .basic b := by
        unfold TmpField
        refine and_congr_right fun _ => ?_
        cases p with
        | true => simp [pointed]
        | false =>
          simp only [pointed, Bool.false_eq_true, if_false, false_and, iff_false]
          rintro ⟨b, rfl⟩
          exact hp rfl _ rfl
      rw [this]
      by_cases ho : tag = .optional
      · subst ho; simp [RStmt.declaresTmp]
      · simp only [ho, decide_false, Bool.false_eq_true, if_false]
        cases u with
        | bytes => exact absurd rfl h2
        | _ => simp [Ty.method, RStmt.declaresTmp, ho]

/-! ## All fields -/

/-- Every type is one of these. -/
theorem pointed_cases (t : Ty) : ∃ p u, t = pointed p u ∧ (p = false → ∀ t, u ≠ .ptr t) := by
  cases t with
  | ptr u => exact ⟨true, u, rfl, fun h => nomatch h⟩
  | _ => exact ⟨false, _, rfl, fun _ _ h => nomatch h⟩

theorem fieldWrites_pointed (has : Ty → Bool) (vis : Vis) (tag : Tag) (p : Bool) (u : Ty) (hp : p = false → ∀ t, u ≠ .ptr t) :
    FieldWrites has vis tag (pointed p u) ↔ vis ≠ .blank ∧ (tag = .optional → p = true) ∧ PointeeWrites has u := by
  cases p with
  | true => simp [FieldWrites, pointed]
  | false => cases u <;> first | exact absurd rfl (hp rfl _) | simp [FieldWrites, pointed]

theorem fieldReads_pointed (has : Ty → Bool) (vis : Vis) (tag : Tag) (p : Bool) (u : Ty) (hp : p = false → ∀ t, u ≠ .ptr t) :
    FieldReads has vis tag (pointed p u) ↔ vis ≠ .blank ∧ (tag = .optional → p = true) ∧ PointeeReads has p u := by
  unfold FieldReads
  refine and_congr_right fun _ => ?_
  have sl (e : Ty) (h : e ≠ .basic .u8) : PointeeReads has p (.slice e) ↔ p = false ∧ e.Foreign ∧ ElemReads has e := by
    cases e with
    | basic b => cases b <;> first | exact absurd rfl h | exact .rfl
    | _ => exact .rfl
  cases p with
  | true =>
    cases u with
    | slice e =>
      by_cases h : e = .basic .u8
      · subst h; simp [pointed, PointeeReads]
      · simp only [sl e h]
        cases e with
        | basic b => cases b <;> first | exact absurd rfl h | simp [pointed]
        | _ => simp [pointed]
    | array n e => cases e <;> simp [pointed, PointeeReads]
    | _ => simp [pointed, PointeeReads]
  | false =>
    cases u with
    | ptr t => exact absurd rfl (hp rfl t)
    | slice e =>
      by_cases h : e = .basic .u8
      · subst h; simp [pointed, PointeeReads]
      · simp only [sl e h]
        cases e with
        | basic b => cases b <;> first | exact absurd rfl h | simp [pointed]
        | _ => simp [pointed]
    | array n e => cases e <;> simp [pointed, PointeeReads, ElemReads]
    | _ => simp [pointed, PointeeReads]

theorem cg_optional (u : Ty) (hp : ∀ t, u ≠ .ptr t) : cgField u.goString .optional = none := by
  refine cg_none _ ?_
  cases u with
  | basic b => exact (plainName_basic b).1
  | named _ => exact plainName_main.1
  | unsupported => exact (by decide +kernel : (asc "complex128").head? ≠ some 42)
  | bytes => exact (by decide +kernel : (asc "[]uint8").head? ≠ some 42)
  | chain c => exact (plainName_chain c).1
  | ptr t => exact absurd rfl (hp t)
  | slice t =>
    by_cases h : t = .basic .u8
    · subst h; exact plainName_main.1
    · rw [goString_slice h]; exact (by decide : some (91 : UInt8) ≠ some 42)
  | array n t => exact (by decide : some (91 : UInt8) ≠ some 42)
  | map k v => exact (by decide : some (109 : UInt8) ≠ some 42)
  | struct _ => exact plainName_main.1
  | ref _ _ _ => exact plainName_main.1

/-- Each field on its own, and what the fields declare -/
theorem write_fields (has : Ty → Bool) : (fs : Fields) → (fs.typed (writeTyped has) = true ↔ fs.All (FieldWrites has)) ∧
    (fs.All (FieldWrites has) → ∃ l, fs.cgFields = some l ∧ (l.any (·.isSlice) = true ↔ fs.Any LoopField) ∧ (l.any (·.isArray) = true ↔ fs.Any ArrayField))
  | .nil => ⟨by simp [Fields.typed, Fields.All], fun _ => ⟨[], rfl, by simp [Fields.Any], by simp [Fields.Any]⟩⟩
  | .cons vis tag t fs => by
    obtain ⟨ih1, ih2⟩ := write_fields has fs
    obtain ⟨p, u, rfl, hp⟩ := pointed_cases t
    have hw := fieldWrites_pointed has vis tag p u hp
    by_cases ht : tag = .optional → p = true
    · obtain ⟨f, h1, h2, h3, h4⟩ := write_exact has p tag u ht hp
      refine ⟨?_, fun h => ?_⟩
      · simp only [Fields.typed, writeTyped, h1, Bool.and_eq_true, decide_eq_true_eq, ih1, Fields.All, hw, h2]
        exact ⟨fun h => ⟨⟨h.1.1, ht, h.1.2⟩, h.2⟩, fun h => ⟨⟨h.1.1, h.1.2.2⟩, h.2⟩⟩
      · obtain ⟨l, h5, h6, h7⟩ := ih2 h.2
        refine ⟨f :: l, ?_, ?_, ?_⟩
        · simp [Fields.cgFields, h1, h5]
        · simp only [List.any_cons, Bool.or_eq_true, h3, h6, Fields.Any]; rfl
        · simp only [List.any_cons, Bool.or_eq_true, h4, h7, Fields.Any]; rfl
    · have hn : ¬ FieldWrites has vis tag (pointed p u) := fun h => ht (hw.mp h).2.1
      refine ⟨?_, fun h => absurd h.1 hn⟩
      have ho : tag = .optional := by_contra fun h => ht fun e => absurd e h
      have hf : p = false := by cases p with | false => rfl | true => exact absurd (fun _ => rfl) ht
      subst ho; subst hf
      simp only [Fields.typed, writeTyped, pointed, Bool.false_eq_true, if_false, cg_optional u (hp rfl), Bool.and_false, Bool.false_and, false_iff]
      exact fun h => hn h.1

theorem read_fields (has : Ty → Bool) : (fs : Fields) → (fs.typed (readTyped has) = true ↔ fs.All (FieldReads has)) ∧
    (fs.All (FieldReads has) → ∃ l, fs.cgFields = some l ∧ (l.any (fun f => (genRead f).declaresTmp) = true ↔ fs.Any TmpField) ∧ (l.countP (fun f => (genRead f).declaresTmp) ≤ 1 ↔ fs.AtMostOne TmpField))
  | .nil => ⟨by simp [Fields.typed, Fields.All], fun _ => ⟨[], rfl, by simp [Fields.Any], by simp [Fields.AtMostOne]⟩⟩
  | .cons vis tag t fs => by
    obtain ⟨ih1, ih2⟩ := read_fields has fs
    obtain ⟨p, u, rfl, hp⟩ := pointed_cases t
    have hw := fieldReads_pointed has vis tag p u hp
    by_cases ht : tag = .optional → p = true
    · obtain ⟨f, h1, h2, h3⟩ := read_exact has p tag u ht hp
      refine ⟨?_, fun h => ?_⟩
      · simp only [Fields.typed, readTyped, h1, Bool.and_eq_true, decide_eq_true_eq, ih1, Fields.All, hw, h2]
        exact ⟨fun h => ⟨⟨h.1.1, ht, h.1.2⟩, h.2⟩, fun h => ⟨⟨h.1.1, h.1.2.2⟩, h.2⟩⟩
      · obtain ⟨l, h5, h6, h7⟩ := ih2 h.2
        have h3 : (genRead f).declaresTmp = true ↔ TmpField vis tag (pointed p u) := h3
        refine ⟨f :: l, ?_, ?_, ?_⟩
        · simp [Fields.cgFields, h1, h5]
        · simp only [List.any_cons, Bool.or_eq_true, h3, h6, Fields.Any]
        · rw [List.countP_cons, Fields.AtMostOne, ← h7, ← h3, ← h6]
          by_cases hf : (genRead f).declaresTmp = true
          · rw [if_pos hf]
            have : l.any (fun f => (genRead f).declaresTmp) = true ↔ 0 < l.countP (fun f => (genRead f).declaresTmp) := by
              rw [List.countP_pos_iff, List.any_eq_true]
            rw [this]
            constructor
            · intro h; exact ⟨by omega, fun _ => by omega⟩
            · intro h; have := h.2 hf; omega
          · rw [if_neg hf]
            simp [hf]
    · have hn : ¬ FieldReads has vis tag (pointed p u) := fun h => ht (hw.mp h).2.1
      refine ⟨?_, fun h => absurd h.1 hn⟩
      have ho : tag = .optional := by_contra fun h => ht fun e => absurd e h
      have hf : p = false := by cases p with | false => rfl | true => exact absurd (fun _ => rfl) ht
      subst ho; subst hf
      simp only [Fields.typed, readTyped, pointed, Bool.false_eq_true, if_false, cg_optional u (hp rfl), Bool.and_false, Bool.false_and, false_iff]
      exact fun h => hn h.1

end Verif
