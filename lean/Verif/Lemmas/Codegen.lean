import Verif.Model.Codegen
import Verif.Spec.Codegen
import Verif.Lemmas.Strconv
import Verif.Lemmas.Bench
/-! Helper lemmas: the generator. -/
namespace Verif

/-! ## Reading the type -/

def methodNames : List Bytes := [asc "string", asc "uint64", asc "uint32", asc "uint16", asc "uint8", asc "int64", asc "int32", asc "int16", asc "int8", asc "bool",
  asc "[]uint8", asc "[]byte", asc "int", asc "uint", asc "float32", asc "float64"]

theorem methodOf_none (s : Bytes) (h : s ∉ methodNames) : methodOf s = none := by
  simp only [methodNames, List.mem_cons, List.not_mem_nil, or_false, not_or] at h
  obtain ⟨h1, h2, h3, h4, h5, h6, h7, h8, h9, h10, h11, h12, h13, h14, h15, h16⟩ := h
  unfold methodOf
  rw [if_neg h1, if_neg h2, if_neg h3, if_neg h4, if_neg h5, if_neg h6, if_neg h7, if_neg h8, if_neg h9, if_neg h10, if_neg (not_or.2 ⟨h11, h12⟩),
    if_neg h13, if_neg h14, if_neg h15, if_neg h16]

theorem methodOf_basic (b : Basic) : methodOf b.goName = some (.basic b) := by cases b <;> decide +kernel
theorem methodOf_bytes : methodOf (asc "[]uint8") = some .bytes := by decide +kernel

theorem methodNames_star : ∀ s ∈ methodNames, s.head? ≠ some 42 := by decide +kernel
theorem methodOf_ptr (s : Bytes) : methodOf (42 :: s) = none := methodOf_none _ fun h => methodNames_star _ h rfl
theorem methodOf_chain (c : ChainTy) : methodOf c.goName = none := by cases c <;> decide +kernel
theorem methodOf_main : methodOf (asc "main.T") = none := by decide +kernel

/-- Not a pointer, not a list -/
def PlainName (s : Bytes) : Prop := s.head? ≠ some 42 ∧ s.head? ≠ some 91
theorem plainName_basic (b : Basic) : PlainName b.goName := by unfold PlainName; cases b <;> decide +kernel
theorem plainName_chain (c : ChainTy) : PlainName c.goName := by unfold PlainName; cases c <;> decide +kernel
theorem plainName_main : PlainName (asc "main.T") := by unfold PlainName; decide +kernel

theorem cgField_plain (s : Bytes) (h : PlainName s) : cgField s .none = some ⟨s, false, false, false, false, 0⟩ := by
  obtain ⟨h1, h2⟩ := h
  cases s with
  | nil => rfl
  | cons c s =>
    have h1 : c ≠ 42 := fun e => h1 (by rw [e]; rfl)
    have h2 : c ≠ 91 := fun e => h2 (by rw [e]; rfl)
    unfold cgField
    simp [h1, h2]

theorem cgField_ptr (s : Bytes) (h : PlainName s) (tag : Tag) (ht : tag = .none ∨ tag = .optional) :
    cgField (42 :: s) tag = some ⟨s, true, tag = .optional, false, false, 0⟩ := by
  obtain ⟨h1, h2⟩ := h
  cases s with
  | nil => rcases ht with rfl | rfl <;> rfl
  | cons c s =>
    have h2 : c ≠ 91 := fun e => h2 (by rw [e]; rfl)
    unfold cgField
    simp [h2]

theorem cgField_slice (s : Bytes) : cgField (asc "[]" ++ s) .none = some ⟨s, false, false, true, false, 0⟩ := rfl
theorem cgField_ptr_slice (s : Bytes) (tag : Tag) : cgField (42 :: (asc "[]" ++ s)) tag = some ⟨s, true, tag = .optional, true, false, 0⟩ := by
  change (if tag = .optional ∧ ¬ true then none else some _) = _
  rw [if_neg (fun h => h.2 rfl)]
  rfl

theorem cutArray_append (acc n s : Bytes) (h : (93 : UInt8) ∉ n) : cutArray acc (n ++ 93 :: s) = some (acc.reverse ++ n, s) := by
  induction n generalizing acc with
  | nil => simp [cutArray]
  | cons c n ih =>
    have hc : c ≠ 93 := fun e => h (by simp [e])
    rw [List.cons_append, cutArray, if_neg hc, ih _ fun hn => h (List.mem_cons_of_mem _ hn)]
    simp

theorem fmtNat_bracket (n : Nat) : (93 : UInt8) ∉ fmtNat n := by
  intro h
  have := (fmtNat_spec n).1 _ h
  simp at this

theorem cutArray_fmtNat (n : Nat) (s : Bytes) : cutArray [] (fmtNat n ++ 93 :: s) = some (fmtNat n, s) := cutArray_append [] _ _ (fmtNat_bracket n)

theorem fmtNat_cons (n : Nat) : ∃ c m, fmtNat n = c :: m ∧ c ≠ 93 := by
  cases hn : fmtNat n with
  | nil => exact absurd hn (fmtNat_spec n).2.2.1
  | cons c m => exact ⟨c, m, rfl, fun e => fmtNat_bracket n (by rw [hn, e]; simp)⟩

theorem cgField_array (n : Nat) (hn : n < 2 ^ 63) (s : Bytes) : cgField (91 :: (fmtNat n ++ 93 :: s)) .none = some ⟨s, false, false, false, true, n⟩ := by
  obtain ⟨c, m, h1, h2⟩ := fmtNat_cons n
  have h3 := cutArray_fmtNat n s
  have h4 := parseInt_fmtNat 64 (by decide) n hn
  rw [h1, List.cons_append] at h3
  rw [h1] at h4
  rw [h1, List.cons_append]
  unfold cgField
  simp [h2, h3, h4]

theorem cgField_ptr_array (n : Nat) (hn : n < 2 ^ 63) (s : Bytes) (tag : Tag) :
    cgField (42 :: 91 :: (fmtNat n ++ 93 :: s)) tag = some ⟨s, true, tag = .optional, false, true, n⟩ := by
  obtain ⟨c, m, h1, h2⟩ := fmtNat_cons n
  have h3 := cutArray_fmtNat n s
  have h4 := parseInt_fmtNat 64 (by decide) n hn
  rw [h1, List.cons_append] at h3
  rw [h1] at h4
  rw [h1, List.cons_append]
  unfold cgField
  simp [h2, h3, h4]

/-! ## Writing -/

/-- The same bytes whenever one of them succeeds -/
def Enc.Eqv (p q : Enc (Option Err)) : Prop := ∀ bs, p.Writes bs ↔ q.Writes bs

theorem Enc.Eqv.refl (p : Enc (Option Err)) : p.Eqv p := fun _ => .rfl
theorem Enc.Eqv.of_eq {p q : Enc (Option Err)} (h : p = q) : p.Eqv q := h ▸ .refl p
theorem Enc.Eqv.trans {p q r : Enc (Option Err)} (h : p.Eqv q) (h' : q.Eqv r) : p.Eqv r := fun bs => (h bs).trans (h' bs)

/-- Never succeeds -/
def Enc.Fails (p : Enc (Option Err)) : Prop := ∀ bs, ¬ p.Writes bs
theorem Enc.Fails.panic (w : String) : (Enc.panic w : Enc (Option Err)).Fails := fun _ h => nomatch (show EOut.panic w = _ from h)
theorem Enc.Fails.error (e : Err) : (pure (some e) : Enc (Option Err)).Fails := fun _ h => nomatch (show EOut.ok (some e) [] = .ok none _ from h)
theorem Enc.Fails.eqv {p q : Enc (Option Err)} (h : p.Fails) (h' : q.Fails) : p.Eqv q := fun bs => ⟨fun x => absurd x (h bs), fun x => absurd x (h' bs)⟩

theorem Enc.writes_bind {p : Enc (Option Err)} {f : Option Err → Enc (Option Err)} (hf : ∀ e, (f (some e)).Fails) (bs : Bytes) :
    (p >>= f).Writes bs ↔ ∃ b1 b2, p.Writes b1 ∧ (f none).Writes b2 ∧ bs = b1 ++ b2 := by
  constructor
  · intro h
    unfold Enc.Writes at h
    rw [Enc.run_bind] at h
    cases hp : p.run with
    | ok e o =>
      rw [hp, EOut.bind_ok] at h
      cases hq : (f e).run with
      | ok e' o' =>
        rw [hq, EOut.prepend_ok] at h
        cases h
        cases e with
        | some e => exact absurd hq (hf e _)
        | none => exact ⟨o, o', hp, hq, rfl⟩
      | panic w => rw [hq] at h; cases h
      | diverge => rw [hq] at h; cases h
    | panic w => rw [hp] at h; cases h
    | diverge => rw [hp] at h; cases h
  · rintro ⟨b1, b2, h1, h2, rfl⟩
    exact h1.bind h2

theorem Enc.Eqv.bind {p q : Enc (Option Err)} {f g : Option Err → Enc (Option Err)} (h : p.Eqv q) (hf : ∀ e, (f (some e)).Fails) (hg : ∀ e, (g (some e)).Fails)
    (h' : (f none).Eqv (g none)) : (p >>= f).Eqv (q >>= g) := by
  intro bs
  rw [Enc.writes_bind hf, Enc.writes_bind hg]
  exact exists_congr fun b1 => exists_congr fun b2 => and_congr (h b1) (and_congr_left' (h' b2))

theorem writeLoop_eqv {α : Type} (body : Nat → Enc (Option Err)) (enc : α → Enc (Option Err)) (xs : List α) (i : Nat)
    (h : ∀ j x, xs[j]? = some x → (body (i + j)).Eqv (enc x)) : (writeLoop body xs.length i).Eqv (encEach enc (pure none) xs) := by
  induction xs generalizing i with
  | nil => exact .refl _
  | cons x xs ih =>
    refine Enc.Eqv.bind (h 0 x rfl) (fun e => .error e) (fun e => .error e) (ih (i + 1) fun j y hj => ?_)
    have := h (j + 1) y (by simpa using hj)
    rwa [show i + (j + 1) = i + 1 + j by omega] at this

/-- What the innermost template does -/
def opW (M : Methods) (u : Ty) (x : u.Val) : Enc (Option Err) :=
  match methodOf u.goString with
  | some m => m.write u x
  | none => M.callMarshal u x
def codeW (u : Ty) (r r' : Ref) : WStmt :=
  match methodOf u.goString with
  | some m => .write m r
  | none => .marshal r'

theorem codeW_run (M : Methods) (u : Ty) (r r' : Ref) (i : Nat) (t : Ty) (v : t.Val) (x : u.Val) (put put' : u.Val → t.Val)
    (h : r.place i t v = .at u x put) (h' : r'.place i t v = .at u x put') : (codeW u r r').run M i t v = opW M u x := by
  unfold codeW opW
  cases methodOf u.goString with
  | some m => simp only [WStmt.run, h]
  | none => simp only [WStmt.run, h']

/-- The methods do what the reflection codec does without them. -/
def GoodMarshal (code : Ty → Prop) (M : Methods) : Prop :=
  (∀ u, code u → (∃ c, u = .chain c) ∨ ∃ fs, u = .struct fs) ∧ ∀ u, code u → ∃ m, M.marshal u = some m ∧ ∀ x, u.Fits x → (m x).Eqv (encode u x)

theorem encode_basic (b : Basic) (v : b.Val) : encode (.basic b) v = b.write v := rfl
theorem encode_ptr_none (t : Ty) : (encode (.ptr t) (none : Option t.Val)).Fails := by
  cases t <;> first | exact Enc.Fails.panic _ | exact Enc.Fails.error _

theorem goString_code {u : Ty} (h : (∃ c, u = .chain c) ∨ ∃ fs, u = .struct fs) : methodOf u.goString = none ∧ PlainName u.goString := by
  rcases h with ⟨c, rfl⟩ | ⟨fs, rfl⟩
  · exact ⟨methodOf_chain c, plainName_chain c⟩
  · exact ⟨methodOf_main, plainName_main⟩

theorem opW_eqv {code : Ty → Prop} {M : Methods} (hM : GoodMarshal code M) (u : Ty) (hu : WriteElem code u) (x : u.Val) (hx : u.Fits x) : (opW M u x).Eqv (encode u x) := by
  have hcode : ∀ u (x : u.Val), code u → u.Fits x → (opW M u x).Eqv (encode u x) := by
    intro u x hu hx
    have h1 := hM.1 u hu
    obtain ⟨m, h2, h3⟩ := hM.2 u hu
    unfold opW
    rw [(goString_code h1).1]
    refine .trans (.of_eq ?_) (h3 x hx)
    rcases h1 with ⟨c, rfl⟩ | ⟨fs, rfl⟩ <;> simp only [Methods.callMarshal, h2]
  cases u with
  | basic b =>
    unfold opW
    rw [show methodOf (Ty.basic b).goString = _ from methodOf_basic b]
    exact .of_eq (if_pos rfl)
  | ptr t =>
    obtain ⟨m, h2, h3⟩ := hM.2 t hu
    unfold opW
    rw [show methodOf (Ty.ptr t).goString = _ from methodOf_ptr _]
    simp only [Methods.callMarshal, h2]
    match x with
    | none => exact Enc.Fails.eqv (.panic _) (encode_ptr_none t)
    | some x => exact .trans (h3 x (hx x rfl)) (.of_eq (encode_ptr_some t x).symm)
  | _ => exact hcode _ x hu hx

theorem listW {M : Methods} {u : Ty} {r : Ref} {t : Ty} {v : t.Val} {xs : List u.Val} (hp : ∀ i x, xs[i]? = some x → ∃ put, r.place i t v = .at u x put)
    (he : ∀ x ∈ xs, (opW M u x).Eqv (encode u x)) :
    (writeLoop (fun i => (codeW u r r).run M i t v) xs.length 0).Eqv (encEach (encode u) (pure none) xs) := by
  refine writeLoop_eqv _ _ _ _ fun j x hj => ?_
  obtain ⟨put, hp⟩ := hp j x hj
  rw [Nat.zero_add, codeW_run M u r r j t v x put put hp hp]
  exact he x (List.mem_of_getElem? hj)

theorem sliceW {M : Methods} {u : Ty} {r : Ref} {t : Ty} {v : t.Val} {xs : List u.Val} {deref : Bool} (i : Nat) (hl : sliceLen deref t v = some xs.length)
    (hp : ∀ i x, xs[i]? = some x → ∃ put, r.place i t v = .at u x put) (he : ∀ x ∈ xs, (opW M u x).Eqv (encode u x)) :
    ((WStmt.slice deref (codeW u r r)).run M i t v).Eqv (do
      match ← writeVaruint xs.length.toUInt64 with
      | some e => pure (some e)
      | none => encEach (encode u) (pure none) xs) := by
  unfold WStmt.run
  rw [hl]
  exact Enc.Eqv.bind (.refl _) (fun e => .error e) (fun e => .error e) (listW hp he)

theorem elem_place {u t : Ty} (xs : List u.Val) (put : List u.Val → t.Val) (i : Nat) (x : u.Val) (h : xs[i]? = some x) :
    Place.elem u i xs put = .at u x fun y => put (xs.set i y) := by unfold Place.elem; rw [h]

theorem encEach_u8 (b : Bytes) : (encEach (encode (.basic .u8)) (pure none) b).Writes b := by
  induction b with
  | nil => rfl
  | cons c b ih => exact Enc.Writes.bind (b1 := [c]) (writeByte_writes c) ih

theorem bytesW {M : Methods} (hM : ∀ x : UInt8, (opW M (.basic .u8) x).Eqv (encode (.basic .u8) x)) {r : Ref} {t : Ty} {v : t.Val} {b : Bytes} {deref : Bool} (i : Nat)
    (hl : sliceLen deref t v = some b.length) (hp : ∀ (i : Nat) (x : UInt8), b[i]? = some x → ∃ put, r.place i t v = .at (.basic .u8) x put) :
    ((WStmt.slice deref (codeW (.basic .u8) r r)).run M i t v).Eqv (encode .bytes (some b : Option Bytes)) := by
  refine (sliceW (u := .basic .u8) (xs := b) i hl hp fun x _ => hM x).trans ?_
  refine Enc.Eqv.bind (.refl _) (fun e => .error e) (fun e => .error e) fun bs => ?_
  exact ⟨fun h => (Enc.Writes.det (encEach_u8 b) h) ▸ writeBytes_writes b, fun h => (Enc.Writes.det (writeBytes_writes b) h) ▸ encEach_u8 b⟩

theorem goString_slice {u : Ty} (h : u ≠ .basic .u8) : (Ty.slice u).goString = asc "[]" ++ u.goString := by
  cases u with
  | basic b => cases b <;> first | rfl | exact absurd rfl h
  | _ => rfl

/-- A pointer: the code inside `if exists { … }` -/
def PtrW (M : Methods) (tag : Tag) (u : Ty) : Prop := ∃ f body, cgField (42 :: u.goString) tag = some f ∧ genWrite f = .optional (tag = .optional) body ∧
  ∀ y : u.Val, u.Fits y → (body.run M 0 (.ptr u) (some y : Option u.Val)).Eqv (encode u y)

theorem ptrW_basic {M : Methods} {tag : Tag} (ht : tag = .none ∨ tag = .optional) (b : Basic) : PtrW M tag (.basic b) := by
  refine ⟨_, .write (.basic b) ⟨true, false⟩, cgField_ptr _ (plainName_basic b) tag ht, ?_, fun y _ => .of_eq (if_pos rfl)⟩
  simp [genWrite, methodOf_basic]

theorem ptrW_code {code : Ty → Prop} {M : Methods} (hM : GoodMarshal code M) {tag : Tag} (ht : tag = .none ∨ tag = .optional) (u : Ty) (hu : code u) : PtrW M tag u := by
  obtain ⟨h1, h2⟩ := goString_code (hM.1 u hu)
  obtain ⟨m, h3, h4⟩ := hM.2 u hu
  refine ⟨_, .marshal ⟨false, false⟩, cgField_ptr _ h2 tag ht, ?_, fun y hy => .trans (.of_eq ?_) (h4 y hy)⟩
  · simp [genWrite, h1]
  · show M.callMarshal (.ptr u) (some y) = m y
    simp only [Methods.callMarshal, h3]

theorem genWrite_slice (u : Ty) (p o : Bool) : genWrite ⟨u.goString, p, o, true, false, 0⟩ =
    if o || p then .optional o (.slice p (codeW u ⟨p, true⟩ ⟨p, true⟩)) else .slice p (codeW u ⟨p, true⟩ ⟨p, true⟩) := by
  unfold genWrite codeW
  cases methodOf u.goString <;> simp
theorem genWrite_array (u : Ty) (p o : Bool) (n : Int) : genWrite ⟨u.goString, p, o, false, true, n⟩ =
    if o || p then .optional o (.array n (codeW u ⟨p, true⟩ ⟨p, true⟩)) else .array n (codeW u ⟨p, true⟩ ⟨p, true⟩) := by
  unfold genWrite codeW
  cases methodOf u.goString <;> simp
theorem genWrite_plain (u : Ty) : genWrite ⟨u.goString, false, false, false, false, 0⟩ = codeW u ⟨false, false⟩ ⟨false, false⟩ := by
  unfold genWrite codeW
  cases methodOf u.goString <;> simp
theorem bytes_goString : (Ty.bytes).goString = asc "[]" ++ (Ty.basic .u8).goString := by decide +kernel

theorem place_ptr_slice (u : Ty) (y : Option (List u.Val)) (i : Nat) : Ref.place ⟨true, true⟩ i (.ptr (.slice u)) (some y : Option (Option (List u.Val))) =
    Place.elem u i (y.getD []) fun xs => (some (some xs) : Option (Option (List u.Val))) := rfl
theorem place_ptr_bytes (y : Option Bytes) (i : Nat) : Ref.place ⟨true, true⟩ i (.ptr .bytes) (some y : Option (Option Bytes)) =
    Place.elem (.basic .u8) i (y.getD []) fun xs => (some (some xs) : Option (Option Bytes)) := rfl
theorem place_ptr_array (n : Nat) (u : Ty) (y : List u.Val) (i : Nat) : Ref.place ⟨true, true⟩ i (.ptr (.array n u)) (some y : Option (List u.Val)) =
    Place.elem u i y fun xs => (some xs : Option (List u.Val)) := rfl
theorem place_slice (u : Ty) (y : Option (List u.Val)) (i : Nat) : Ref.place ⟨false, true⟩ i (.slice u) y = Place.elem u i (y.getD []) fun xs => (some xs : Option (List u.Val)) := rfl
theorem place_bytes (y : Option Bytes) (i : Nat) : Ref.place ⟨false, true⟩ i .bytes y = Place.elem (.basic .u8) i (y.getD []) fun xs => (some xs : Option Bytes) := rfl
theorem place_array (n : Nat) (u : Ty) (y : List u.Val) (i : Nat) : Ref.place ⟨false, true⟩ i (.array n u) y = Place.elem u i y fun xs => xs := rfl

theorem ptrW_slice {code : Ty → Prop} {M : Methods} (hM : GoodMarshal code M) {tag : Tag} (u : Ty) (hn : u ≠ .basic .u8) (hu : WriteElem code u) :
    PtrW M tag (.slice u) := by
  refine ⟨_, .slice true (codeW u ⟨true, true⟩ ⟨true, true⟩), by rw [goString_slice hn]; exact cgField_ptr_slice _ _, ?_, fun y hy => ?_⟩
  · rw [genWrite_slice, Bool.or_true, if_pos rfl]
  · refine sliceW (u := u) (xs := Option.getD (α := List u.Val) y []) 0 rfl (fun i x hx => ?_) fun x hx => opW_eqv hM u hu x (hy x hx)
    exact ⟨_, (place_ptr_slice u y i).trans (elem_place (t := .ptr (.slice u)) _ _ i x hx)⟩

theorem ptrW_bytes {code : Ty → Prop} {M : Methods} (hM : GoodMarshal code M) {tag : Tag} : PtrW M tag .bytes := by
  refine ⟨_, .slice true (codeW (.basic .u8) ⟨true, true⟩ ⟨true, true⟩), by rw [bytes_goString]; exact cgField_ptr_slice _ _, ?_, fun y hy => ?_⟩
  · rw [genWrite_slice, Bool.or_true, if_pos rfl]
  · refine (bytesW (fun x => opW_eqv hM (.basic .u8) trivial x trivial) (b := Option.getD (α := Bytes) y []) 0 rfl fun i x hx => ?_).trans (.of_eq rfl)
    exact ⟨_, (place_ptr_bytes y i).trans (elem_place (t := .ptr .bytes) (u := .basic .u8) _ _ i x hx)⟩

theorem ptrW_array {code : Ty → Prop} {M : Methods} (hM : GoodMarshal code M) {tag : Tag} (n : Nat) (hn : n < 2 ^ 63) (u : Ty) (hu : WriteElem code u) :
    PtrW M tag (.array n u) := by
  refine ⟨_, .array n (codeW u ⟨true, true⟩ ⟨true, true⟩), cgField_ptr_array n hn _ _, ?_, fun y hy => ?_⟩
  · rw [genWrite_array, Bool.or_true, if_pos rfl]
  · obtain ⟨hl, hy⟩ := hy
    have hl : List.length (α := u.Val) y = n := hl
    have := listW (M := M) (u := u) (r := ⟨true, true⟩) (t := .ptr (.array n u)) (v := (some y : Option (List u.Val))) (xs := y)
      (fun i x hx => ⟨_, (place_ptr_array n u y i).trans (elem_place (t := .ptr (.array n u)) _ _ i x hx)⟩) fun x hx => opW_eqv hM u hu x (hy x hx)
    rw [hl] at this
    exact this

/-- A field that is not optional -/
def FieldW (M : Methods) (t : Ty) : Prop := ∃ f, cgField t.goString .none = some f ∧ ∀ x : t.Val, t.Fits x → ((genWrite f).run M 0 t x).Eqv (encode t x)

theorem fieldW_ptr {M : Methods} {u : Ty} (h : PtrW M .none u) : FieldW M (.ptr u) := by
  obtain ⟨f, body, h1, h2, h3⟩ := h
  refine ⟨f, h1, fun x hx => ?_⟩
  rw [h2]
  match x with
  | none => exact Enc.Fails.eqv (.error _) (encode_ptr_none u)
  | some x => exact .trans (h3 x (hx x rfl)) (.of_eq (encode_ptr_some u x).symm)

theorem fieldW_elem {code : Ty → Prop} {M : Methods} (hM : GoodMarshal code M) (u : Ty) (hu : WriteElem code u) (hp : PlainName u.goString) : FieldW M u := by
  refine ⟨_, cgField_plain _ hp, fun x hx => ?_⟩
  rw [genWrite_plain, codeW_run M u _ _ 0 u x x id id rfl rfl]
  exact opW_eqv hM u hu x hx

theorem fieldW_slice {code : Ty → Prop} {M : Methods} (hM : GoodMarshal code M) (u : Ty) (hn : u ≠ .basic .u8) (hu : WriteElem code u) : FieldW M (.slice u) := by
  refine ⟨_, by rw [goString_slice hn]; exact cgField_slice _, fun y hy => ?_⟩
  rw [genWrite_slice]
  refine sliceW (u := u) (xs := Option.getD (α := List u.Val) y []) 0 rfl (fun i x hx => ?_) fun x hx => opW_eqv hM u hu x (hy x hx)
  exact ⟨_, (place_slice u y i).trans (elem_place (t := .slice u) _ _ i x hx)⟩

theorem fieldW_bytes {code : Ty → Prop} {M : Methods} (hM : GoodMarshal code M) : FieldW M .bytes := by
  refine ⟨_, by rw [bytes_goString]; exact cgField_slice _, fun y hy => ?_⟩
  rw [genWrite_slice]
  refine (bytesW (fun x => opW_eqv hM (.basic .u8) trivial x trivial) (b := Option.getD (α := Bytes) y []) 0 rfl fun i x hx => ?_).trans (.of_eq rfl)
  exact ⟨_, (place_bytes y i).trans (elem_place (t := .bytes) (u := .basic .u8) _ _ i x hx)⟩

theorem fieldW_array {code : Ty → Prop} {M : Methods} (hM : GoodMarshal code M) (n : Nat) (hn : n < 2 ^ 63) (u : Ty) (hu : WriteElem code u) : FieldW M (.array n u) := by
  refine ⟨_, cgField_array n hn _, fun y hy => ?_⟩
  rw [genWrite_array]
  obtain ⟨hl, hy⟩ := hy
  have hl : List.length (α := u.Val) y = n := hl
  have := listW (M := M) (u := u) (r := ⟨false, true⟩) (t := .array n u) (v := y) (xs := y)
    (fun i x hx => ⟨_, (place_array n u y i).trans (elem_place (t := .array n u) _ _ i x hx)⟩) fun x hx => opW_eqv hM u hu x (hy x hx)
  rw [hl] at this
  exact this

theorem writeElem_plain {code : Ty → Prop} {M : Methods} (hM : GoodMarshal code M) (u : Ty) (hu : WriteElem code u) (hp : ∀ t, u ≠ .ptr t) : PlainName u.goString := by
  cases u with
  | basic b => exact plainName_basic b
  | ptr t => exact absurd rfl (hp t)
  | _ => exact (goString_code (hM.1 _ hu)).2

theorem fieldW_ok {code : Ty → Prop} {M : Methods} (hM : GoodMarshal code M) {vis : Vis} {t : Ty} (h : WriteOk code vis .none t) : FieldW M t := by
  obtain ⟨_, h⟩ := h
  cases t with
  | bytes => exact fieldW_bytes hM
  | slice u => exact fieldW_slice hM u h.1 h.2
  | array n u => exact fieldW_array hM n h.1 u h.2
  | ptr u =>
    refine fieldW_ptr ?_
    cases u with
    | basic b => exact ptrW_basic (.inl rfl) b
    | bytes => exact ptrW_bytes hM
    | slice u => exact ptrW_slice hM u h.1 h.2
    | array n u => exact ptrW_array hM n h.1 u h.2
    | _ => exact ptrW_code hM (.inl rfl) _ h
  | _ => exact fieldW_elem hM _ h (writeElem_plain hM _ h (fun _ e => nomatch e))

theorem ptrW_ok {code : Ty → Prop} {M : Methods} (hM : GoodMarshal code M) {vis : Vis} {t : Ty} (h : WriteOk code vis .optional t) : ∃ u, t = .ptr u ∧ PtrW M .optional u := by
  obtain ⟨_, h⟩ := h
  cases t with
  | ptr u =>
    refine ⟨u, rfl, ?_⟩
    cases u with
    | basic b => exact ptrW_basic (.inr rfl) b
    | bytes => exact ptrW_bytes hM
    | slice u => exact ptrW_slice hM u h.1 h.2
    | array n u => exact ptrW_array hM n h.1 u h.2
    | _ => exact ptrW_code hM (.inr rfl) _ h
  | _ => exact h.elim

theorem Enc.writes_after {p : Enc (Option Err)} {f : Option Err → Enc (Option Err)} {b1 : Bytes} (hp : p.Writes b1) (bs : Bytes) :
    (p >>= f).Writes bs ↔ ∃ b2, (f none).Writes b2 ∧ bs = b1 ++ b2 := by
  constructor
  · intro h
    unfold Enc.Writes at h
    rw [Enc.run_bind, hp, EOut.bind_ok] at h
    cases hq : (f none).run with
    | ok e' o' =>
      rw [hq, EOut.prepend_ok] at h
      cases h
      exact ⟨o', hq, rfl⟩
    | panic w => rw [hq] at h; cases h
    | diverge => rw [hq] at h; cases h
  · rintro ⟨b2, h2, rfl⟩
    exact hp.bind h2

theorem optional_eqv (isZero : Bool) (w one rest rest' : Enc (Option Err)) (hw : isZero = false → w.Eqv one) (hr : rest'.Eqv rest) :
    ((do
      match ← writeBool (!isZero) with
      | some e => pure (some e)
      | none => (if !isZero then w else pure none)) >>= fun e => match e with
        | some e => pure (some e)
        | none => rest').Eqv (encodeField .exported .optional isZero one rest) := by
  intro bs
  unfold encodeField
  simp only [if_true]
  rw [Enc.bind_assoc', Enc.writes_after (writeBool_writes _), Enc.writes_after (writeBool_writes _)]
  refine exists_congr fun b2 => and_congr_left' ?_
  cases isZero with
  | true => exact hr b2
  | false =>
    change (w >>= fun e => match e with
      | some e => pure (some e)
      | none => rest').Writes b2 ↔ (one >>= fun e => match e with
      | some e => pure (some e)
      | none => rest).Writes b2
    refine Enc.Eqv.bind (hw rfl) ?_ ?_ hr b2
    · exact fun e => .error e
    · exact fun e => .error e

theorem runMarshal_cons (M : Methods) (vis : Vis) (tag : Tag) (t : Ty) (fs : Fields) (x : t.Val) (xs : fs.Val) :
    runMarshal M (.cons vis tag t fs) ((x, xs) : t.Val × fs.Val) = match cgField t.goString tag with
    | none => .panic "cant generate code for non-pointer optionals"
    | some f => (genWrite f).run M 0 t x >>= fun e => match e with
      | some e => pure (some e)
      | none => runMarshal M fs xs := rfl
theorem encodeFields_cons (vis : Vis) (tag : Tag) (t : Ty) (fs : Fields) (x : t.Val) (xs : fs.Val) :
    encodeFields chainEncoder (.cons vis tag t fs) ((x, xs) : t.Val × fs.Val) = encodeField vis tag (t.isZero x) (encode t x) (encodeFields chainEncoder fs xs) := rfl

theorem isZero_iff (t : Ty) (v : t.Val) : t.isZero v = true ↔ v = t.zero := by unfold Ty.isZero; exact decide_eq_true_iff

theorem runMarshal_eqv {code : Ty → Prop} {M : Methods} (hM : GoodMarshal code M) : (fs : Fields) → fs.All (WriteOk code) → (v : fs.Val) → fs.Fits v →
    (runMarshal M fs v).Eqv (encodeFields chainEncoder fs v)
  | .nil, _, _, _ => .refl _
  | .cons vis tag t fs, h, v, hv => by
    obtain ⟨x, xs⟩ : t.Val × fs.Val := v
    obtain ⟨h1, h2⟩ := h
    obtain ⟨hx, hxs⟩ := hv
    have ih := runMarshal_eqv hM fs h2 xs hxs
    have hvis := h1.1
    subst hvis
    rw [runMarshal_cons, encodeFields_cons]
    cases tag with
    | none =>
      obtain ⟨f, hf, hw⟩ := fieldW_ok hM h1
      rw [hf]
      exact Enc.Eqv.bind (hw x hx) (fun e => .error e) (fun e => .error e) ih
    | optional =>
      obtain ⟨u, rfl, f, body, hf, hg, hw⟩ := ptrW_ok hM h1
      rw [show cgField (Ty.ptr u).goString .optional = some f from hf]
      have hz : (Ty.ptr u).isZero x = !(Ty.ptr u).notNil x := by
        match x with
        | none => exact (isZero_iff (.ptr u) _).2 rfl
        | some y => exact Bool.eq_false_iff.2 fun h => nomatch (show some y = none from (isZero_iff (.ptr u) _).1 h)
      have hn : (Ty.ptr u).notNil x = !(Ty.ptr u).isZero x := by rw [hz, Bool.not_not]
      refine .trans (.of_eq ?_) (optional_eqv ((Ty.ptr u).isZero x) (body.run M 0 (.ptr u) x) (encode (.ptr u) x) _ _ (fun h => ?_) ih)
      · simp only [hg, WStmt.run, hn]
        rfl
      · match x with
        | none => rw [hz] at h; cases h
        | some y => exact .trans (hw y (hx y rfl)) (.of_eq (encode_ptr_some u y).symm)
    | _ => exact h1.2.elim

theorem code_kind (ok : (Ty → Prop) → Vis → Tag → Ty → Prop) (n : Nat) (u : Ty) (h : HasCode ok n u) : (∃ c, u = .chain c) ∨ ∃ fs, u = .struct fs := by
  cases u with
  | chain c => exact .inl ⟨c, rfl⟩
  | struct fs => exact .inr ⟨fs, rfl⟩
  | _ => cases n <;> exact h.elim

theorem generated_marshal (n : Nat) : GoodMarshal (HasCode WriteOk n) (generated n) := by
  induction n with
  | zero =>
    refine ⟨code_kind _ _, fun u hu => ?_⟩
    cases u with
    | chain c => exact ⟨_, rfl, fun x _ => .of_eq (encode_chain c x).symm⟩
    | _ => exact hu.elim
  | succ n ih =>
    refine ⟨code_kind _ _, fun u hu => ?_⟩
    cases u with
    | chain c => exact ⟨_, rfl, fun x _ => .of_eq (encode_chain c x).symm⟩
    | struct fs => exact ⟨_, rfl, fun x hx => runMarshal_eqv ih fs hu x hx⟩
    | _ => exact hu.elim

end Verif
