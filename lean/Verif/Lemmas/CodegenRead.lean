import Verif.Lemmas.Codegen
import Verif.Lemmas.Keys
import Verif.Props.Bench
/-! Helper lemmas: reading by generated code. -/
namespace Verif

/-- One succeeds exactly when the other does, with related values and the same rest. -/
def Dec.Both {α β : Type} (R : α → β → Prop) (p : Dec (α × Option Err)) (q : Dec (β × Option Err)) : Prop :=
  Dec.Sim R p q ∧ Dec.Sim (fun b a => R a b) q p

theorem Dec.Both.refl {α : Type} (p : Dec (α × Option Err)) : Dec.Both Eq p p := ⟨.refl p, fun _ _ a _ h => ⟨a, rfl, h⟩⟩
theorem Dec.Both.mono {α β : Type} {R S : α → β → Prop} {p : Dec (α × Option Err)} {q : Dec (β × Option Err)} (h : Dec.Both R p q) (hs : ∀ a b, R a b → S a b) : Dec.Both S p q :=
  ⟨fun fin bs a r ha => by obtain ⟨b, h1, h2⟩ := h.1 fin bs a r ha; exact ⟨b, hs _ _ h1, h2⟩,
    fun fin bs b r hb => by obtain ⟨a, h1, h2⟩ := h.2 fin bs b r hb; exact ⟨a, hs _ _ h1, h2⟩⟩
theorem Dec.Both.of_eq {α β : Type} {R : α → β → Prop} {p p' : Dec (α × Option Err)} {q q' : Dec (β × Option Err)} (hp : p = p') (hq : q = q') (h : Dec.Both R p' q') : Dec.Both R p q :=
  hp ▸ hq ▸ h
theorem Dec.Both.pure {α β : Type} {R : α → β → Prop} (a : α) (b : β) (h : R a b) : Dec.Both R (Pure.pure (a, none)) (Pure.pure (b, none)) := ⟨.pure a b h, .pure b a h⟩

/-- Never succeeds -/
def Dec.Fails {α : Type} (p : Dec (α × Option Err)) : Prop := ∀ fin bs c r, p.runE fin bs ≠ .ok (c, none) r
theorem Dec.Fails.error {α : Type} (a : α) (e : Err) : (Pure.pure (a, some e) : Dec (α × Option Err)).Fails := fun _ _ _ _ h => by cases h
theorem Dec.Fails.panic {α : Type} (w : String) : (Dec.panic w : Dec (α × Option Err)).Fails := fun _ _ _ _ h => by cases h
theorem Dec.Fails.both {α β : Type} {R : α → β → Prop} {p : Dec (α × Option Err)} {q : Dec (β × Option Err)} (hp : p.Fails) (hq : q.Fails) : Dec.Both R p q :=
  ⟨fun fin bs a r h => absurd h (hp fin bs a r), fun fin bs a r h => absurd h (hq fin bs a r)⟩
theorem Dec.Fails.bind {α β : Type} {p : Dec (α × Option Err)} {f : α × Option Err → Dec (β × Option Err)} (hp : p.Fails) (hf : ∀ a e, (f (a, some e)).Fails) : (p >>= f).Fails := by
  intro fin bs c r h
  obtain ⟨⟨a, e⟩, r', h1, h2⟩ := Dec.runE_bind_ok h
  cases e with
  | some e => exact hf a e _ _ _ _ h2
  | none => exact hp _ _ _ _ h1

theorem Dec.Both.bind {α β γ δ : Type} {R : α → β → Prop} {S : γ → δ → Prop} {p : Dec (α × Option Err)} {q : Dec (β × Option Err)}
    {f : α × Option Err → Dec (γ × Option Err)} {g : β × Option Err → Dec (δ × Option Err)} (h : Dec.Both R p q)
    (hf : ∀ a e, (f (a, some e)).Fails) (hg : ∀ b e, (g (b, some e)).Fails) (h' : ∀ a b, R a b → Dec.Both S (f (a, none)) (g (b, none))) :
    Dec.Both S (p >>= f) (q >>= g) :=
  ⟨h.1.bind (fun a e => hf a e) fun a b r => (h' a b r).1, h.2.bind (fun b e => hg b e) fun b a r => (h' a b r).2⟩

theorem Dec.map_fails {α β : Type} (g : α → β) (a : α) (e : Err) : ((fun x : α × Option Err => (Pure.pure (g x.1, x.2) : Dec (β × Option Err))) (a, some e)).Fails := .error _ _

theorem Dec.bind_assoc {α β γ : Type} (p : Dec α) (f : α → Dec β) (g : β → Dec γ) : (p >>= f) >>= g = p >>= fun x => f x >>= g := Dec.bind_assoc' p f g

/-- The loop against `decEach`: `emb` puts the list into the variable. -/
theorem readLoop_both {α β σ : Type} {R : α → β → Prop} {z : α} {z' : β} {op : α → Dec (α × Option Err)} {dec : β → Dec (β × Option Err)} (emb : List α → σ)
    (body : Nat → σ → Dec (σ × Option Err)) (hop : Dec.Both R (op z) (dec z'))
    (hb : ∀ pre x post, body (List.length pre) (emb (pre ++ x :: post)) = op x >>= fun y => pure (emb (pre ++ y.1 :: post), y.2)) (k : Nat) (pre : List α) :
    Dec.Both (fun s ys => ∃ xs, s = emb (pre ++ xs) ∧ Forall2 R xs ys) (readLoop body k pre.length (emb (pre ++ List.replicate k z))) (decEach dec (List.replicate k z')) := by
  induction k generalizing pre with
  | zero => exact .pure _ _ ⟨[], rfl, .nil⟩
  | succ k ih =>
    rw [List.replicate_succ, List.replicate_succ, readLoop, hb, Dec.bind_assoc]
    refine hop.bind (fun a e => .error _ _) (fun a e => .error _ _) fun y y' hy => ?_
    have ih := ih (pre ++ [y])
    simp only [List.append_assoc, List.singleton_append, List.length_append, List.length_singleton] at ih
    refine ⟨fun fin bs s r hs => ?_, fun fin bs ys r hs => ?_⟩
    · obtain ⟨ys, ⟨xs, h1, h2⟩, h3⟩ := ih.1 fin bs s r hs
      exact ⟨y' :: ys, ⟨y :: xs, h1, .cons hy h2⟩, by
        show (decEach dec (List.replicate k z') >>= _).runE fin bs = _
        rw [Dec.runE_bind, h3]; rfl⟩
    · obtain ⟨⟨ys', e⟩, r', h1, h2⟩ := Dec.runE_bind_ok (show (decEach dec (List.replicate k z') >>= _).runE fin bs = _ from hs)
      cases h2
      obtain ⟨s, ⟨xs, h3, h4⟩, h5⟩ := ih.2 fin bs ys' _ h1
      exact ⟨s, ⟨y :: xs, h3, .cons hy h4⟩, h5⟩

/-! ## Elements -/

/-- What the innermost template does to an element -/
def opR (M : Methods) (u : Ty) (x : u.Val) : Dec (u.Val × Option Err) :=
  match methodOf u.goString with
  | some (.basic b) => readInto b false x (.at u x id)
  | some .bytes => .panic illTyped
  | none => M.callUnmarshal u x
def codeR (u : Ty) (r : Ref) : RStmt :=
  match methodOf u.goString with
  | some m => .read m false r.index
  | none => .unmarshal r

theorem readInto_basic {α : Type} (b b' : Basic) (p : Bool) (old : α) (x : b'.Val) (put : b'.Val → α) :
    readInto b p old (.at (.basic b') x put) = if b = b' ∧ ¬ p then b'.read >>= fun y => pure (put y.1, y.2) else .panic illTyped := rfl
theorem readInto_ptr {α : Type} (b b' : Basic) (p : Bool) (old : α) (x : Option b'.Val) (put : Option b'.Val → α) :
    readInto b p old (.at (.ptr (.basic b')) x put) = if b = b' ∧ p then b'.read >>= fun y => match y.2 with
      | some e => pure (old, some e)
      | none => pure (put (some y.1), none) else .panic illTyped := rfl

theorem readInto_put {α : Type} (b : Basic) (u : Ty) (hu : ∀ t, u ≠ .ptr t) (x : u.Val) (put : u.Val → α) (old : α) :
    readInto b false old (.at u x put) = readInto b false x (.at u x id) >>= fun y => pure (put y.1, y.2) := by
  cases u with
  | basic b' =>
    by_cases h : b = b'
    · exact ((readInto_basic b b' false old x put).trans (if_pos ⟨h, by simp⟩)).trans (.symm
        ((congrArg (fun p : Dec (b'.Val × Option Err) => p >>= fun y => pure (put y.1, y.2)) ((readInto_basic b b' false x x id).trans (if_pos ⟨h, by simp⟩))).trans (Dec.bind_assoc _ _ _)))
    · exact ((readInto_basic b b' false old x put).trans (if_neg fun e => h e.1)).trans (.symm
        (congrArg (fun p : Dec (b'.Val × Option Err) => p >>= fun y => pure (put y.1, y.2)) ((readInto_basic b b' false x x id).trans (if_neg fun e => h e.1))))
  | ptr t => exact absurd rfl (hu t)
  | _ => rfl

theorem codeR_run (M : Methods) (u : Ty) (hu : ∀ t, u ≠ .ptr t) (index : Bool) (i : Nat) (t : Ty) (v : t.Val) (x : u.Val) (put : u.Val → t.Val)
    (h : Ref.place ⟨false, index⟩ i t v = .at u x put) : (codeR u ⟨false, index⟩).run M i t v = opR M u x >>= fun y => pure (put y.1, y.2) := by
  unfold codeR opR
  cases hm : methodOf u.goString with
  | none => simp only [RStmt.run, h]
  | some m =>
    cases m with
    | bytes => rfl
    | basic b => simp only [RStmt.run, h]; exact readInto_put b u hu x put v

/-- The methods read what the reflection codec reads without them. -/
def GoodUnmarshal (code : Ty → Prop) (M : Methods) : Prop :=
  (∀ u, code u → (∃ c, u = .chain c) ∨ ∃ fs, u = .struct fs) ∧ ∀ u, code u → ∃ m, M.unmarshal u = some m ∧ Dec.Both u.Same (m u.zero) (decode u u.zero)

theorem readElem_kind {code : Ty → Prop} {M : Methods} (hM : GoodUnmarshal code M) (u : Ty) (hu : ReadElem code u) : (∃ b, u = .basic b) ∨ (code u ∧ ((∃ c, u = .chain c) ∨ ∃ fs, u = .struct fs)) := by
  cases u with
  | basic b => exact .inl ⟨b, rfl⟩
  | _ => exact .inr ⟨hu, hM.1 _ hu⟩

theorem readElem_plain {code : Ty → Prop} {M : Methods} (hM : GoodUnmarshal code M) (u : Ty) (hu : ReadElem code u) : PlainName u.goString ∧ ∀ t, u ≠ .ptr t := by
  rcases readElem_kind hM u hu with ⟨b, rfl⟩ | ⟨_, h⟩
  · exact ⟨plainName_basic b, fun t h => nomatch h⟩
  · refine ⟨(goString_code h).2, fun t e => ?_⟩
    subst e
    rcases h with ⟨c, h⟩ | ⟨fs, h⟩ <;> cases h

theorem opR_both {code : Ty → Prop} {M : Methods} (hM : GoodUnmarshal code M) (u : Ty) (hu : ReadElem code u) :
    Dec.Both u.Same (opR M u u.zero) (decodeWith chainDecoder u .elem u.zero) := by
  rcases readElem_kind hM u hu with ⟨b, rfl⟩ | ⟨hc, h⟩
  · unfold opR
    rw [show methodOf (Ty.basic b).goString = _ from methodOf_basic b]
    refine Dec.Both.of_eq (p' := b.read) (q' := b.read) ?_ rfl (.refl _)
    refine (if_pos (⟨rfl, by simp⟩ : b = b ∧ ¬ (false = true))).trans (Dec.bind_ret _)
  · obtain ⟨m, h1, h2⟩ := hM.2 u hc
    unfold opR
    rw [(goString_code h).1]
    refine Dec.Both.of_eq ?_ ?_ h2
    · rcases h with ⟨c, rfl⟩ | ⟨fs, rfl⟩ <;> simp only [Methods.callUnmarshal, h1]
    · rcases h with ⟨c, rfl⟩ | ⟨fs, rfl⟩
      · exact (decode_chain c .elem (.inr (.inl rfl)) _).trans (decode_chain c .decode (.inl rfl) _).symm
      · rfl

/-! ## Fields -/

theorem genRead_plain (u : Ty) : genRead ⟨u.goString, false, false, false, false, 0⟩ = codeR u ⟨false, false⟩ := by
  unfold genRead codeR
  cases methodOf u.goString <;> simp
theorem genRead_slice (u : Ty) : genRead ⟨u.goString, false, false, true, false, 0⟩ = .slice u.goString (codeR u ⟨false, true⟩) := by
  unfold genRead codeR
  cases methodOf u.goString <;> simp
theorem genRead_array (u : Ty) (n : Int) : genRead ⟨u.goString, false, false, false, true, n⟩ = .array n (codeR u ⟨false, true⟩) := by
  unfold genRead codeR
  cases methodOf u.goString <;> simp
theorem genRead_ptr (b : Basic) (o : Bool) : genRead ⟨b.goName, true, o, false, false, 0⟩ = if o then .optional (.read (.basic b) true false) else .read (.basic b) true false := by
  unfold genRead
  simp [methodOf_basic]

theorem elem_place_at {u t : Ty} (pre post : List u.Val) (x : u.Val) (put : List u.Val → t.Val) :
    Place.elem u pre.length (pre ++ x :: post) put = .at u x fun y => put (pre ++ y :: post) := by
  rw [elem_place _ _ _ x (by simp)]
  congr 1
  funext y
  simp

/-- One iteration -/
theorem list_body {M : Methods} {u : Ty} (hu : ∀ t, u ≠ .ptr t) {t : Ty} (emb : List u.Val → t.Val)
    (hp : ∀ i xs, Ref.place ⟨false, true⟩ i t (emb xs) = Place.elem u i xs emb) (pre : List u.Val) (x : u.Val) (post : List u.Val) :
    (codeR u ⟨false, true⟩).run M pre.length t (emb (pre ++ x :: post)) = opR M u x >>= fun y => pure (emb (pre ++ y.1 :: post), y.2) :=
  codeR_run M u hu true pre.length t _ x (fun y => emb (pre ++ y :: post)) ((hp _ _).trans (elem_place_at pre post x emb))

/-- How a field that is not optional is decoded by reflection, from its zero value -/
def reflectField (t : Ty) : Dec (t.Val × Option Err) := decodeWith chainDecoder t .elem (t.alloc t.zero)

def FieldR (M : Methods) (t : Ty) : Prop := ∃ f, cgField t.goString .none = some f ∧ Dec.Both t.Same ((genRead f).run M 0 t t.zero) (reflectField t)

theorem alloc_plain (t : Ty) (h : ∀ u, t ≠ .ptr u) (v : t.Val) : t.alloc v = v := by
  cases t with
  | ptr u => exact absurd rfl (h u)
  | _ => rfl

theorem fieldR_elem {code : Ty → Prop} {M : Methods} (hM : GoodUnmarshal code M) (u : Ty) (hu : ReadElem code u) : FieldR M u := by
  obtain ⟨h1, h2⟩ := readElem_plain hM u hu
  refine ⟨_, cgField_plain _ h1, ?_⟩
  rw [genRead_plain, codeR_run M u h2 false 0 u u.zero u.zero id rfl]
  unfold reflectField
  rw [alloc_plain u h2]
  exact Dec.Both.of_eq (Dec.bind_ret _) rfl (opR_both hM u hu)

theorem fieldR_ptr {M : Methods} (b : Basic) : FieldR M (.ptr (.basic b)) := by
  refine ⟨_, cgField_ptr _ (plainName_basic b) .none (.inl rfl), ?_⟩
  rw [genRead_ptr, if_neg (by simp)]
  refine Dec.Both.of_eq (p' := b.read >>= fun y => match y.2 with
      | some e => pure ((none : Option b.Val), some e)
      | none => pure (some y.1, none)) (q' := b.read >>= fun y => pure ((some y.1 : Option b.Val), y.2)) ?_ rfl ?_
  · exact (readInto_ptr b b true none none id).trans (if_pos ⟨rfl, rfl⟩)
  · refine (Dec.Both.refl b.read).bind (fun _ _ => .error _ _) (fun _ _ => .error _ _) fun a _ h => ?_
    cases h
    exact .pure _ _ (.inr ⟨a, a, rfl, rfl, rfl⟩)

theorem fieldR_array {code : Ty → Prop} {M : Methods} (hM : GoodUnmarshal code M) (n : Nat) (hn : n < 2 ^ 63) (u : Ty) (hu : ReadElem code u) : FieldR M (.array n u) := by
  refine ⟨_, cgField_array n hn _, ?_⟩
  rw [genRead_array]
  have h := readLoop_both (σ := List u.Val) (z := u.zero) (z' := u.zero) id (fun i v => (codeR u ⟨false, true⟩).run M i (.array n u) v) (opR_both hM u hu)
    (list_body (t := .array n u) (readElem_plain hM u hu).2 id fun i xs => rfl) n []
  exact h.mono fun s ys ⟨xs, h1, h2⟩ => h1 ▸ h2

theorem fieldR_slice {code : Ty → Prop} {M : Methods} (hM : GoodUnmarshal code M) (u : Ty) (hn : u ≠ .basic .u8) (hu : ReadElem code u) : FieldR M (.slice u) := by
  refine ⟨_, by rw [goString_slice hn]; exact cgField_slice _, ?_⟩
  rw [genRead_slice]
  refine Dec.Both.bind (p := readVaruint) (q := readVaruint) (.refl _) (fun _ _ => .error _ _) (fun _ _ => .error _ _) fun l _ h => ?_
  cases h
  have h := readLoop_both (σ := Option (List u.Val)) (z := u.zero) (z' := u.zero) some (fun i v => (codeR u ⟨false, true⟩).run M i (.slice u) v) (opR_both hM u hu)
    (list_body (t := .slice u) (readElem_plain hM u hu).2 some fun i xs => rfl) (goInt l).toNat []
  refine Dec.Both.of_eq (p' := makeSlice u.zero u.size l fun xs => readLoop (fun i v => (codeR u ⟨false, true⟩).run M i (.slice u) v) (goInt l).toNat 0 (some xs : Option (List u.Val)))
    (q' := if ((0 : Nat) : Int) ≠ goInt l then makeSlice u.zero u.size l fun xs => decEach (decodeWith chainDecoder u .elem) xs >>= fun y => pure ((some y.1 : Option (List u.Val)), y.2)
    else pure ((none : Option (List u.Val)), none)) rfl rfl ?_
  by_cases h0 : goInt l = 0
  · have h0 := goInt_zero h0
    subst h0
    rw [if_neg (show ¬ ((0 : Nat) : Int) ≠ goInt 0 by decide)]
    unfold makeSlice
    rw [if_neg (show ¬ goInt 0 < 0 by decide), if_neg (by simp)]
    exact Dec.Both.pure (R := (Ty.slice u).Same) (some [] : Option (List u.Val)) (none : Option (List u.Val)) Forall2.nil
  rw [if_pos (by simpa using fun e => h0 e.symm)]
  unfold makeSlice
  by_cases h1 : goInt l < 0
  · rw [if_pos h1, if_pos h1]
    exact Dec.Fails.both (.panic _) (.panic _)
  rw [if_neg h1, if_neg h1]
  by_cases h2 : l.toNat * u.size > maxAlloc
  · rw [if_pos h2, if_pos h2]
    exact Dec.Fails.both (.panic _) (.panic _)
  rw [if_neg h2, if_neg h2]
  rw [← goInt_toNat h1]
  refine Dec.Both.of_eq (Dec.bind_ret _).symm rfl (h.bind (fun _ _ => .error _ _) (fun _ _ => .error _ _) fun a b hr => ?_)
  obtain ⟨xs, rfl, hx⟩ := hr
  exact .pure _ _ hx

theorem readUint8_cons (fin : Err) (b : UInt8) (r : Bytes) : readUint8.runE fin (b :: r) = .ok (b, none) r := by
  unfold readUint8
  rw [Dec.runE_bind, readByte_cons]
  rfl
theorem readUint8_nil (fin : Err) : readUint8.runE fin [] = .ok (0, some fin) [] := by
  unfold readUint8
  rw [Dec.runE_bind, readByte_nil]
  rfl

theorem decEach_u8 (n : Nat) (fin : Err) (bs r : Bytes) (ys : Bytes) :
    (decEach (fun _ : UInt8 => readUint8) (List.replicate n 0)).runE fin bs = .ok (ys, none) r ↔ ys.length = n ∧ bs = ys ++ r := by
  induction n generalizing bs ys with
  | zero =>
    constructor
    · intro h; cases h; exact ⟨rfl, rfl⟩
    · rintro ⟨h, rfl⟩
      cases List.eq_nil_of_length_eq_zero h
      rfl
  | succ n ih =>
    rw [List.replicate_succ, decEach]
    cases bs with
    | nil =>
      rw [Dec.runE_bind, readUint8_nil]
      constructor
      · intro h; cases h
      · rintro ⟨h, e⟩
        have := congrArg List.length e
        simp at this
        omega
    | cons b bs =>
      rw [Dec.runE_bind, readUint8_cons]
      constructor
      · intro h
        obtain ⟨⟨zs, e⟩, r', h1, h2⟩ := Dec.runE_bind_ok (show (decEach (fun _ : UInt8 => readUint8) (List.replicate n 0) >>= _).runE fin bs = _ from h)
        cases h2
        obtain ⟨h3, h4⟩ := (ih _ _).1 h1
        exact ⟨by simp [h3], by simp [h4]⟩
      · rintro ⟨h, e⟩
        cases ys with
        | nil => simp at h
        | cons y ys =>
          simp only [List.cons_append, List.cons.injEq] at e
          obtain ⟨rfl, rfl⟩ := e
          have := (ih (ys ++ r) ys).2 ⟨by simpa using h, rfl⟩
          show (decEach (fun _ : UInt8 => readUint8) (List.replicate n 0) >>= _).runE fin (ys ++ r) = _
          rw [Dec.runE_bind, this]
          rfl

theorem fieldR_bytes {code : Ty → Prop} {M : Methods} (hM : GoodUnmarshal code M) : FieldR M .bytes := by
  refine ⟨_, by rw [bytes_goString]; exact cgField_slice _, ?_⟩
  rw [genRead_slice]
  refine Dec.Both.bind (p := readVaruint) (q := readVaruint) (.refl _) (fun _ _ => .error _ _) (fun _ _ => .error _ _) fun l _ h => ?_
  cases h
  have h := readLoop_both (σ := Option Bytes) (z := (0 : UInt8)) (z' := (0 : UInt8)) (dec := fun _ => readUint8) some (fun i v => (codeR (.basic .u8) ⟨false, true⟩).run M i .bytes v)
    (opR_both hM (.basic .u8) trivial)
    (list_body (u := .basic .u8) (t := .bytes) (fun t h => nomatch h) some fun i xs => rfl) (goInt l).toNat []
  refine Dec.Both.of_eq (p' := makeSlice 0 1 l fun xs => readLoop (fun i v => (codeR (.basic .u8) ⟨false, true⟩).run M i .bytes v) (goInt l).toNat 0 (some xs : Option Bytes))
    (q' := readBytes (goInt l) >>= fun y => pure ((if goInt l < 0 then none else some y.2.1 : Option Bytes), y.2.2)) rfl rfl ?_
  unfold makeSlice
  by_cases h1 : goInt l < 0
  · rw [if_pos h1]
    refine Dec.Fails.both (.panic _) ?_
    unfold readBytes
    rw [if_pos h1]
    exact .error _ _
  rw [if_neg h1]
  by_cases h2 : l.toNat * 1 > maxAlloc
  · rw [if_pos h2]
    refine Dec.Fails.both (.panic _) ?_
    unfold readBytes
    have := goInt_toNat h1
    rw [if_neg h1, if_neg (by intro e; rw [e] at this; unfold maxAlloc at h2; simp at this; omega), if_pos (by omega)]
    exact .panic _
  rw [if_neg h2, ← goInt_toNat h1]
  have hl : ((goInt l).toNat : Int) = goInt l := by omega
  have hm : (goInt l).toNat ≤ maxAlloc := by have := goInt_toNat h1; omega
  refine ⟨fun fin bs v r hv => ?_, fun fin bs v r hv => ?_⟩
  · obtain ⟨ys, ⟨xs, h3, h4⟩, h5⟩ := h.1 fin bs v r hv
    cases forall2_eq _ (fun _ _ h => h) _ _ h4
    obtain ⟨h6, rfl⟩ := (decEach_u8 _ _ _ _ _).1 h5
    rename' ys => xs
    refine ⟨(some xs : Option Bytes), ?_, ?_⟩
    · rw [h3]; exact rfl
    · rw [Dec.runE_bind, ← hl, readBytes_reads fin _ hm xs r h6]
      show Out.ok ((if ((goInt l).toNat : Int) < 0 then none else some xs : Option Bytes), none) r = _
      rw [if_neg (by omega)]
      rfl
  · obtain ⟨⟨k, b, e⟩, r', h3, h4⟩ := Dec.runE_bind_ok hv
    cases h4
    obtain ⟨h5, h6, rfl⟩ := readBytes_inv _ _ _ _ _ _ h3
    obtain ⟨s, ⟨xs, h7, h8⟩, h9⟩ := h.2 fin (b ++ r) b r ((decEach_u8 _ _ _ _ _).2 ⟨by omega, rfl⟩)
    cases forall2_eq _ (fun _ _ h => h) _ _ h8
    refine ⟨s, ?_, h9⟩
    rw [h7, if_neg h1]
    exact rfl

theorem fieldR_ok {code : Ty → Prop} {M : Methods} (hM : GoodUnmarshal code M) (hc : ∀ c, code (.chain c)) {vis : Vis} {t : Ty} (h : ReadOk code vis .none t) : FieldR M t := by
  obtain ⟨_, h⟩ := h
  cases t with
  | bytes => exact fieldR_bytes hM
  | slice u =>
    cases u with
    | basic b => exact fieldR_slice hM _ (fun e => by cases e; exact h rfl) trivial
    | chain c => exact fieldR_slice hM _ (fun e => nomatch e) (hc c)
    | _ => exact nomatch hM.1 _ h
  | array n u => exact fieldR_array hM n h.1 u h.2
  | ptr u =>
    cases u with
    | basic b => exact fieldR_ptr b
    | _ => exact nomatch hM.1 _ h
  | _ => exact fieldR_elem hM _ h

theorem ptrR_ok {code : Ty → Prop} {vis : Vis} {t : Ty} (h : ReadOk code vis .optional t) : ∃ b, t = .ptr (.basic b) := by
  obtain ⟨_, h⟩ := h
  cases t with
  | ptr u =>
    cases u with
    | basic b => exact ⟨b, rfl⟩
    | _ => exact h.elim
  | _ => exact h.elim

theorem runUnmarshal_cons (M : Methods) (vis : Vis) (tag : Tag) (t : Ty) (fs : Fields) (x : t.Val) (xs : fs.Val) :
    runUnmarshal M (.cons vis tag t fs) ((x, xs) : t.Val × fs.Val) = match cgField t.goString tag with
    | none => .panic "cant generate code for non-pointer optionals"
    | some f => (genRead f).run M 0 t x >>= fun y => match y.2 with
      | some e => pure (((y.1, xs) : t.Val × fs.Val), some e)
      | none => runUnmarshal M fs xs >>= fun ys => pure (((y.1, ys.1) : t.Val × fs.Val), ys.2) := rfl
theorem decodeFields_cons (vis : Vis) (tag : Tag) (t : Ty) (fs : Fields) (x : t.Val) (xs : fs.Val) :
    decodeFields chainDecoder (.cons vis tag t fs) none ((x, xs) : t.Val × fs.Val) =
      decodeField vis tag x (t.alloc x) t.zero (fun mode => decodeWith chainDecoder t mode (t.alloc x)) xs none (fun err => decodeFields chainDecoder fs err xs) := rfl

theorem field_then {α β : Type} {R : α → α → Prop} {S : β → β → Prop} {p q : Dec (α × Option Err)} {p' q' : Dec (β × Option Err)} (xs : β) (h : Dec.Both R p q) (h' : Dec.Both S p' q') :
    Dec.Both (fun a b : α × β => R a.1 b.1 ∧ S a.2 b.2)
      (p >>= fun y => match y.2 with
        | some e => pure ((y.1, xs), some e)
        | none => p' >>= fun ys => pure ((y.1, ys.1), ys.2))
      (q >>= fun y => match y.2 with
        | some e => pure ((y.1, xs), some e)
        | none => q' >>= fun ys => pure ((y.1, ys.1), ys.2)) :=
  h.bind (fun _ _ => .error _ _) (fun _ _ => .error _ _) fun _ _ hr => h'.bind (fun _ _ => .error _ _) (fun _ _ => .error _ _) fun _ _ hs => .pure _ _ ⟨hr, hs⟩

theorem optional_then {α β : Type} {R : α → α → Prop} {S : β → β → Prop} {p q : Dec (α × Option Err)} {p' q' : Dec (β × Option Err)} (x x' : α) (xs : β) (hx : R x x) (h : Dec.Both R p q) (h' : Dec.Both S p' q') :
    Dec.Both (fun a b : α × β => R a.1 b.1 ∧ S a.2 b.2)
      ((readBool >>= fun y => match y.2 with
        | some e => pure (x, some e)
        | none => if y.1 then p else pure (x, none)) >>= fun y => match y.2 with
        | some e => pure ((y.1, xs), some e)
        | none => p' >>= fun ys => pure ((y.1, ys.1), ys.2))
      (readBool >>= fun y => match y.2 with
        | some e => pure ((x', xs), some e)
        | none => if y.1 then q >>= fun y => match y.2 with
            | some e => pure ((y.1, xs), some e)
            | none => q' >>= fun ys => pure ((y.1, ys.1), ys.2)
          else q' >>= fun ys => pure ((x, ys.1), ys.2)) := by
  rw [Dec.bind_assoc]
  refine (Dec.Both.refl readBool).bind (fun _ _ => .error _ _) (fun _ _ => .error _ _) fun b _ e => ?_
  cases e
  cases b with
  | true => exact field_then xs h h'
  | false => exact h'.bind (fun _ _ => .error _ _) (fun _ _ => .error _ _) fun _ _ hs => .pure _ _ ⟨hx, hs⟩

theorem runUnmarshal_both {code : Ty → Prop} {M : Methods} (hM : GoodUnmarshal code M) (hc : ∀ c, code (.chain c)) : (fs : Fields) → fs.All (ReadOk code) →
    Dec.Both fs.Same (runUnmarshal M fs fs.zero) (decodeFields chainDecoder fs none fs.zero)
  | .nil, _ => .pure _ _ trivial
  | .cons vis tag t fs, h => by
    obtain ⟨h1, h2⟩ := h
    have ih := runUnmarshal_both hM hc fs h2
    have hvis := h1.1
    subst hvis
    show Dec.Both (fun a b : t.Val × fs.Val => t.Same a.1 b.1 ∧ fs.Same a.2 b.2) (runUnmarshal M (.cons .exported tag t fs) ((t.zero, fs.zero) : t.Val × fs.Val)) (decodeFields chainDecoder (.cons .exported tag t fs) none ((t.zero, fs.zero) : t.Val × fs.Val))
    rw [runUnmarshal_cons, decodeFields_cons]
    cases tag with
    | none =>
      obtain ⟨f, hf, hr⟩ := fieldR_ok hM hc h1
      rw [hf]
      exact field_then fs.zero hr ih
    | optional =>
      obtain ⟨b, rfl⟩ := ptrR_ok h1
      obtain ⟨f, hf, hr⟩ := fieldR_ptr (M := M) b
      rw [show cgField (Ty.ptr (.basic b)).goString .optional = _ from cgField_ptr _ (plainName_basic b) .optional (.inr rfl)]
      cases (show cgField (Ty.ptr (.basic b)).goString .none = _ from cgField_ptr _ (plainName_basic b) .none (.inl rfl)).symm.trans hf
      simp only [genRead_ptr]
      rw [genRead_ptr, if_neg (by simp)] at hr
      exact optional_then (none : Option b.Val) _ fs.zero (show (Ty.ptr (.basic b)).Same none none from .inl ⟨rfl, rfl⟩) hr ih
    | _ => exact h1.2.elim

theorem chain_same_refl (c : ChainTy) (v : c.Val) : c.Same v v := by
  cases c <;> exact rfl

theorem generated_unmarshal (n : Nat) : GoodUnmarshal (HasCode ReadOk n) (generated n) := by
  have chain : ∀ c : ChainTy, Dec.Both (Ty.chain c).Same (c.unmarshal c.zero) (decode (.chain c) c.zero) := fun c =>
    Dec.Both.of_eq rfl (decode_chain c .decode (.inl rfl) _) ((Dec.Both.refl _).mono fun a _ h => h ▸ chain_same_refl c a)
  induction n with
  | zero =>
    refine ⟨code_kind _ _, fun u hu => ?_⟩
    cases u with
    | chain c => exact ⟨_, rfl, chain c⟩
    | _ => exact hu.elim
  | succ n ih =>
    refine ⟨code_kind _ _, fun u hu => ?_⟩
    cases u with
    | chain c => exact ⟨_, rfl, chain c⟩
    | struct fs => exact ⟨_, rfl, runUnmarshal_both ih (fun c => by cases n <;> exact trivial) fs hu⟩
    | _ => exact hu.elim

end Verif
