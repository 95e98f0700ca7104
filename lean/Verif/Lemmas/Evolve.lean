import Verif.Spec.Evolve
import Verif.Lemmas.CodegenRead
/-! Helper lemmas: structs that get further fields. -/
namespace Verif

theorem encodeFields_append (fn : EncFn) (gs : Fields) (y : gs.Val) : ∀ (fs : Fields) (x : fs.Val), encodeFields fn (fs.append gs) (fs.join gs x y) =
    encodeFields fn fs x >>= fun err => match err with
      | some e => pure (some e)
      | none => encodeFields fn gs y
  | .nil, _ => rfl
  | .cons vis tag t fs, (x, xs) => by
    have ih := encodeFields_append fn gs y fs xs
    show encodeField vis tag (t.isZero x) (encodeWith fn t x) (encodeFields fn (fs.append gs) (fs.join gs xs y)) =
      encodeField vis tag (t.isZero x) (encodeWith fn t x) (encodeFields fn fs xs) >>= _
    rw [ih]
    have key : ∀ one rest : Enc (Option Err), ∀ k : Option Err → Enc (Option Err), (∀ e, k (some e) = pure (some e)) →
        (one >>= fun r => match r with
          | some e => pure (some e)
          | none => rest >>= k) = ((one >>= fun r => match r with
          | some e => pure (some e)
          | none => rest) >>= k) := by
      intro one rest k hk
      rw [show ∀ f : Option Err → Enc (Option Err), ((one >>= f) >>= k) = one >>= fun x => f x >>= k from fun f => Enc.bind_assoc' _ _ _]
      congr 1
      funext r
      cases r with
      | none => rfl
      | some e => exact (hk e).symm
    unfold encodeField
    cases vis <;> cases tag <;> simp only [if_true, if_false, reduceCtorEq] <;> first
      | exact key _ _ _ (fun _ => rfl)
      | rfl
      | (refine Eq.trans ?_ (Enc.bind_assoc' _ _ _).symm
         show writeBool _ >>= _ = writeBool _ >>= _
         congr 1
         funext r
         cases t.isZero x <;> first | exact key _ _ _ (fun _ => rfl) | rfl)

theorem decodeFields_append (fn : DecFn) (gs : Fields) (y : gs.Val) : ∀ (fs : Fields) (x : fs.Val), fs.NoTail → decodeFields fn (fs.append gs) none (fs.join gs x y) =
    decodeFields fn fs none x >>= fun (xs, err) => match err with
      | some e => pure (fs.join gs xs y, some e)
      | none => decodeFields fn gs none y >>= fun (ys, err) => pure (fs.join gs xs ys, err)
  | .nil, _, _ => by
    show decodeFields fn gs none y = decodeFields fn gs none y >>= fun (ys, err) => pure (ys, err)
    exact (Dec.bind_ret _).symm
  | .cons vis tag t fs, (x, xs), h => by
    have ih := decodeFields_append fn gs y fs xs h.2
    have hx := h.1
    show decodeField vis tag x (t.alloc x) t.zero (fun mode => decodeWith fn t mode (t.alloc x)) (fs.join gs xs y) none (fun err => decodeFields fn (fs.append gs) err (fs.join gs xs y)) =
      decodeField vis tag x (t.alloc x) t.zero (fun mode => decodeWith fn t mode (t.alloc x)) xs none (fun err => decodeFields fn fs err xs) >>= _
    have next : ∀ z : t.Val, (decodeFields fn (fs.append gs) none (fs.join gs xs y) >>= fun (ys, err) => (pure ((z, ys), err) : Dec ((t.Val × (fs.append gs).Val) × Option Err))) =
        ((decodeFields fn fs none xs >>= fun (ys, err) => (pure ((z, ys), err) : Dec ((t.Val × fs.Val) × Option Err))) >>= fun (p, err) => match err with
          | some e => pure ((p.1, fs.join gs p.2 y), some e)
          | none => decodeFields fn gs none y >>= fun (ys, err) => pure ((p.1, fs.join gs p.2 ys), err)) := by
      intro z
      rw [ih, Dec.bind_assoc, Dec.bind_assoc]
      congr 1
      funext ⟨ys, err⟩
      cases err with
      | some e => rfl
      | none =>
        show (decodeFields fn gs none y >>= _) >>= _ = decodeFields fn gs none y >>= _
        rw [Dec.bind_assoc]
        rfl
    have one : ∀ p : Dec (t.Val × Option Err),
        (p >>= fun (z, err) => match err with
          | some e => (pure ((z, fs.join gs xs y), some e) : Dec ((t.Val × (fs.append gs).Val) × Option Err))
          | none => decodeFields fn (fs.append gs) none (fs.join gs xs y) >>= fun (ys, err) => pure ((z, ys), err)) =
        ((p >>= fun (z, err) => match err with
          | some e => (pure ((z, xs), some e) : Dec ((t.Val × fs.Val) × Option Err))
          | none => decodeFields fn fs none xs >>= fun (ys, err) => pure ((z, ys), err)) >>= fun (p, err) => match err with
          | some e => pure ((p.1, fs.join gs p.2 y), some e)
          | none => decodeFields fn gs none y >>= fun (ys, err) => pure ((p.1, fs.join gs p.2 ys), err)) := by
      intro p
      rw [Dec.bind_assoc]
      congr 1
      funext ⟨z, err⟩
      cases err with
      | some e => rfl
      | none => exact next z
    unfold decodeField
    cases vis with
    | blank => exact next x
    | unexported => rfl
    | exported =>
      cases tag with
      | none => exact one _
      | extension => exact absurd rfl (hx rfl)
      | optional =>
        refine Eq.trans ?_ (Dec.bind_assoc _ _ _).symm
        show readBool >>= _ = readBool >>= _
        congr 1
        funext ⟨b, err⟩
        cases err with
        | some e => rfl
        | none =>
          cases b with
          | true => exact one _
          | false => exact next _
      | variant =>
        refine Eq.trans ?_ (Dec.bind_assoc _ _ _).symm
        show readByte >>= _ = readByte >>= _
        congr 1
        funext ⟨b, err⟩
        cases err with
        | some e => rfl
        | none => exact one _

/-- What clear does to the first field -/
def clearFirst (vis : Vis) (t : Ty) (idx : Option Nat) (x : t.Val) : Option t.Val :=
  if idx = some 0 then some x
  else match t.isNil x with
    | none => none
    | some true => some x
    | some false => if vis = .exported then some t.zero else none

theorem clear_first (vis : Vis) (tag : Tag) (t : Ty) (fs : Fields) (idx : Option Nat) (v : (Fields.cons vis tag t fs).Val) : (Fields.cons vis tag t fs).clear idx v =
    (match clearFirst vis t idx (show t.Val × fs.Val from v).1, fs.clear (match idx with
      | some (n + 1) => some n
      | _ => none) (show t.Val × fs.Val from v).2 with
    | some x, some xs => some (x, xs)
    | _, _ => none : Option (t.Val × fs.Val)) := by
  rw [Fields.clear.eq_def]
  rfl

theorem clear_append (gs : Fields) (y : gs.Val) : ∀ (fs : Fields) (idx : Option Nat) (x : fs.Val), (∀ i, idx = some i → i < fs.count) → (fs.append gs).clear idx (fs.join gs x y) =
    match fs.clear idx x, gs.clear none y with
    | some x, some y => some (fs.join gs x y)
    | _, _ => none
  | .nil, idx, x, h => by
    have : idx = none := by
      cases idx with
      | none => rfl
      | some i => exact absurd (h i rfl) (by simp [Fields.count])
    subst this
    have h0 : Fields.nil.clear none x = some () := by unfold Fields.clear; rfl
    show gs.clear none y = _
    rw [h0]
    cases gs.clear none y <;> rfl
  | .cons vis tag t fs, idx, v, h => by
    have ih := fun idx' h' => clear_append gs y fs idx' (show t.Val × fs.Val from v).2 h'
    have hi : ∀ i, (match idx with
      | some (n + 1) => some n
      | _ => none : Option Nat) = some i → i < fs.count := by
      intro i hi
      match idx with
      | none => cases hi
      | some 0 => cases hi
      | some (n + 1) =>
        cases hi
        have := h _ rfl
        simp only [Fields.count] at this
        omega
    have ih := ih _ hi
    have h1 := clear_first vis tag t (fs.append gs) idx ((Fields.cons vis tag t fs).join gs v y)
    dsimp only [Fields.join] at h1
    rw [ih] at h1
    refine h1.trans ?_
    rw [clear_first vis tag t fs idx v]
    generalize clearFirst vis t idx _ = p
    generalize fs.clear _ _ = q
    cases p <;> cases q <;> cases gs.clear none y <;> rfl

theorem member_append (fn : DecFn) (gs : Fields) (y : gs.Val) : ∀ (fs : Fields) (i : Nat) (x : fs.Val), i < fs.count →
    decodeMember fn (fs.append gs) i (fs.join gs x y) = decodeMember fn fs i x >>= fun (xs, err) => pure (fs.join gs xs y, err)
  | .nil, i, _, h => absurd h (by simp [Fields.count])
  | .cons vis tag t fs, 0, (x, xs), _ => by
    refine Eq.trans ?_ (Dec.bind_assoc _ _ _).symm
    show (decodeWith fn t .member x >>= _) = decodeWith fn t .member x >>= _
    congr 1
    funext ⟨z, err⟩
    cases err with
    | some e => rfl
    | none => cases vis <;> rfl
  | .cons vis tag t fs, i + 1, (x, xs), h => by
    have ih := member_append fn gs y fs i xs (by simp only [Fields.count] at h; omega)
    refine Eq.trans ?_ (Dec.bind_assoc _ _ _).symm
    show (decodeMember fn (fs.append gs) i (fs.join gs xs y) >>= _) = decodeMember fn fs i xs >>= _
    rw [ih]
    refine (Dec.bind_assoc _ _ _).trans ?_
    rfl

theorem count_append (gs : Fields) : ∀ fs : Fields, (fs.append gs).count = fs.count + gs.count
  | .nil => by simp [Fields.append, Fields.count]
  | .cons _ _ _ fs => by simp only [Fields.append, Fields.count, count_append gs fs]; omega

theorem join_inj : ∀ (fs gs : Fields) (x : fs.Val) (y z : gs.Val), fs.join gs x y = fs.join gs x z → y = z
  | .nil, _, _, _, _, h => h
  | .cons _ _ t fs, gs, x, y, z, h => by
    have h : ((show t.Val × fs.Val from x).1, fs.join gs (show t.Val × fs.Val from x).2 y) = ((show t.Val × fs.Val from x).1, fs.join gs (show t.Val × fs.Val from x).2 z) := h
    injection h with _ h
    exact join_inj fs gs _ y z h

/-- The outcome with another value -/
def Out.onFst {α β : Type} (f : α → β) : Out (α × Option Err) → Out (β × Option Err)
  | .ok (a, err) r => .ok (f a, err) r
  | .panic w => .panic w
  | .diverge => .diverge

theorem seq_run {α β γ : Type} (p : Dec (α × Option Err)) (q : Dec (β × Option Err)) (j : α → β → γ) (y : β) (fin : Err) (s : Bytes) (xs : α) (m : Bytes)
    (h : p.runE fin s = .ok (xs, none) m) :
    (p >>= fun (xs, err) => match err with
      | some e => (pure (j xs y, some e) : Dec (γ × Option Err))
      | none => q >>= fun (ys, err) => pure (j xs ys, err)).runE fin s = (q.runE fin m).onFst (j xs) := by
  rw [Dec.runE_bind, h]
  show (q >>= fun (ys, err) => (pure (j xs ys, err) : Dec (γ × Option Err))).runE fin m = _
  rw [Dec.runE_bind]
  cases q.runE fin m with
  | panic w => rfl
  | diverge => rfl
  | ok a r => rfl

theorem decodeFields_run (fs gs : Fields) (h : fs.NoTail) (x : fs.Val) (y : gs.Val) (fin : Err) (s : Bytes) (xs : fs.Val) (m : Bytes)
    (h1 : (decode (.struct fs) x).runE fin s = .ok (xs, none) m) :
    (decode (.struct (fs.append gs)) (fs.join gs x y)).runE fin s = ((decode (.struct gs) y).runE fin m).onFst (β := (Ty.struct (fs.append gs)).Val) (fs.join gs xs) :=
  (congrArg (fun p : Dec ((fs.append gs).Val × Option Err) => p.runE fin s) (decodeFields_append chainDecoder gs y fs x h)).trans (seq_run _ _ _ y fin s xs m h1)

/-- The alternative with index idx, in a struct -/
def variantOf (fs : Fields) (idx : Nat) (x : fs.Val) : Dec (fs.Val × Option Err) :=
  if idx ≥ fs.count then pure (x, some errVariantIndex)
  else match fs.clear (some idx) x with
    | none => .panic "reflect: call of reflect.Value.IsNil on a value that cannot be nil, or Set on an unexported field"
    | some cleared => decodeMember chainDecoder fs idx cleared

theorem variant_struct (fs : Fields) (idx : Nat) (x : fs.Val) : decodeWith chainDecoder (.struct fs) (.variant idx) x = variantOf fs idx x := rfl

theorem variantOf_append (fs gs : Fields) (idx : Nat) (hi : idx < fs.count) (x : fs.Val) (y y' : gs.Val) (hy : gs.clear none y = some y') :
    variantOf (fs.append gs) idx (fs.join gs x y) = variantOf fs idx x >>= fun (xs, err) => pure (fs.join gs xs y', err) := by
  unfold variantOf
  rw [if_neg (by rw [count_append]; omega), if_neg (by omega), clear_append gs y fs (some idx) x (fun i h => by cases h; exact hi), hy]
  cases fs.clear (some idx) x with
  | none => rfl
  | some x' => exact member_append chainDecoder gs y' fs idx x' hi

theorem variantOf_past (fs : Fields) (idx : Nat) (hi : fs.count ≤ idx) (x : fs.Val) : variantOf fs idx x = pure (x, some errVariantIndex) := by
  unfold variantOf
  rw [if_pos hi]

end Verif
