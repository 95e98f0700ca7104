import Verif.Lemmas.Recursive
import Verif.Lemmas.ReflectOverwrite
/-! # Unfolding a recursive type once more changes nothing -/
namespace Verif

/-- What is put in the place of references: a struct, or a reference still. -/
def Ty.Closed : Ty → Prop
  | .struct _ | .ref _ _ _ => True
  | _ => False

theorem Closed.alloc {t : Ty} (h : t.Closed) (v : t.Val) : t.alloc v = v := by cases t <;> first | rfl | exact h.elim
theorem Closed.isNil {t : Ty} (h : t.Closed) (v : t.Val) : t.isNil v = none := by cases t <;> first | rfl | exact h.elim

/-- The values f goes between agree. -/
structure RefSim (D : Decls) (σ τ : Nat → Nat → Nat → Ty) (f : ∀ i s a, (σ i s a).Val → (τ i s a).Val) : Prop where
  left : ∀ i s a, (σ i s a).Closed
  right : ∀ i s a, (τ i s a).Closed
  zero : ∀ i s a, f i s a (σ i s a).zero = (τ i s a).zero
  inj : ∀ i s a x y, f i s a x = f i s a y → x = y
  layout : ∀ i s a, (D i).layout 0 1 = (s, a) → (σ i s a).layout = (τ i s a).layout
  dec : ∀ i s a, (D i).layout 0 1 = (s, a) → ∀ m old, (decodeWith chainDecoder (σ i s a) m old).Below (onVal (f i s a)) (decodeWith chainDecoder (τ i s a) m (f i s a old))
  enc : ∀ i s a, (D i).layout 0 1 = (s, a) → ∀ v, (encodeWith chainEncoder (σ i s a) v).Below (encodeWith chainEncoder (τ i s a) (f i s a v))

variable {D : Decls} {σ τ : Nat → Nat → Nat → Ty} {f : ∀ i s a, (σ i s a).Val → (τ i s a).Val}

mutual
theorem zero_mapRefs (h : ∀ i s a, f i s a (σ i s a).zero = (τ i s a).zero) : (t : Ty) → t.mapRefs f (t.subst σ).zero = (t.subst τ).zero
  | .basic _ => rfl
  | .named _ => rfl
  | .unsupported => rfl
  | .bytes => rfl
  | .chain _ => rfl
  | .ptr _ => rfl
  | .slice _ => rfl
  | .array n t => by
    show List.map (Ty.mapRefs f t) (List.replicate n (t.subst σ).zero) = List.replicate n (t.subst τ).zero
    rw [List.map_replicate, zero_mapRefs h t]
  | .map _ _ => rfl
  | .struct fs => zeroFields_mapRefs h fs
  | .ref i s a => h i s a
theorem zeroFields_mapRefs (h : ∀ i s a, f i s a (σ i s a).zero = (τ i s a).zero) : (fs : Fields) → fs.mapRefs f (fs.subst σ).zero = (fs.subst τ).zero
  | .nil => rfl
  | .cons _ _ t fs => Prod.ext (zero_mapRefs h t) (zeroFields_mapRefs h fs)
end

theorem option_map_inj {α β : Type} {g : α → β} (h : ∀ x y, g x = g y → x = y) : ∀ x y : Option α, x.map g = y.map g → x = y
  | none, none, _ => rfl
  | some x, some y, e => congrArg some (h _ _ (Option.some.inj e))

theorem list_map_inj {α β : Type} {g : α → β} (h : ∀ x y, g x = g y → x = y) : ∀ x y : List α, x.map g = y.map g → x = y
  | [], [], _ => rfl
  | x :: xs, y :: ys, e => by
    have e := List.cons.inj e
    rw [h _ _ e.1, list_map_inj h _ _ e.2]

mutual
theorem inj_mapRefs (h : ∀ i s a x y, f i s a x = f i s a y → x = y) : (t : Ty) → ∀ x y, t.mapRefs f x = t.mapRefs f y → x = y
  | .basic _ => fun _ _ e => e
  | .named _ => fun _ _ e => e
  | .unsupported => fun _ _ e => e
  | .bytes => fun _ _ e => e
  | .chain _ => fun _ _ e => e
  | .ptr t => option_map_inj (inj_mapRefs h t)
  | .slice t => option_map_inj (list_map_inj (inj_mapRefs h t))
  | .array n t => list_map_inj (inj_mapRefs h t)
  | .map k t => option_map_inj (list_map_inj fun x y e => Prod.ext (congrArg (fun p : k.Val × (t.subst τ).Val => p.1) e) (inj_mapRefs h t _ _ (congrArg (fun p : k.Val × (t.subst τ).Val => p.2) e)))
  | .struct fs => injFields_mapRefs h fs
  | .ref i s a => h i s a
theorem injFields_mapRefs (h : ∀ i s a x y, f i s a x = f i s a y → x = y) : (fs : Fields) → ∀ x y, fs.mapRefs f x = fs.mapRefs f y → x = y
  | .nil => fun _ _ e => e
  | .cons _ _ t fs => fun x y e => Prod.ext (inj_mapRefs h t _ _ (congrArg (fun p : (t.subst τ).Val × (fs.subst τ).Val => p.1) e))
      (injFields_mapRefs h fs _ _ (congrArg (fun p : (t.subst τ).Val × (fs.subst τ).Val => p.2) e))
end

mutual
theorem layout_subst (h : ∀ i s a, (D i).layout 0 1 = (s, a) → (σ i s a).layout = (τ i s a).layout) : (t : Ty) → t.RefsOk D → (t.subst σ).layout = (t.subst τ).layout
  | .basic _, _ => rfl
  | .named _, _ => rfl
  | .unsupported, _ => rfl
  | .bytes, _ => rfl
  | .chain _, _ => rfl
  | .ptr _, _ => rfl
  | .slice _, _ => rfl
  | .array n t, hr => by
    show (n * (t.subst σ).layout.1, (t.subst σ).layout.2) = (n * (t.subst τ).layout.1, (t.subst τ).layout.2)
    rw [layout_subst h t hr]
  | .map _ _, _ => rfl
  | .struct fs, hr => layoutFields_subst h fs hr 0 1
  | .ref i s a, hr => h i s a hr
theorem layoutFields_subst (h : ∀ i s a, (D i).layout 0 1 = (s, a) → (σ i s a).layout = (τ i s a).layout) : (fs : Fields) → fs.RefsOk D → ∀ off al,
    (fs.subst σ).layout off al = (fs.subst τ).layout off al
  | .nil, _, _, _ => rfl
  | .cons _ _ t .nil, hr, off, al => by
    simp only [Fields.subst, Fields.layout]
    rw [layout_subst h t hr.1]
  | .cons _ _ t (.cons v g u fs), hr, off, al => by
    have ih := layoutFields_subst h (.cons v g u fs) hr.2
    simp only [Fields.subst] at ih
    simp only [Fields.subst]
    rw [Fields.layout, Fields.layout, layout_subst h t hr.1]
    exact ih _ _
end

theorem isZero_mapRefs (hs : RefSim D σ τ f) (t : Ty) (v : (t.subst σ).Val) : (t.subst τ).isZero (t.mapRefs f v) = (t.subst σ).isZero v := by
  unfold Ty.isZero
  rw [← zero_mapRefs hs.zero t]
  exact decide_eq_decide.mpr ⟨inj_mapRefs hs.inj t _ _, congrArg _⟩

theorem alloc_mapRefs (hs : RefSim D σ τ f) (t : Ty) (v : (t.subst σ).Val) : (t.subst τ).alloc (t.mapRefs f v) = t.mapRefs f ((t.subst σ).alloc v) := by
  cases t with
  | ptr t =>
    show (some (Option.getD (Option.map (Ty.mapRefs f t) (show Option (t.subst σ).Val from v)) (t.subst τ).zero) : Option (t.subst τ).Val) = some (Ty.mapRefs f t (Option.getD (show Option (t.subst σ).Val from v) (t.subst σ).zero))
    rw [← zero_mapRefs hs.zero t]
    congr 1
    cases (show Option (t.subst σ).Val from v) <;> rfl
  | ref i s a =>
    exact (Closed.alloc (hs.right i s a) _).trans (congrArg (f i s a) (Closed.alloc (hs.left i s a) v).symm)
  | _ => rfl

theorem isNil_mapRefs (hs : RefSim D σ τ f) (t : Ty) (v : (t.subst σ).Val) : (t.subst τ).isNil (t.mapRefs f v) = (t.subst σ).isNil v := by
  cases t with
  | ptr t => exact congrArg some (Option.isNone_map ..)
  | slice t => exact congrArg some (Option.isNone_map ..)
  | map k e => exact congrArg some (Option.isNone_map ..)
  | ref i s a => exact (Closed.isNil (hs.right i s a) _).trans (Closed.isNil (hs.left i s a) _).symm
  | chain c => cases c <;> rfl
  | _ => rfl

theorem clearOne_mapRefs (hs : RefSim D σ τ f) (vis : Vis) (t : Ty) (x : (t.subst σ).Val) :
    clearOne vis (t.subst τ) (t.mapRefs f x) = (clearOne vis (t.subst σ) x).map (t.mapRefs f) := by
  unfold clearOne
  rw [isNil_mapRefs hs t, ← zero_mapRefs hs.zero t]
  cases (t.subst σ).isNil x with
  | none => rfl
  | some b =>
    cases b
    · dsimp only
      split <;> rfl
    · rfl

theorem clear_mapRefs (hs : RefSim D σ τ f) : (fs : Fields) → (idx : Option Nat) → (v : (fs.subst σ).Val) →
    (fs.subst τ).clear idx (fs.mapRefs f v) = ((fs.subst σ).clear idx v).map (fs.mapRefs f)
  | .nil, _, _ => rfl
  | .cons vis tag t fs, idx, v => by
    have ih := clear_mapRefs hs fs
    obtain ⟨x, xs⟩ : (t.subst σ).Val × (fs.subst σ).Val := v
    refine (clear_consEq vis tag (t.subst τ) (fs.subst τ) idx (t.mapRefs f x) (fs.mapRefs f xs)).trans
      (Eq.trans ?_ (congrArg (Option.map (Fields.mapRefs f (.cons vis tag t fs))) (clear_consEq vis tag (t.subst σ) (fs.subst σ) idx x xs).symm))
    rw [ih, clearOne_mapRefs hs]
    by_cases h : idx = some 0
    · rw [if_pos h, if_pos h]
      cases (fs.subst σ).clear _ xs <;> rfl
    · rw [if_neg h, if_neg h]
      cases clearOne vis (t.subst σ) x <;> cases (fs.subst σ).clear _ xs <;> rfl

theorem count_subst : (fs : Fields) → (fs.subst σ).count = fs.count
  | .nil => rfl
  | .cons _ _ _ fs => congrArg (· + 1) (count_subst fs)

theorem via_below {t t' : Ty} (ht : t.isChain = false) (ht' : t'.isChain = false) {g : t.Val → t'.Val} (mode : Mode) (old : t.Val)
    {fast slow : t.Val → Dec (t.Val × Option Err)} {fast' slow' : t'.Val → Dec (t'.Val × Option Err)}
    (hf : ∀ x, (fast x).Below (onVal g) (fast' (g x))) (hs : ∀ x, (slow x).Below (onVal g) (slow' (g x))) :
    (viaDecFn chainDecoder t mode old fast slow).Below (onVal g) (viaDecFn chainDecoder t' mode (g old) fast' slow') := by
  cases mode with
  | value => exact hs old
  | variant _ => exact .pure _ _ rfl
  | member => exact .pure _ _ rfl
  | decode => unfold viaDecFn; rw [chainDecoder_else t ht, chainDecoder_else t' ht']; exact hf old
  | elem => unfold viaDecFn; rw [chainDecoder_else t ht, chainDecoder_else t' ht']; exact hf old

theorem below_ite {α β : Type} {g : α → β} {c : Prop} [Decidable c] {p q : Dec α} {p' q' : Dec β} (h1 : c → p.Below g p') (h2 : ¬ c → q.Below g q') :
    (if c then p else q).Below g (if c then p' else q') := by
  split
  · exact h1 ‹_›
  · exact h2 ‹_›

theorem Dec.Below.of_id {α : Type} (p : Dec (α × Option Err)) : p.Below (onVal id) p := .refl p

mutual
theorem decode_below (hs : RefSim D σ τ f) : (t : Ty) → t.RefsOk D → (m : Mode) → (old : (t.subst σ).Val) →
    (decodeWith chainDecoder (t.subst σ) m old).Below (onVal (t.mapRefs f)) (decodeWith chainDecoder (t.subst τ) m (t.mapRefs f old))
  | .basic _, _, _, _ => .of_id _
  | .named _, _, _, _ => .of_id _
  | .unsupported, _, _, _ => .of_id _
  | .bytes, _, _, _ => .of_id _
  | .chain _, _, _, _ => .of_id _
  | .ptr t, hr, m, old => by
    have ih := decode_below hs t hr
    have hz : Option.getD (Option.map (t.mapRefs f) (show Option (t.subst σ).Val from old)) (t.subst τ).zero = t.mapRefs f (Option.getD (show Option (t.subst σ).Val from old) (t.subst σ).zero) := by
      rw [← zero_mapRefs hs.zero t]
      cases (show Option (t.subst σ).Val from old) <;> rfl
    have slow : ∀ m (x : Option (t.subst σ).Val), Dec.Below (onVal (Option.map (t.mapRefs f)))
        (do let (x, err) ← decodeWith chainDecoder (t.subst σ) m (x.getD (t.subst σ).zero); Pure.pure ((some x : Option (t.subst σ).Val), err))
        (do let (x, err) ← decodeWith chainDecoder (t.subst τ) m ((x.map (t.mapRefs f)).getD (t.subst τ).zero); Pure.pure ((some x : Option (t.subst τ).Val), err)) := by
      intro m x
      have hz : Option.getD (Option.map (t.mapRefs f) x) (t.subst τ).zero = t.mapRefs f (Option.getD x (t.subst σ).zero) := by
        rw [← zero_mapRefs hs.zero t]
        cases x <;> rfl
      rw [hz]
      exact (ih m _).bind fun _ => .pure _ _ rfl
    cases m with
    | elem => exact slow .decode old
    | «variant» i => exact slow (.variant i) old
    | member =>
      have h := ih .decode (t.subst σ).zero
      rw [zero_mapRefs hs.zero t] at h
      exact h.try (fun _ e => .pure _ _ rfl) fun _ => .pure _ _ rfl
    | decode => exact slow .value old
    | value => exact slow .value old
  | .slice t, hr, m, old => by
    have ih := decodeSlice_below (t.subst σ).zero (t.subst τ).zero (zero_mapRefs hs.zero t) (t.subst σ).size (decode_below hs t hr .elem)
    rw [show (t.subst σ).size = (t.subst τ).size from congrArg Prod.fst (layout_subst hs.layout t hr)] at ih
    refine via_below (t := .slice (t.subst σ)) (t' := .slice (t.subst τ)) rfl rfl m old ?_ ?_
    all_goals
      rw [show (t.subst σ).size = (t.subst τ).size from congrArg Prod.fst (layout_subst hs.layout t hr)]
      exact ih
  | .array n t, hr, m, old => via_below (t := .array n (t.subst σ)) (t' := .array n (t.subst τ)) rfl rfl m old (decEach_below (decode_below hs t hr .elem)) (decEach_below (decode_below hs t hr .elem))
  | .map k e, hr, m, old => by
    have ih := decode_below hs e hr.2 .decode (e.subst σ).zero
    rw [zero_mapRefs hs.zero e] at ih
    exact via_below (t := .map k (e.subst σ)) (t' := .map k (e.subst τ)) rfl rfl m old (decodeMap_below _ ih) (decodeMap_below _ ih)
  | .struct fs, hr, m, old => by
    cases m with
    | «variant» i =>
      show Dec.Below _ (if i ≥ (fs.subst σ).count then _ else _) (if i ≥ (fs.subst τ).count then _ else _)
      rw [count_subst, count_subst]
      refine below_ite (fun _ => .pure _ _ rfl) fun _ => ?_
      have e := clear_mapRefs hs fs (some i) old
      change (fs.subst τ).clear (some i) ((Ty.struct fs).mapRefs f old) = ((fs.subst σ).clear (some i) old).map (fs.mapRefs f) at e
      generalize (fs.subst τ).clear (some i) ((Ty.struct fs).mapRefs f old) = o' at e
      generalize (fs.subst σ).clear (some i) old = o at e
      subst e
      cases o with
      | none => exact rfl
      | some c => exact member_below hs fs hr i c
    | decode => exact via_below (t := .struct (fs.subst σ)) (t' := .struct (fs.subst τ)) rfl rfl .decode old (fields_below hs fs hr none) (fields_below hs fs hr none)
    | elem => exact via_below (t := .struct (fs.subst σ)) (t' := .struct (fs.subst τ)) rfl rfl .elem old (fields_below hs fs hr none) (fields_below hs fs hr none)
    | value => exact via_below (t := .struct (fs.subst σ)) (t' := .struct (fs.subst τ)) rfl rfl .value old (fields_below hs fs hr none) (fields_below hs fs hr none)
    | member => exact via_below (t := .struct (fs.subst σ)) (t' := .struct (fs.subst τ)) rfl rfl .member old (fields_below hs fs hr none) (fields_below hs fs hr none)
  | .ref i s a, hr, m, old => hs.dec i s a hr m old
theorem fields_below (hs : RefSim D σ τ f) : (fs : Fields) → fs.RefsOk D → (err : Option Err) → (old : (fs.subst σ).Val) →
    (decodeFields chainDecoder (fs.subst σ) err old).Below (onVal (fs.mapRefs f)) (decodeFields chainDecoder (fs.subst τ) err (fs.mapRefs f old))
  | .nil, _, _, _ => .of_id _
  | .cons vis tag t fs, hr, err, old => by
    obtain ⟨x, xs⟩ : (t.subst σ).Val × (fs.subst σ).Val := old
    have h := decodeField_below (f := t.mapRefs f) (g := fs.mapRefs f) vis tag x ((t.subst σ).alloc x) (t.subst σ).zero xs err
      (rest := fun err => decodeFields chainDecoder (fs.subst σ) err xs) (rest' := fun err => decodeFields chainDecoder (fs.subst τ) err (fs.mapRefs f xs))
      (fun m => decode_below hs t hr.1 m ((t.subst σ).alloc x)) (fun err => fields_below hs fs hr.2 err xs)
    rw [zero_mapRefs hs.zero t] at h
    simp only [← alloc_mapRefs hs t x] at h
    exact h
theorem member_below (hs : RefSim D σ τ f) : (fs : Fields) → fs.RefsOk D → (n : Nat) → (old : (fs.subst σ).Val) →
    (decodeMember chainDecoder (fs.subst σ) n old).Below (onVal (fs.mapRefs f)) (decodeMember chainDecoder (fs.subst τ) n (fs.mapRefs f old))
  | .nil, _, _, _ => .pure _ _ rfl
  | .cons vis tag t fs, hr, 0, old => by
    refine (decode_below hs t hr.1 .member _).try (fun _ e => .pure _ _ rfl) fun y => ?_
    dsimp only
    split
    · exact .pure _ _ rfl
    · exact rfl
  | .cons vis tag t fs, hr, n + 1, old => (member_below hs fs hr.2 n _).bind fun _ => .pure _ _ rfl
end

theorem Enc.Below.of_eq' {α : Type} {p p' q q' : Enc α} (h1 : p = p') (h2 : q = q') (h : p'.Below q') : p.Below q := h1 ▸ h2 ▸ h

theorem encode_ptr {t : Ty} (h : t.Closed) (v : Option t.Val) : encodeWith chainEncoder (.ptr t) v = match v with
    | none => pure (some errNilPtr)
    | some x => encodeWith chainEncoder t x := by
  cases t with
  | struct fs => cases v <;> rfl
  | ref i s a => cases v <;> rfl
  | _ => exact h.elim

mutual
theorem encode_below (hs : RefSim D σ τ f) : (t : Ty) → t.RefsOk D → (v : (t.subst σ).Val) →
    (encodeWith chainEncoder (t.subst σ) v).Below (encodeWith chainEncoder (t.subst τ) (t.mapRefs f v))
  | .basic _, _, _ => .refl _
  | .named _, _, _ => .refl _
  | .unsupported, _, _ => .refl _
  | .bytes, _, _ => .refl _
  | .chain _, _, _ => .refl _
  | .ptr t, hr, v => by
    have ih := encode_below hs t hr
    cases t with
    | chain c => cases v <;> exact .refl _
    | ref i s a =>
      have hl := hs.left i s a
      have hr := hs.right i s a
      refine Enc.Below.of_eq' (encode_ptr hl v) (encode_ptr hr _) ?_
      cases (show Option (σ i s a).Val from v) with
      | none => exact .refl _
      | some x => exact ih x
    | _ =>
      cases v with
      | none => exact .refl _
      | some x => exact ih x
  | .slice t, hr, v => by
    refine Enc.Below.bind (p := writeVaruint (Option.getD (α := List (t.subst σ).Val) v []).length.toUInt64)
      (p' := writeVaruint (Option.getD (α := List (t.subst τ).Val) (Option.map (List.map (t.mapRefs f)) v) []).length.toUInt64) (.of_eq ?_) ?_
    · cases v with
      | none => rfl
      | some xs => simp
    · rintro (_ | e)
      · have := encEach_below (pure none) (encode_below hs t hr) (Option.getD (α := List (t.subst σ).Val) v [])
        cases v <;> exact this
      · exact .refl _
  | .array n t, hr, v => encEach_below _ (encode_below hs t hr) _
  | .map k e, hr, v => by
    refine Enc.Below.bind (p := writeVaruint (Option.getD (α := List (k.Val × (e.subst σ).Val)) v []).length.toUInt64)
      (p' := writeVaruint (Option.getD (α := List (k.Val × (e.subst τ).Val)) (Option.map (List.map fun x : k.Val × (e.subst σ).Val => (x.1, e.mapRefs f x.2)) v) []).length.toUInt64) (.of_eq ?_) ?_
    · cases v with
      | none => rfl
      | some xs => simp
    · rintro (_ | err)
      · have one : ∀ x : k.Val × (e.subst σ).Val, Enc.Below (do match ← encodeWith chainEncoder k x.1 with | some err => pure (some err) | none => encodeWith chainEncoder (e.subst σ) x.2)
            (do match ← encodeWith chainEncoder k x.1 with | some err => pure (some err) | none => encodeWith chainEncoder (e.subst τ) (e.mapRefs f x.2)) := by
          intro x
          refine (Enc.Below.refl _).bind ?_
          rintro (_ | err)
          · exact encode_below hs e hr.2 x.2
          · exact .refl _
        have := encEach_below (f := fun x : k.Val × (e.subst σ).Val => (x.1, e.mapRefs f x.2))
          (d' := fun x : k.Val × (e.subst τ).Val => do match ← encodeWith chainEncoder k x.1 with | some err => pure (some err) | none => encodeWith chainEncoder (e.subst τ) x.2)
          (pure none) one (Option.getD (α := List (k.Val × (e.subst σ).Val)) v [])
        cases v <;> exact this
      · exact .refl _
  | .struct fs, hr, v => encodeFields_below hs fs hr v
  | .ref i s a, hr, v => hs.enc i s a hr v
theorem encodeFields_below (hs : RefSim D σ τ f) : (fs : Fields) → fs.RefsOk D → (v : (fs.subst σ).Val) →
    (encodeFields chainEncoder (fs.subst σ) v).Below (encodeFields chainEncoder (fs.subst τ) (fs.mapRefs f v))
  | .nil, _, _ => .refl _
  | .cons vis tag t fs, hr, v => by
    obtain ⟨x, xs⟩ : (t.subst σ).Val × (fs.subst σ).Val := v
    exact encodeField_below vis tag _ _ (isZero_mapRefs hs t x) (encode_below hs t hr.1 x) (encodeFields_below hs fs hr.2 xs)
end

end Verif
