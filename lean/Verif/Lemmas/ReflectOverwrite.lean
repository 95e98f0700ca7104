import Verif.Spec.ReflectOverwrite
import Verif.Lemmas.Reflect
import Verif.Lemmas.ReflectStrict
import Verif.Props.Overwrite
import Verif.Props.Bench
/-! Helper lemmas: decoding by reflection into a variable in use. -/
namespace Verif

/-- The same error, or related values -/
def Over {α : Type} (R : α → α → Prop) (p q : Dec (α × Option Err)) : Prop :=
  ∀ fin bs, SameRun (fun _ x y => x.2 = y.2 ∧ (x.2 = none → R x.1 y.1)) (p.runE fin bs) (q.runE fin bs)

theorem Over.refl {α : Type} {R : α → α → Prop} (hR : ∀ a, R a a) (p : Dec (α × Option Err)) : Over R p p :=
  fun _ _ => (SameRun.refl _).mono fun _ a b h => h ▸ ⟨rfl, fun _ => hR _⟩
theorem Over.mono {α : Type} {R S : α → α → Prop} {p q : Dec (α × Option Err)} (h : Over R p q) (hs : ∀ a b, R a b → S a b) : Over S p q :=
  fun fin bs => (h fin bs).mono fun _ _ _ h => ⟨h.1, fun e => hs _ _ (h.2 e)⟩
theorem Over.fail {α : Type} {R : α → α → Prop} (a b : α) (e : Err) : Over R (pure (a, some e)) (pure (b, some e)) := fun _ _ => SameRun.pure ⟨rfl, fun h => nomatch h⟩
theorem Over.ok {α : Type} {R : α → α → Prop} {a b : α} (h : R a b) (e : Option Err) : Over R (pure (a, e)) (pure (b, e)) := fun _ _ => SameRun.pure ⟨rfl, fun _ => h⟩
theorem Over.panic {α : Type} {R : α → α → Prop} (w : String) : Over R (Dec.panic w) (Dec.panic w) := fun _ _ => rfl
theorem Over.bind {α β : Type} {R : α → α → Prop} {S : β → β → Prop} {p q : Dec (α × Option Err)} {f g : α × Option Err → Dec (β × Option Err)} (h : Over R p q)
    (he : ∀ a b e, Over S (f (a, some e)) (g (b, some e))) (hf : ∀ a b, R a b → Over S (f (a, none)) (g (b, none))) : Over S (p >>= f) (q >>= g) := by
  intro fin bs
  refine SameRun.bind (h fin bs) ?_
  rintro ⟨a, e⟩ ⟨b, e'⟩ r ⟨h1, h2⟩
  dsimp only at h1 h2
  subst h1
  cases e with
  | some e => exact he a b e fin r
  | none => exact hf a b (h2 rfl) fin r
theorem Over.step {α β : Type} {S : β → β → Prop} {p : Dec α} {f g : α → Dec (β × Option Err)} (hf : ∀ a, Over S (f a) (g a)) : Over S (p >>= f) (p >>= g) :=
  fun fin _ => SameRun.step fun a r => hf a fin r
theorem Over.of_eq {α : Type} {R : α → α → Prop} {p p' q q' : Dec (α × Option Err)} (hp : p = p') (hq : q = q') (h : Over R p' q') : Over R p q := hp ▸ hq ▸ h

theorem over_each {α : Type} {R : α → α → Prop} {dec : α → Dec (α × Option Err)} {xs ys : List α} (hl : xs.length = ys.length) (h : ∀ x ∈ xs, ∀ y ∈ ys, Over R (dec x) (dec y)) :
    Over (fun a b => Forall2 R a b ∧ a.length = xs.length) (decEach dec xs) (decEach dec ys) := by
  induction xs generalizing ys with
  | nil => cases ys with
    | nil => exact .ok ⟨.nil, rfl⟩ none
    | cons y ys => cases hl
  | cons x xs ih => cases ys with
    | nil => cases hl
    | cons y ys =>
      refine (h x (by simp) y (by simp)).bind (fun _ _ e => .fail _ _ e) fun a b hr => ?_
      exact (ih (by simpa using hl) fun x hx y hy => h x (by simp [hx]) y (by simp [hy])).bind (fun _ _ e => .fail _ _ e) fun _ _ hs => .ok ⟨.cons hr hs.1, by simp [hs.2]⟩ none

theorem forall2_self {α : Type} {R : α → α → Prop} (h : ∀ a, R a a) (xs : List α) : Forall2 R xs xs := by
  induction xs with
  | nil => exact .nil
  | cons x xs ih => exact .cons (h x) ih

mutual
theorem agree_refl : (t : Ty) → (v : t.Val) → t.Agree v v
  | .basic _, _ => rfl
  | .named _, _ => rfl
  | .unsupported, _ => rfl
  | .ref _ _ _, _ => rfl
  | .bytes, _ => rfl
  | .chain _, _ => rfl
  | .ptr t, v => by
    match v with
    | none => exact .inl ⟨rfl, rfl⟩
    | some x => exact .inr ⟨x, x, rfl, rfl, agree_refl t x⟩
  | .slice t, v => forall2_self (agree_refl t) _
  | .array _ t, v => forall2_self (agree_refl t) _
  | .map _ _, _ => rfl
  | .struct fs, v => agreeFields_refl fs v
theorem agreeFields_refl : (fs : Fields) → (v : fs.Val) → fs.Agree v v
  | .nil, _ => trivial
  | .cons _ _ t fs, v => ⟨agree_refl t _, agreeFields_refl fs _⟩
end

mutual
theorem held_zero : (t : Ty) → t.Held t.zero
  | .basic _ => trivial
  | .named _ => trivial
  | .unsupported => trivial
  | .ref _ _ _ => trivial
  | .bytes => Nat.zero_le _
  | .chain c => by cases c <;> first | trivial | rfl | exact List.length_replicate
  | .ptr t => fun x h => nomatch h
  | .slice t => ⟨by show 0 * t.size ≤ _; simp, fun x hx => nomatch hx⟩
  | .array n t => ⟨List.length_replicate, fun x hx => by cases List.eq_of_mem_replicate hx; exact held_zero t⟩
  | .map _ _ => trivial
  | .struct fs => heldFields_zero fs
theorem heldFields_zero : (fs : Fields) → fs.Held fs.zero
  | .nil => trivial
  | .cons _ _ t fs => ⟨held_zero t, fun _ => rfl, heldFields_zero fs⟩
end

theorem over_slice {α : Type} {R : α → α → Prop} (hR : ∀ a, R a a) (zero : α) (size : Nat) (dec : α → Dec (α × Option Err)) (v w : Option (List α)) (hv : (v.getD []).length * size ≤ maxAlloc)
    (hw : (w.getD []).length * size ≤ maxAlloc) (h : ∀ x y, (x ∈ v.getD [] ∨ x = zero) → (y ∈ w.getD [] ∨ y = zero) → Over R (dec x) (dec y)) :
    Over (fun a b => Forall2 R (a.getD []) (b.getD [])) (decodeSlice zero size dec v) (decodeSlice zero size dec w) := by
  unfold decodeSlice
  refine .step ?_
  rintro ⟨l, _ | e⟩
  swap
  · exact .fail _ _ e
  have make (k : List α → Dec (Option (List α) × Option Err)) (xs : List α) (hl : (xs.length : Int) = goInt l) (hs : xs.length * size ≤ maxAlloc) :
      makeSlice zero size l k = k (List.replicate xs.length zero) := by
    have h0 : ¬ goInt l < 0 := by omega
    have := goInt_toNat h0
    have e : l.toNat = xs.length := by omega
    unfold makeSlice
    rw [if_neg h0, e, if_neg (by omega)]
  by_cases h1 : ((v.getD []).length : Int) ≠ goInt l <;> by_cases h2 : ((w.getD []).length : Int) ≠ goInt l
  · simp only [if_pos h1, if_pos h2]
    exact Over.refl (R := fun a b : Option (List α) => Forall2 R (a.getD []) (b.getD [])) (fun a => forall2_self hR _) _
  · simp only [if_pos h1, if_neg h2]
    have h2 := Decidable.not_not.1 h2
    rw [make _ _ h2 hw]
    refine (over_each (by simp) fun x hx y hy => h x y (.inr (List.eq_of_mem_replicate hx)) (.inl hy)).bind (fun _ _ e => .fail _ _ e) fun a b hr => .ok ?_ none
    cases w with
    | none => obtain ⟨hr, hl⟩ := hr; cases hr with
      | nil => exact .nil
      | cons _ _ => cases hl
    | some w => exact hr.1
  · simp only [if_neg h1, if_pos h2]
    have h1 := Decidable.not_not.1 h1
    rw [make _ _ h1 hv]
    refine (over_each (by simp) fun x hx y hy => h x y (.inl hx) (.inr (List.eq_of_mem_replicate hy))).bind (fun _ _ e => .fail _ _ e) fun a b hr => .ok ?_ none
    cases v with
    | none => obtain ⟨hr, hl⟩ := hr; cases hr with
      | nil => exact .nil
      | cons _ _ => cases hl
    | some v => exact hr.1
  · simp only [if_neg h1, if_neg h2]
    have h1 := Decidable.not_not.1 h1
    have h2 := Decidable.not_not.1 h2
    refine (over_each (by omega) fun x hx y hy => h x y (.inl hx) (.inl hy)).bind (fun _ _ e => .fail _ _ e) fun a b hr => .ok ?_ none
    obtain ⟨hr, hl⟩ := hr
    cases v with
    | none =>
      cases hr with
      | nil => cases w <;> exact .nil
      | cons _ _ => cases hl
    | some v =>
      cases w with
      | none =>
        have : v.length = 0 := by simp at h1 h2; omega
        have : a.length = 0 := hl.trans this
        cases hr with
        | nil => exact .nil
        | cons _ _ => cases this
      | some w => exact hr

theorem via_over {R : (t : Ty) → t.Val → t.Val → Prop} (t : Ty) (ht : t.isChain = false) (mode : Mode) (v w : t.Val) (fast slow : t.Val → Dec (t.Val × Option Err))
    (hf : Over (R t) (fast v) (fast w)) (hs : Over (R t) (slow v) (slow w)) : Over (R t) (viaDecFn chainDecoder t mode v fast slow) (viaDecFn chainDecoder t mode w fast slow) := by
  cases mode with
  | value => exact hs
  | variant _ => exact .fail _ _ _
  | member => exact .fail _ _ _
  | decode => unfold viaDecFn; rw [chainDecoder_else t ht, chainDecoder_else t ht]; exact hf
  | elem => unfold viaDecFn; rw [chainDecoder_else t ht, chainDecoder_else t ht]; exact hf

theorem overwrites_over {α : Type} {ok : α → Prop} {u : α → Dec (α × Option Err)} (h : OverwritesIf ok u) {v w : α} (hv : ok v) (hw : ok w) : Over Eq (u v) (u w) := fun fin bs => h v w fin bs hv hw

theorem over_unmarshalBytes (v w : Option Bytes) : Over Eq (unmarshalBytes v) (unmarshalBytes w) := by
  unfold unmarshalBytes
  refine .bind (overwrites_over C37_bytes trivial trivial) (fun _ _ e => .fail _ _ e) fun a b h => ?_
  cases h
  exact .ok rfl none

theorem over_chain (c : ChainTy) (v w : c.Val) (hv : c.Clean v) (hw : c.Clean w) : Over Eq (c.unmarshal v) (c.unmarshal w) := by
  cases c with
  | action => exact overwrites_over C37_action_empty_partial hv hw
  | asset => exact overwrites_over C37_asset trivial trivial
  | blob => exact over_unmarshalBytes v w
  | bytes => exact over_unmarshalBytes v w
  | blockNum => exact overwrites_over C37_blockNum trivial trivial
  | blockTimestamp => exact overwrites_over C37_timePointSec trivial trivial
  | timePointSec => exact overwrites_over C37_timePointSec trivial trivial
  | checksum160 => exact overwrites_over (C37_checksum _) trivial trivial
  | checksum256 => exact overwrites_over (C37_checksum _) trivial trivial
  | checksum512 => exact overwrites_over (C37_checksum _) trivial trivial
  | float128 => exact overwrites_over C37_float128 hv hw
  | int128 => exact overwrites_over C37_uint128 trivial trivial
  | uint128 => exact overwrites_over C37_uint128 trivial trivial
  | name => exact overwrites_over C37_name trivial trivial
  | symbol => exact overwrites_over C37_symbol trivial trivial
  | symbolCode => exact overwrites_over C37_symbol trivial trivial
  | uint64 => exact overwrites_over C37_uint64 trivial trivial
  | permissionLevel => exact overwrites_over C37_permissionLevel trivial trivial
  | publicKey => exact overwrites_over C37_publicKey trivial trivial
  | signature => exact overwrites_over C37_signature trivial trivial
  | timePoint => exact overwrites_over C37_timePoint trivial trivial
  | transaction => exact overwrites_over C37_transaction trivial trivial
  | transactionExtension => exact overwrites_over C37_extension trivial trivial
  | transactionHeader => exact overwrites_over C37_header trivial trivial
  | extendedAsset => exact overwrites_over C37_extendedAsset trivial trivial

theorem over_readKind (b : Basic) (v w : b.Val) : Over Eq (b.readKind v) (b.readKind w) := by
  cases b <;> first
    | exact .fail _ _ _
    | (refine .step ?_; rintro ⟨x, _ | e⟩; exact .ok rfl none; exact .fail _ _ e)

/-- Members that are not selected end up nil, whatever they were. -/
theorem isNil_isZero (t : Ty) (v : t.Val) (h : t.isNil v = some true) : v = t.zero := by
  cases t with
  | ptr t => match v with
    | none => rfl
    | some x => cases h
  | slice t => match v with
    | none => rfl
    | some x => cases h
  | map k e => match v with
    | none => rfl
    | some x => cases h
  | bytes => match v with
    | none => rfl
    | some x => cases h
  | chain c => cases c with
    | bytes => match v with
      | none => rfl
      | some x => cases h
    | blob => match v with
      | none => rfl
      | some x => cases h
    | _ => cases h
  | _ => cases h

theorem isNil_none (t : Ty) (v w : t.Val) (h : t.isNil v = none) : t.isNil w = none := by
  cases t with
  | chain c => cases c <;> first | rfl | cases h
  | _ => first | rfl | cases h

/-- One member after the loop -/
def clearOne (vis : Vis) (t : Ty) (x : t.Val) : Option t.Val := match t.isNil x with
  | none => none
  | some true => some x
  | some false => if vis = .exported then some t.zero else none

theorem clearOne_eq (vis : Vis) (t : Ty) (hv : vis ≠ .unexported) (v w : t.Val) (hb : vis = .blank → v = t.zero) (hb' : vis = .blank → w = t.zero) : clearOne vis t v = clearOne vis t w := by
  by_cases h : vis = .blank
  · rw [hb h, hb' h]
  have he : vis = .exported := by cases vis <;> first | rfl | exact absurd rfl hv | exact absurd rfl h
  unfold clearOne
  cases h1 : t.isNil v with
  | none => rw [isNil_none t v w h1]
  | some b =>
    cases h2 : t.isNil w with
    | none => rw [isNil_none t w v h2] at h1; cases h1
    | some b' => cases b <;> cases b' <;> simp only [he, if_true] <;> first | rw [isNil_isZero t v h1, isNil_isZero t w h2] | rw [isNil_isZero t v h1] | rw [isNil_isZero t w h2]

theorem clear_consEq (vis : Vis) (tag : Tag) (t : Ty) (fs : Fields) (idx : Option Nat) (x : t.Val) (xs : fs.Val) :
    (Fields.cons vis tag t fs).clear idx ((x, xs) : t.Val × fs.Val) =
      match (if idx = some 0 then some x else clearOne vis t x), fs.clear (match idx with | some (n + 1) => some n | _ => none) xs with
      | some x, some xs => some ((x, xs) : t.Val × fs.Val)
      | _, _ => none := rfl

theorem clear_none : (fs : Fields) → fs.Exported → (v w : fs.Val) → fs.Held v → fs.Held w → fs.clear none v = fs.clear none w
  | .nil, _, _, _, _, _ => rfl
  | .cons vis tag t fs, he, v, w, hv, hw => by
    obtain ⟨x, xs⟩ : t.Val × fs.Val := v
    obtain ⟨y, ys⟩ : t.Val × fs.Val := w
    rw [clear_consEq, clear_consEq, if_neg (by simp), if_neg (by simp), clearOne_eq vis t he.1 x y hv.2.1 hw.2.1, clear_none fs he.2.2 xs ys hv.2.2 hw.2.2]

theorem held_alloc (t : Ty) (v : t.Val) (h : t.Held v) : t.Held (t.alloc v) := by
  cases t with
  | ptr t => match v, h with
    | none, h => intro x hx; cases hx; exact held_zero t
    | some y, h => intro x hx; cases hx; exact h y rfl
  | _ => exact h

theorem over_getD {t : Ty} (o : Option t.Val) (h : (Ty.ptr t).Held o) : t.Held (o.getD t.zero) := by
  cases o with
  | none => exact held_zero t
  | some x => exact h x rfl

theorem over_some {t : Ty} {p q : Dec (t.Val × Option Err)} (h : Over t.Agree p q) :
    Over (Ty.ptr t).Agree (p >>= fun y => pure ((some y.1 : Option t.Val), y.2)) (q >>= fun y => pure ((some y.1 : Option t.Val), y.2)) :=
  h.bind (fun _ _ e => .fail _ _ e) fun a b hr => .ok (R := (Ty.ptr t).Agree) (.inr ⟨a, b, rfl, rfl, hr⟩) none

/-- Decoding through a pointer -/
def ptrSlow (t : Ty) (old : Option t.Val) : Dec (Option t.Val × Option Err) := decodeWith chainDecoder t .value (old.getD t.zero) >>= fun y => pure ((some y.1 : Option t.Val), y.2)

theorem over_field {α β : Type} {R : α → α → Prop} {S : β → β → Prop} (vis : Vis) (tag : Tag) (x y x' y' zero : α) (dec dec' : Mode → Dec (α × Option Err)) (xs ys : β) (err : Option Err)
    (rest rest' : Option Err → Dec (β × Option Err)) (hv : vis = .blank → R x y) (hz : R zero zero) (hd : ∀ m, Over R (dec m) (dec' m)) (hr : ∀ err, Over S (rest err) (rest' err)) :
    Over (fun a b : α × β => R a.1 b.1 ∧ S a.2 b.2) (decodeField vis tag x x' zero dec xs err rest) (decodeField vis tag y y' zero dec' ys err rest') := by
  have next (err : Option Err) (a b : α) (h : R a b) : Over (fun a b : α × β => R a.1 b.1 ∧ S a.2 b.2) (rest err >>= fun z => pure ((a, z.1), z.2)) (rest' err >>= fun z => pure ((b, z.1), z.2)) :=
    (hr err).bind (fun _ _ e => .fail _ _ e) fun _ _ hs => .ok ⟨h, hs⟩ none
  unfold decodeField
  cases vis with
  | blank => exact next _ x y (hv rfl)
  | unexported => exact .panic _
  | exported =>
    cases tag with
    | none => exact (hd .elem).bind (fun _ _ e => .fail _ _ e) fun a b h => next _ a b h
    | optional =>
      refine .step ?_
      rintro ⟨p, _ | e⟩
      · cases p with
        | true => exact (hd .elem).bind (fun _ _ e => .fail _ _ e) fun a b h => next _ a b h
        | false => exact next _ zero zero hz
      · exact .fail _ _ e
    | extension =>
      refine (hd .elem).bind (fun a b e => ?_) fun a b h => next _ a b h
      dsimp only
      by_cases he : e = .eof
      · rw [if_pos he, if_pos he]; exact next _ zero zero hz
      · rw [if_neg he, if_neg he]; exact .fail _ _ e
    | variant =>
      refine .step ?_
      rintro ⟨p, _ | e⟩
      · exact (hd (.variant p.toNat)).bind (fun _ _ e => .fail _ _ e) fun a b h => next _ a b h
      · exact .fail _ _ e

theorem decodeStruct_over {fs : Fields} (hF : ∀ v w, fs.Held v → fs.Held w → Over fs.Agree (decodeFields chainDecoder fs none v) (decodeFields chainDecoder fs none w))
    (hM : ∀ n v w v' w', fs.Held v → fs.Held w → fs.clear (some n) v = some v' → fs.clear (some n) w = some w' → Over fs.Agree (decodeMember chainDecoder fs n v') (decodeMember chainDecoder fs n w'))
    (hN : ∀ n v w, fs.Held v → fs.Held w → fs.clear (some n) v = none → fs.clear (some n) w = none)
    (mode : Mode) (v w : fs.Val) (hv : fs.Held v) (hw : fs.Held w) : Over fs.Agree (decodeWith chainDecoder (.struct fs) mode v) (decodeWith chainDecoder (.struct fs) mode w) := by
  cases mode with
  | variant idx =>
    change Over fs.Agree (if idx ≥ fs.count then pure (v, some errVariantIndex) else match fs.clear (some idx) v with
      | none => .panic _
      | some cleared => decodeMember chainDecoder fs idx cleared) (if idx ≥ fs.count then pure (w, some errVariantIndex) else match fs.clear (some idx) w with
      | none => .panic _
      | some cleared => decodeMember chainDecoder fs idx cleared)
    by_cases h : idx ≥ fs.count
    · rw [if_pos h, if_pos h]; exact .fail _ _ _
    · rw [if_neg h, if_neg h]
      cases h1 : fs.clear (some idx) v with
      | none => rw [hN idx v w hv hw h1]; exact .panic _
      | some v' =>
        cases h2 : fs.clear (some idx) w with
        | none => rw [hN idx w v hw hv h2] at h1; cases h1
        | some w' => exact hM idx v w v' w' hv hw h1 h2
  | decode => exact via_over (R := fun t => t.Agree) (.struct fs) rfl .decode v w (decodeFields chainDecoder fs none) (decodeFields chainDecoder fs none) (hF v w hv hw) (hF v w hv hw)
  | elem => exact via_over (R := fun t => t.Agree) (.struct fs) rfl .elem v w (decodeFields chainDecoder fs none) (decodeFields chainDecoder fs none) (hF v w hv hw) (hF v w hv hw)
  | value => exact via_over (R := fun t => t.Agree) (.struct fs) rfl .value v w (decodeFields chainDecoder fs none) (decodeFields chainDecoder fs none) (hF v w hv hw) (hF v w hv hw)
  | member => exact via_over (R := fun t => t.Agree) (.struct fs) rfl .member v w (decodeFields chainDecoder fs none) (decodeFields chainDecoder fs none) (hF v w hv hw) (hF v w hv hw)

theorem clear_some_none : (fs : Fields) → fs.Exported → (n : Nat) → (v w : fs.Val) → fs.Held v → fs.Held w → fs.clear (some n) v = none → fs.clear (some n) w = none
  | .nil, _, _, _, _, _, _, h => by cases h
  | .cons vis tag t fs, he, n, v, w, hv, hw, h => by
    obtain ⟨x, xs⟩ : t.Val × fs.Val := v
    obtain ⟨y, ys⟩ : t.Val × fs.Val := w
    rw [clear_consEq] at h ⊢
    cases n with
    | zero =>
      rw [if_pos rfl] at h ⊢
      simp only at h ⊢
      rw [← clear_none fs he.2.2 xs ys hv.2.2 hw.2.2]
      cases hc : fs.clear none xs with
      | none => rfl
      | some z => rw [hc] at h; cases h
    | succ n =>
      rw [if_neg (by simp)] at h ⊢
      simp only at h ⊢
      rw [← clearOne_eq vis t he.1 x y hv.2.1 hw.2.1]
      cases h1 : clearOne vis t x with
      | none => rfl
      | some z =>
        rw [h1] at h
        cases h2 : fs.clear (some n) xs with
        | none => rw [clear_some_none fs he.2.2 n xs ys hv.2.2 hw.2.2 h2]
        | some z => rw [h2] at h; cases h

mutual
theorem decode_over : (t : Ty) → t.Exported → (mode : Mode) → (v w : t.Val) → t.Held v → t.Held w → Over t.Agree (decodeWith chainDecoder t mode v) (decodeWith chainDecoder t mode w)
  | .basic b, _, mode, v, w, _, _ => via_over (R := fun t => t.Agree) (.basic b) rfl mode v w _ _ (.refl (agree_refl (.basic b)) _) (over_readKind b v w)
  | .named b, _, mode, v, w, _, _ => via_over (R := fun t => t.Agree) (.named b) rfl mode v w _ _ (over_readKind b v w) (over_readKind b v w)
  | .unsupported, _, mode, v, w, _, _ => via_over (R := fun t => t.Agree) .unsupported rfl mode v w _ _ (.fail _ _ _) (.fail _ _ _)
  | .ref i s a, _, mode, v, w, _, _ => .refl (agree_refl (.ref i s a)) _
  | .bytes, _, mode, v, w, hv, hw => via_over (R := fun t => t.Agree) .bytes rfl mode v w _ _ (by
      refine .step ?_
      rintro ⟨l, _ | e⟩
      · exact .refl (agree_refl .bytes) _
      · exact .fail _ _ e) (by
      refine (over_slice (R := Eq) (fun _ => rfl) (0 : UInt8) 1 _ v w (by rw [Nat.mul_one]; exact hv) (by rw [Nat.mul_one]; exact hw) fun x y _ _ => .of_eq rfl rfl (.refl (fun _ => rfl) _)).mono ?_
      exact fun a b h => forall2_eq _ (fun _ _ h => h) _ _ h)
  | .chain c, _, mode, v, w, hv, hw => by
    have := over_chain c v w hv hw
    cases mode with
    | variant _ => exact this
    | member => exact .fail _ _ _
    | decode => exact .of_eq (decode_chain c _ (.inl rfl) v) (decode_chain c _ (.inl rfl) w) this
    | elem => exact .of_eq (decode_chain c _ (.inr (.inl rfl)) v) (decode_chain c _ (.inr (.inl rfl)) w) this
    | value => exact this
  | .ptr t, he, mode, v, w, hv, hw => by
    have ih := fun m => decode_over t he m _ _ (over_getD v hv) (over_getD w hw)
    cases mode with
    | elem => exact over_some (ih .decode)
    | variant idx => exact over_some (ih (.variant idx))
    | member =>
      refine Over.step ?_
      rintro ⟨x, _ | e⟩
      · exact .refl (agree_refl (.ptr t)) _
      · exact .fail _ _ e
    | decode => exact via_over (R := fun t => t.Agree) (.ptr t) rfl .decode v w (ptrSlow t) (ptrSlow t) (over_some (ih .value)) (over_some (ih .value))
    | value => exact via_over (R := fun t => t.Agree) (.ptr t) rfl .value v w (ptrSlow t) (ptrSlow t) (over_some (ih .value)) (over_some (ih .value))
  | .slice t, he, mode, v, w, hv, hw => by
    have : Over (Ty.slice t).Agree (decodeSlice t.zero t.size (decodeWith chainDecoder t .elem) v) (decodeSlice t.zero t.size (decodeWith chainDecoder t .elem) w) := by
      refine over_slice (agree_refl t) t.zero t.size _ v w hv.1 hw.1 fun x y hx hy => decode_over t he .elem x y ?_ ?_
      · rcases hx with hx | rfl
        · exact hv.2 x hx
        · exact held_zero t
      · rcases hy with hy | rfl
        · exact hw.2 y hy
        · exact held_zero t
    exact via_over (R := fun t => t.Agree) (.slice t) rfl mode v w _ _ this this
  | .array n t, he, mode, v, w, hv, hw => by
    have : Over (Ty.array n t).Agree (decEach (decodeWith chainDecoder t .elem) v) (decEach (decodeWith chainDecoder t .elem) w) :=
      (over_each (hv.1.trans hw.1.symm) fun x hx y hy => decode_over t he .elem x y (hv.2 x hx) (hw.2 y hy)).mono fun _ _ h => h.1
    exact via_over (R := fun t => t.Agree) (.array n t) rfl mode v w _ _ this this
  | .map k e, _, mode, v, w, _, _ => by
    have : Over (Ty.map k e).Agree (decodeMap (decodeWith chainDecoder k .decode k.zero) (decodeWith chainDecoder e .decode e.zero) v)
        (decodeMap (decodeWith chainDecoder k .decode k.zero) (decodeWith chainDecoder e .decode e.zero) w) := by
      refine .step ?_
      rintro ⟨l, _ | e⟩
      · exact .refl (fun _ => rfl) _
      · exact .fail _ _ e
    exact via_over (R := fun t => t.Agree) (.map k e) rfl mode v w _ _ this this
  | .struct fs, he, mode, v, w, hv, hw => decodeStruct_over (fun v w hv hw => fields_over fs he none v w hv hw) (fun n v w v' w' hv hw h h' => member_over fs he n v w v' w' hv hw h h')
      (fun n v w hv hw h => clear_some_none fs he n v w hv hw h) mode v w hv hw
theorem fields_over : (fs : Fields) → fs.Exported → (err : Option Err) → (v w : fs.Val) → fs.Held v → fs.Held w → Over fs.Agree (decodeFields chainDecoder fs err v) (decodeFields chainDecoder fs err w)
  | .nil, _, err, _, _, _, _ => .ok trivial err
  | .cons vis tag t fs, he, err, v, w, hv, hw => by
    obtain ⟨x, xs⟩ : t.Val × fs.Val := v
    obtain ⟨y, ys⟩ : t.Val × fs.Val := w
    refine over_field (R := t.Agree) (S := fs.Agree) vis tag x y _ _ t.zero _ _ xs ys err _ _ (fun h => ?_) (agree_refl t _) (fun m => decode_over t he.2.1 m _ _ (held_alloc t x hv.1) (held_alloc t y hw.1))
      (fun err => fields_over fs he.2.2 err xs ys hv.2.2 hw.2.2)
    rw [show x = t.zero from hv.2.1 h, show y = t.zero from hw.2.1 h]
    exact agree_refl t _
theorem member_over : (fs : Fields) → fs.Exported → (n : Nat) → (v w v' w' : fs.Val) → fs.Held v → fs.Held w → fs.clear (some n) v = some v' → fs.clear (some n) w = some w' →
    Over fs.Agree (decodeMember chainDecoder fs n v') (decodeMember chainDecoder fs n w')
  | .nil, _, _, _, _, _, _, _, _, _, _ => .fail _ _ _
  | .cons vis tag t fs, he, n, v, w, v', w', hv, hw, h, h' => by
    obtain ⟨x, xs⟩ : t.Val × fs.Val := v
    obtain ⟨y, ys⟩ : t.Val × fs.Val := w
    obtain ⟨x', xs'⟩ : t.Val × fs.Val := v'
    obtain ⟨y', ys'⟩ : t.Val × fs.Val := w'
    rw [clear_consEq] at h h'
    cases n with
    | zero =>
      rw [if_pos rfl] at h h'
      simp only at h h'
      have e := clear_none fs he.2.2 xs ys hv.2.2 hw.2.2
      cases h1 : fs.clear none xs with
      | none => rw [h1] at h; cases h
      | some zs =>
        rw [h1] at h
        rw [← e, h1] at h'
        cases h
        cases h'
        refine (decode_over t he.2.1 .member x y hv.1 hw.1).bind (fun _ _ e => .fail _ _ e) fun a b hr => ?_
        by_cases hx : vis = .exported
        · simp only [if_pos hx]; exact .ok (R := fun a b : t.Val × fs.Val => t.Agree a.1 b.1 ∧ fs.Agree a.2 b.2) (a := (a, _)) (b := (b, _)) ⟨hr, agreeFields_refl fs _⟩ none
        · simp only [if_neg hx]; exact .panic _
    | succ n =>
      rw [if_neg (by simp)] at h h'
      simp only at h h'
      have e := clearOne_eq vis t he.1 x y hv.2.1 hw.2.1
      cases h1 : clearOne vis t x with
      | none => rw [h1] at h; cases h
      | some z =>
        rw [h1] at h
        rw [← e, h1] at h'
        cases h2 : fs.clear (some n) xs with
        | none => rw [h2] at h; cases h
        | some zs =>
          cases h3 : fs.clear (some n) ys with
          | none => rw [h3] at h'; cases h'
          | some zs' =>
            rw [h2] at h
            rw [h3] at h'
            cases h
            cases h'
            exact (member_over fs he.2.2 n xs ys _ _ hv.2.2 hw.2.2 h2 h3).bind (fun _ _ e => .fail _ _ e) fun a b hr =>
              .ok (R := fun a b : t.Val × fs.Val => t.Agree a.1 b.1 ∧ fs.Agree a.2 b.2) (a := (_, a)) (b := (_, b)) ⟨agree_refl t _, hr⟩ none
end

end Verif
