import Verif.Spec.Recursive
import Verif.Lemmas.ReflectStrict
/-! # Encoding and decoding recursive types does not depend on how far they are unfolded -/
namespace Verif

/-! ### Trees that agree as far as the first one goes -/

/-- `q` does what `p` does until `p` gives up, with results changed by g. -/
def Dec.Below {α β : Type} (g : α → β) : Dec α → Dec β → Prop
  | .diverge, _ => True
  | .ret a, q => q = .ret (g a)
  | .panic w, q => q = .panic w
  | .read n k, q => ∃ k', q = .read n k' ∧ ∀ b c e, (k b c e).Below g (k' b c e)

def Enc.Below {α : Type} : Enc α → Enc α → Prop
  | .diverge, _ => True
  | .ret a, q => q = .ret a
  | .panic w, q => q = .panic w
  | .write bs k, q => ∃ k', q = .write bs k' ∧ ∀ e, (k e).Below (k' e)

theorem Dec.Below.pure {α β : Type} {g : α → β} (a : α) (b : β) (h : b = g a) : Dec.Below g (Pure.pure a) (Pure.pure b) := by
  subst h; exact rfl

theorem Dec.Below.bind {α β γ δ : Type} {g : α → β} {h : γ → δ} {p : Dec α} {p' : Dec β} {q : α → Dec γ} {q' : β → Dec δ} (hp : p.Below g p')
    (hq : ∀ a, (q a).Below h (q' (g a))) : (p >>= q).Below h (p' >>= q') := by
  change (Dec.bind p q).Below h (Dec.bind p' q')
  induction p generalizing p' with
  | ret a => obtain rfl : p' = _ := hp; exact hq a
  | panic w => obtain rfl : p' = _ := hp; exact rfl
  | diverge => trivial
  | read n k ih =>
    obtain ⟨k', rfl, hk⟩ := hp
    exact ⟨_, rfl, fun b c e => ih b c e (hk b c e)⟩

theorem Dec.Below.refl {α : Type} (p : Dec α) : p.Below id p := by
  induction p with
  | ret a => exact rfl
  | panic w => exact rfl
  | diverge => trivial
  | read n k ih => exact ⟨k, rfl, ih⟩

theorem Dec.Below.runE {α β : Type} {g : α → β} {p : Dec α} {q : Dec β} (h : p.Below g q) (fin : Err) (bs : Bytes) :
    (∀ a r, p.runE fin bs = .ok a r → q.runE fin bs = .ok (g a) r) ∧ ∀ w, p.runE fin bs = .panic w → q.runE fin bs = .panic w := by
  induction p generalizing q bs with
  | ret a =>
    obtain rfl : q = _ := h
    exact ⟨fun b r hb => by cases hb; rfl, fun w hw => (nomatch hw)⟩
  | panic w =>
    obtain rfl : q = _ := h
    exact ⟨fun b r hb => (nomatch hb), fun w hw => by cases hw; rfl⟩
  | diverge => exact ⟨fun b r hb => (nomatch hb), fun w hw => (nomatch hw)⟩
  | read n k ih =>
    obtain ⟨k', rfl, hk⟩ := h
    unfold Dec.runE
    split
    all_goals exact ih _ _ _ (hk _ _ _) _

theorem Enc.Below.bind {α β : Type} {p p' : Enc α} {q q' : α → Enc β} (hp : p.Below p') (hq : ∀ a, (q a).Below (q' a)) : (p >>= q).Below (p' >>= q') := by
  change (Enc.bind p q).Below (Enc.bind p' q')
  induction p generalizing p' with
  | ret a => obtain rfl : p' = _ := hp; exact hq a
  | panic w => obtain rfl : p' = _ := hp; exact rfl
  | diverge => trivial
  | write bs k ih =>
    obtain ⟨k', rfl, hk⟩ := hp
    exact ⟨_, rfl, fun e => ih e (hk e)⟩

theorem Enc.Below.refl {α : Type} (p : Enc α) : p.Below p := by
  induction p with
  | ret a => exact rfl
  | panic w => exact rfl
  | diverge => trivial
  | write bs k ih => exact ⟨k, rfl, ih⟩

theorem Enc.Below.of_eq {α : Type} {p q : Enc α} (h : p = q) : p.Below q := h ▸ .refl p

theorem Enc.Below.run_ok {α : Type} {p q : Enc α} (h : p.Below q) {a : α} {bs : Bytes} (hp : p.run = .ok a bs) : q.run = .ok a bs := by
  induction p generalizing q bs with
  | ret _ => obtain rfl : q = _ := h; exact hp
  | panic _ => cases hp
  | diverge => cases hp
  | write b k ih =>
    obtain ⟨k', rfl, hk⟩ := h
    unfold Enc.run at hp ⊢
    cases hh : (k none).run with
    | ok x out => rw [hh] at hp; cases hp; rw [ih none (hk none) hh]; rfl
    | panic _ => rw [hh] at hp; cases hp
    | diverge => rw [hh] at hp; cases hp

theorem Enc.Below.runW {α : Type} {p q : Enc α} (h : p.Below q) (w : Nat → WEv) :
    (∀ a out fl, p.runW w = .ok a out fl → q.runW w = .ok a out fl) ∧ ∀ why, p.runW w = .panic why → q.runW w = .panic why := by
  induction p generalizing q w with
  | ret a =>
    obtain rfl : q = _ := h
    exact ⟨fun _ _ _ h => h, fun _ h => h⟩
  | panic _ =>
    obtain rfl : q = _ := h
    exact ⟨fun _ _ _ h => h, fun _ h => h⟩
  | diverge => exact ⟨fun _ _ _ h => (nomatch h), fun _ h => (nomatch h)⟩
  | write bs k ih =>
    obtain ⟨k', rfl, hk⟩ := h
    have key : ∀ (o o' : WOut α) (b : Bytes) (f : Bool), ((∀ a out fl, o = .ok a out fl → o' = .ok a out fl) ∧ ∀ why, o = .panic why → o' = .panic why) →
        (∀ a out fl, o.prepend b f = .ok a out fl → o'.prepend b f = .ok a out fl) ∧ ∀ why, o.prepend b f = .panic why → o'.prepend b f = .panic why := by
      intro o o' b f hh
      cases o with
      | ok a out fl => rw [hh.1 a out fl rfl]; exact ⟨fun _ _ _ h => h, fun _ h => h⟩
      | panic w => rw [hh.2 w rfl]; exact ⟨fun _ _ _ h => h, fun _ h => h⟩
      | diverge => exact ⟨fun _ _ _ h => (nomatch h), fun _ h => (nomatch h)⟩
    unfold Enc.runW
    split
    all_goals exact key _ _ _ _ (ih _ (hk _) _)

/-! ### Loops -/

/-- What a decoder returns, with the value changed by f -/
abbrev onVal {α β : Type} (f : α → β) (x : α × Option Err) : β × Option Err := (f x.1, x.2)

theorem Dec.Below.try {α β γ δ : Type} {f : α → β} {g : γ → δ} {p : Dec (α × Option Err)} {p' : Dec (β × Option Err)}
    {q : α × Option Err → Dec (γ × Option Err)} {q' : β × Option Err → Dec (δ × Option Err)} (hp : p.Below (onVal f) p')
    (he : ∀ a e, (q (a, some e)).Below (onVal g) (q' (f a, some e))) (hn : ∀ a, (q (a, none)).Below (onVal g) (q' (f a, none))) :
    (p >>= q).Below (onVal g) (p' >>= q') := by
  refine hp.bind ?_
  rintro ⟨a, _ | e⟩
  · exact hn a
  · exact he a e

theorem decEach_below {α β : Type} {f : α → β} {d : α → Dec (α × Option Err)} {d' : β → Dec (β × Option Err)} (h : ∀ x, (d x).Below (onVal f) (d' (f x))) (xs : List α) :
    (decEach d xs).Below (onVal (List.map f)) (decEach d' (xs.map f)) := by
  induction xs with
  | nil => exact .pure _ _ rfl
  | cons x xs ih =>
    refine (h x).try (fun a e => .pure _ _ rfl) fun a => ?_
    exact ih.bind fun _ => .pure _ _ rfl

theorem makeSlice_below {α β γ δ : Type} {f : α → β} {g : γ → δ} (z : α) (z' : β) (hz : f z = z') (size : Nat) (l : UInt64) (k : List α → Dec γ) (k' : List β → Dec δ)
    (h : ∀ xs, (k xs).Below g (k' (xs.map f))) : (makeSlice z size l k).Below g (makeSlice z' size l k') := by
  unfold makeSlice
  split
  · exact rfl
  · split
    · exact rfl
    · subst hz
      have := h (List.replicate l.toNat z)
      rw [List.map_replicate] at this
      exact this

theorem decodeSlice_below {α β : Type} {f : α → β} (z : α) (z' : β) (hz : f z = z') (size : Nat) {d : α → Dec (α × Option Err)} {d' : β → Dec (β × Option Err)}
    (h : ∀ x, (d x).Below (onVal f) (d' (f x))) (old : Option (List α)) :
    (decodeSlice z size d old).Below (onVal (Option.map (List.map f))) (decodeSlice z' size d' (old.map (List.map f))) := by
  unfold decodeSlice
  refine Dec.Below.try (f := id) (.refl _) (fun _ e => .pure _ _ rfl) fun l => ?_
  dsimp only [id]
  have e : (old.map (List.map f)).getD [] = (old.getD []).map f := by cases old <;> rfl
  rw [e, List.length_map]
  split
  · refine makeSlice_below z z' hz size l _ _ fun xs => ?_
    exact (decEach_below h xs).bind fun _ => .pure _ _ rfl
  · refine (decEach_below h _).bind fun x => .pure _ _ ?_
    cases old <;> rfl

theorem mapSet_below {κ α β : Type} [DecidableEq κ] (f : α → β) (k : κ) (v : α) (m : List (κ × α)) :
    (mapSet k v m).map (fun x => (x.1, f x.2)) = mapSet k (f v) (m.map fun x => (x.1, f x.2)) := by
  induction m with
  | nil => rfl
  | cons x m ih =>
    obtain ⟨k', v'⟩ := x
    simp only [mapSet, List.map_cons]
    split
    · rfl
    · rw [List.map_cons, ih]

theorem mapLoop_below {κ α β : Type} [DecidableEq κ] {f : α → β} (dk : Dec (κ × Option Err)) {dv : Dec (α × Option Err)} {dv' : Dec (β × Option Err)}
    (h : dv.Below (onVal f) dv') (n : Nat) (m : List (κ × α)) :
    (mapLoop dk dv n m).Below (onVal (List.map fun x : κ × α => (x.1, f x.2))) (mapLoop dk dv' n (m.map fun x => (x.1, f x.2))) := by
  induction n generalizing m with
  | zero => exact .pure _ _ rfl
  | succ n ih =>
    refine Dec.Below.try (f := id) (.refl _) (fun _ e => .pure _ _ rfl) fun k => ?_
    refine h.try (fun _ e => .pure _ _ rfl) fun v => ?_
    dsimp only [id]
    rw [← mapSet_below]
    exact ih _

theorem decodeMap_below {κ α β : Type} [DecidableEq κ] {f : α → β} (dk : Dec (κ × Option Err)) {dv : Dec (α × Option Err)} {dv' : Dec (β × Option Err)}
    (h : dv.Below (onVal f) dv') (old : Option (List (κ × α))) :
    (decodeMap dk dv old).Below (onVal (Option.map (List.map fun x : κ × α => (x.1, f x.2)))) (decodeMap dk dv' (old.map (List.map fun x => (x.1, f x.2)))) := by
  unfold decodeMap
  refine Dec.Below.try (f := id) (.refl _) (fun _ e => .pure _ _ rfl) fun l => ?_
  exact (mapLoop_below dk h _ []).bind fun _ => .pure _ _ rfl

theorem decodeField_below {α α' β β' : Type} {f : α → α'} {g : β → β'} (vis : Vis) (tag : Tag) (x x1 z : α) {dec : Mode → Dec (α × Option Err)} {dec' : Mode → Dec (α' × Option Err)}
    (xs : β) (err : Option Err) {rest : Option Err → Dec (β × Option Err)} {rest' : Option Err → Dec (β' × Option Err)} (hd : ∀ m, (dec m).Below (onVal f) (dec' m))
    (hr : ∀ err, (rest err).Below (onVal g) (rest' err)) :
    (decodeField vis tag x x1 z dec xs err rest).Below (onVal fun p : α × β => (f p.1, g p.2)) (decodeField vis tag (f x) (f x1) (f z) dec' (g xs) err rest') := by
  have next : ∀ (err : Option Err) (y : α), Dec.Below (onVal fun p : α × β => (f p.1, g p.2)) (do let (ys, err) ← rest err; Pure.pure (((y, ys) : α × β), err))
      (do let (ys, err) ← rest' err; Pure.pure (((f y, ys) : α' × β'), err)) := fun err y => (hr err).bind fun _ => .pure _ _ rfl
  unfold decodeField
  cases vis with
  | blank => exact next err x
  | unexported => exact rfl
  | exported =>
    cases tag with
    | none => exact (hd .elem).try (fun _ e => .pure _ _ rfl) (next none)
    | optional =>
      refine Dec.Below.try (f := id) (.refl _) (fun _ e => .pure _ _ rfl) fun p => ?_
      cases p with
      | true => exact (hd .elem).try (fun _ e => .pure _ _ rfl) (next none)
      | false => exact next err z
    | extension =>
      refine (hd .elem).try (fun _ e => ?_) (next none)
      dsimp only
      split
      · exact next _ z
      · exact .pure _ _ rfl
    | variant =>
      refine Dec.Below.try (f := id) (.refl _) (fun _ e => .pure _ _ rfl) fun i => ?_
      exact (hd (.variant i.toNat)).try (fun _ e => .pure _ _ rfl) (next none)

theorem encEach_below {α β : Type} {f : α → β} {d : α → Enc (Option Err)} {d' : β → Enc (Option Err)} (k : Enc (Option Err)) (h : ∀ x, (d x).Below (d' (f x))) (xs : List α) :
    (encEach d k xs).Below (encEach d' k (xs.map f)) := by
  induction xs with
  | nil => exact .refl _
  | cons x xs ih =>
    refine (h x).bind ?_
    rintro (_ | e)
    · exact ih
    · exact .refl _

theorem encodeField_below (vis : Vis) (tag : Tag) (z z' : Bool) (hz : z' = z) {one one' rest rest' : Enc (Option Err)} (h1 : one.Below one') (h2 : rest.Below rest') :
    (encodeField vis tag z one rest).Below (encodeField vis tag z' one' rest') := by
  subst hz
  unfold encodeField
  have fld : Enc.Below (if vis = .exported then do
      match ← one with
      | some e => pure (some e)
      | none => rest
    else .panic "reflect.Value.Interface: cannot return value obtained from unexported field or method") (if vis = .exported then do
      match ← one' with
      | some e => pure (some e)
      | none => rest'
    else .panic "reflect.Value.Interface: cannot return value obtained from unexported field or method" : Enc (Option Err)) := by
    split
    · refine h1.bind ?_
      rintro (_ | e)
      · exact h2
      · exact .refl _
    · exact rfl
  dsimp only
  split
  · refine (Enc.Below.refl _).bind fun _ => ?_
    split
    · exact h2
    · exact fld
  · exact fld

end Verif
