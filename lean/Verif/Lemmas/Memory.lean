import Verif.Spec.Memory
import Verif.Lemmas.Run
import Verif.Lemmas.ReflectOverwrite
import Verif.Lemmas.Keys
namespace Verif

/-! ## Alike -/

theorem Dec.Alike.bind {α β γ δ : Type} {R : α → β → Prop} {S : γ → δ → Prop} {p : Dec α} {q : Dec β} {f : α → Dec γ} {g : β → Dec δ} (h : p.Alike R q)
    (hf : ∀ a b, R a b → (f a).Alike S (g b)) : (p >>= f).Alike S (q >>= g) := by
  induction h with
  | ret h => exact hf _ _ h
  | panic w => exact .panic w
  | diverge => exact .diverge
  | read n _ ih => exact .read n ih

theorem Dec.Alike.refl {α : Type} (p : Dec α) : p.Alike (fun a b => a = b) p := by
  induction p with
  | ret a => exact .ret rfl
  | panic w => exact .panic w
  | diverge => exact .diverge
  | read n k ih => exact .read n fun b c e => ih b c e

theorem Dec.Alike.mono {α β : Type} {R S : α → β → Prop} {p : Dec α} {q : Dec β} (h : p.Alike R q) (hs : ∀ a b, R a b → S a b) : p.Alike S q := by
  induction h with
  | ret h => exact .ret (hs _ _ h)
  | panic w => exact .panic w
  | diverge => exact .diverge
  | read n _ ih => exact .read n ih

/-- p, then f; in memory h the same p that does not touch memory, then g -/
theorem alike_of {α γ δ : Type} {S : γ → δ × Heap → Prop} (p : Dec α) {f : α → Dec γ} {g : α → Mem δ} {h : Heap} (hf : ∀ a, (f a).Alike S (g a h)) :
    (p >>= f).Alike S ((Mem.of p >>= g) h) :=
  Dec.Alike.bind (R := fun a b => b = (a, h)) (by
    show p.Alike _ (p >>= fun a => pure (a, h))
    induction p with
    | ret a => exact .ret rfl
    | panic w => exact .panic w
    | diverge => exact .diverge
    | read n k ih => exact .read n fun b c e => ih b c e) fun a b hb => by subst hb; exact hf a

/-! ## Assertions about memory -/

theorem kept_refl (h : Heap) (fp : List Nat) : h.Kept h fp := ⟨Nat.le_refl _, fun _ _ _ => rfl⟩

theorem lt_of_get {h : Heap} {a : Nat} {c : Cell} (e : h[a]? = some c) : a < h.length := (List.getElem?_eq_some_iff.1 e).1

theorem mem_nil_of {fp : List Nat} (e : fp = []) {P : Prop} (i : Nat) (hi : i ∈ fp) : P := by rw [e] at hi; exact absurd hi List.not_mem_nil

theorem Heap.Kept.get {h h' : Heap} {fp : List Nat} (k : h.Kept h' fp) {i : Nat} {c : Cell} (hc : h[i]? = some c) (hi : i ∉ fp) : h'[i]? = some c := by
  rw [k.2 i (lt_of_get hc) hi, hc]

/-- An assertion that speaks about the cells fp only -/
structure IsLocal {α β : Type} (A : Heap → α → β → List Nat → Prop) : Prop where
  bound : ∀ {h x v fp}, A h x v fp → ∀ i ∈ fp, i < h.length
  frame : ∀ {h h' x v fp}, A h x v fp → (∀ i ∈ fp, h'[i]? = h[i]?) → A h' x v fp

theorem isLocal_each {α β : Type} {A : Heap → α → β → List Nat → Prop} (hA : IsLocal A) : IsLocal fun h => HoldEach (A h) where
  bound := by
    intro h xs
    induction xs with
    | nil => intro v fp e; cases v with
      | nil => intro i hi; rw [show fp = [] from e] at hi; cases hi
      | cons => exact e.elim
    | cons x xs ih => intro v fp e; cases v with
      | nil => exact e.elim
      | cons y ys =>
        obtain ⟨f, g, rfl, h1, h2⟩ := e
        intro i hi
        rcases List.mem_append.1 hi with hi | hi
        · exact hA.bound h1 i hi
        · exact ih h2 i hi
  frame := by
    intro h h' xs
    induction xs with
    | nil => intro v fp e _; cases v with
      | nil => exact e
      | cons => exact e.elim
    | cons x xs ih => intro v fp e hh; cases v with
      | nil => exact e.elim
      | cons y ys =>
        obtain ⟨f, g, rfl, h1, h2⟩ := e
        exact ⟨f, g, rfl, hA.frame h1 fun i hi => hh i (List.mem_append_left _ hi), ih h2 fun i hi => hh i (List.mem_append_right _ hi)⟩

mutual
theorem isLocal_ty : (t : Ty) → IsLocal fun h => t.Holds h
  | .basic _ | .named _ | .chain _ => ⟨fun e i hi => mem_nil_of e.2 i hi, fun e _ => e⟩
  | .unsupported | .ref _ _ _ => ⟨fun {_ _ _ fp} (e : fp = []) i hi => mem_nil_of e i hi, fun e _ => e⟩
  | .bytes => {
      bound := by
        rintro h x v fp (⟨_, _, rfl⟩ | ⟨a, b, _, _, hc, rfl⟩) i hi
        · cases hi
        · cases List.mem_singleton.1 hi; exact lt_of_get hc
      frame := by
        rintro h h' x v fp (⟨h1, h2, rfl⟩ | ⟨a, b, h1, h2, hc, rfl⟩) hh
        · exact .inl ⟨h1, h2, rfl⟩
        · exact .inr ⟨a, b, h1, h2, (hh a (List.mem_singleton.2 rfl)).trans hc, rfl⟩ }
  | .ptr t => {
      bound := by
        rintro h x v fp (⟨_, _, rfl⟩ | ⟨a, y, w, g, _, _, hc, hg, rfl⟩) i hi
        · cases hi
        · rcases List.mem_cons.1 hi with rfl | hi
          · exact lt_of_get hc
          · exact (isLocal_ty t).bound hg i hi
      frame := by
        rintro h h' x v fp (⟨h1, h2, rfl⟩ | ⟨a, y, w, g, h1, h2, hc, hg, rfl⟩) hh
        · exact .inl ⟨h1, h2, rfl⟩
        · exact .inr ⟨a, y, w, g, h1, h2, (hh a List.mem_cons_self).trans hc, (isLocal_ty t).frame hg fun i hi => hh i (List.mem_cons_of_mem _ hi), rfl⟩ }
  | .slice t => {
      bound := by
        rintro h x v fp (⟨_, _, rfl⟩ | ⟨a, y, w, g, _, _, hc, hg, rfl⟩) i hi
        · cases hi
        · rcases List.mem_cons.1 hi with rfl | hi
          · exact lt_of_get hc
          · exact (isLocal_each (isLocal_ty t)).bound hg i hi
      frame := by
        rintro h h' x v fp (⟨h1, h2, rfl⟩ | ⟨a, y, w, g, h1, h2, hc, hg, rfl⟩) hh
        · exact .inl ⟨h1, h2, rfl⟩
        · exact .inr ⟨a, y, w, g, h1, h2, (hh a List.mem_cons_self).trans hc, (isLocal_each (isLocal_ty t)).frame hg fun i hi => hh i (List.mem_cons_of_mem _ hi), rfl⟩ }
  | .array _ t => isLocal_each (isLocal_ty t)
  | .map k e => by
      have hl : IsLocal fun h (y : k.Val × e.Raw) (w : k.Val × e.Val) f => y.1 = w.1 ∧ e.Holds h y.2 w.2 f :=
        ⟨fun q => (isLocal_ty e).bound q.2, fun q hh => ⟨q.1, (isLocal_ty e).frame q.2 hh⟩⟩
      constructor
      · rintro h x v fp (⟨_, _, rfl⟩ | ⟨a, y, w, g, _, _, hc, hg, rfl⟩) i hi
        · cases hi
        · rcases List.mem_cons.1 hi with rfl | hi
          · exact lt_of_get hc
          · exact (isLocal_each hl).bound hg i hi
      · rintro h h' x v fp (⟨h1, h2, rfl⟩ | ⟨a, y, w, g, h1, h2, hc, hg, rfl⟩) hh
        · exact .inl ⟨h1, h2, rfl⟩
        · exact .inr ⟨a, y, w, g, h1, h2, (hh a List.mem_cons_self).trans hc, (isLocal_each hl).frame hg fun i hi => hh i (List.mem_cons_of_mem _ hi), rfl⟩
  | .struct fs => isLocal_fields fs
theorem isLocal_fields : (fs : Fields) → IsLocal fun h => fs.Holds h
  | .nil => ⟨fun {_ _ _ fp} (e : fp = []) i hi => mem_nil_of e i hi, fun e _ => e⟩
  | .cons _ _ t fs => {
      bound := by
        rintro h x v fp ⟨f, g, rfl, h1, h2⟩ i hi
        rcases List.mem_append.1 hi with hi | hi
        · exact (isLocal_ty t).bound h1 i hi
        · exact (isLocal_fields fs).bound h2 i hi
      frame := by
        rintro h h' x v fp ⟨f, g, rfl, h1, h2⟩ hh
        exact ⟨f, g, rfl, (isLocal_ty t).frame h1 fun i hi => hh i (List.mem_append_left _ hi), (isLocal_fields fs).frame h2 fun i hi => hh i (List.mem_append_right _ hi)⟩ }
end

/-! ## Steps -/

/-- After a step from memory h on the cells fp: the same error, and the new content holds the new value, without sharing, in these cells and new ones -/
def Stepped {α β : Type} (A : Heap → α → β → List Nat → Prop) (h : Heap) (fp : List Nat) (a : β × Option Err) (b : (α × Option Err) × Heap) : Prop :=
  a.2 = b.1.2 ∧ h.Kept b.2 fp ∧ ∃ fp', A b.2 b.1.1 a.1 fp' ∧ fp'.Nodup ∧ h.Owned fp fp'

/-- The step `dm` in memory does what `d` does on values -/
def Follows {α β : Type} (A : Heap → α → β → List Nat → Prop) (dm : α → Mem (α × Option Err)) (d : β → Dec (β × Option Err)) : Prop :=
  ∀ h x v fp, A h x v fp → fp.Nodup → (d v).Alike (Stepped A h fp) (dm x h)

theorem kept_trans {h h₁ h₂ : Heap} {f f₁ g : List Nat} (k₁ : h.Kept h₁ f) (k₂ : h₁.Kept h₂ f₁) (hf : ∀ i ∈ f, i ∈ g) (hf₁ : ∀ i ∈ f₁, i ∈ g ∨ h.length ≤ i) : h.Kept h₂ g := by
  refine ⟨Nat.le_trans k₁.1 k₂.1, fun i hi hg => ?_⟩
  rw [k₂.2 i (Nat.lt_of_lt_of_le hi k₁.1) fun hm => ?_, k₁.2 i hi fun hm => hg (hf i hm)]
  rcases hf₁ i hm with hm | hm
  · exact hg hm
  · omega

/-- Two parts after each other: the first on f, then the second on g. -/
theorem step_pair {α β : Type} {A : Heap → α → β → List Nat → Prop} (hA : IsLocal A)
    {h h₁ h₂ : Heap} {f f₁ g g₁ : List Nat} (hg : ∀ i ∈ g, i < h.length) (hd : (f ++ g).Nodup) (k₁ : h.Kept h₁ f) (o₁ : h.Owned f f₁) (n₁ : f₁.Nodup) {x v} (a₁ : A h₁ x v f₁)
    (k₂ : h₁.Kept h₂ g) (o₂ : h₁.Owned g g₁) (n₂ : g₁.Nodup) :
    A h₂ x v f₁ ∧ h.Kept h₂ (f ++ g) ∧ h.Owned (f ++ g) (f₁ ++ g₁) ∧ (f₁ ++ g₁).Nodup := by
  obtain ⟨_, _, dis⟩ := List.nodup_append.1 hd
  have b₁ := hA.bound a₁
  have sep : ∀ i ∈ f₁, i ∉ g := fun i hi hg' => by
    rcases o₁ i hi with h' | h'
    · exact dis i h' i hg' rfl
    · have := hg i hg'; omega
  refine ⟨hA.frame a₁ fun i hi => k₂.2 i (b₁ i hi) (sep i hi), kept_trans k₁ k₂ (fun i hi => List.mem_append_left _ hi) fun i hi => .inl (List.mem_append_right _ hi), ?_, ?_⟩
  · intro i hi
    rcases List.mem_append.1 hi with hi | hi
    · exact (o₁ i hi).imp_left (List.mem_append_left _)
    · rcases o₂ i hi with h' | h'
      · exact .inl (List.mem_append_right _ h')
      · exact .inr (Nat.le_trans k₁.1 h')
  · refine List.nodup_append.2 ⟨n₁, n₂, ?_⟩
    rintro i hi _ hj rfl
    rcases o₂ i hj with h' | h'
    · exact sep i hi h'
    · have := b₁ i hi; omega

/-- The first part has changed, the second has not. -/
theorem step_left {γ δ : Type} {B : Heap → γ → δ → List Nat → Prop} (hB : IsLocal B)
    {h h₁ : Heap} {f f₁ g : List Nat} (hd : (f ++ g).Nodup) (k₁ : h.Kept h₁ f) (o₁ : h.Owned f f₁) (n₁ : f₁.Nodup) {y w} (b : B h y w g) :
    B h₁ y w g ∧ h.Kept h₁ (f ++ g) ∧ h.Owned (f ++ g) (f₁ ++ g) ∧ (f₁ ++ g).Nodup := by
  obtain ⟨_, ng, dis⟩ := List.nodup_append.1 hd
  refine ⟨hB.frame b fun i hi => k₁.2 i (hB.bound b i hi) fun hf => dis i hf i hi rfl, ⟨k₁.1, fun i hi hn => k₁.2 i hi fun hf => hn (List.mem_append_left _ hf)⟩, ?_, ?_⟩
  · intro i hi
    rcases List.mem_append.1 hi with hi | hi
    · exact (o₁ i hi).imp_left (List.mem_append_left _)
    · exact .inl (List.mem_append_right _ hi)
  · refine List.nodup_append.2 ⟨n₁, ng, ?_⟩
    rintro i hi _ hj rfl
    rcases o₁ i hi with h' | h'
    · exact dis i h' i hj rfl
    · have := hB.bound b i hj; omega

theorem follows_each {α β : Type} {A : Heap → α → β → List Nat → Prop} (hA : IsLocal A) {dm : α → Mem (α × Option Err)} {d : β → Dec (β × Option Err)} (hd : Follows A dm d) :
    Follows (fun h => HoldEach (A h)) (Mem.each dm) (decEach d) := by
  intro h xs
  induction xs generalizing h with
  | nil => intro v fp e hn; cases v with
    | nil => exact .ret ⟨rfl, kept_refl _ _, [], rfl, List.nodup_nil, fun i hi => absurd hi (by simp)⟩
    | cons => exact e.elim
  | cons x xs ih => intro v fp e hn; cases v with
    | nil => exact e.elim
    | cons v vs =>
      obtain ⟨f, g, rfl, h1, h2⟩ := e
      have hn' := List.nodup_append.1 hn
      refine (hd h x v f h1 hn'.1).bind ?_
      rintro ⟨v', o⟩ ⟨⟨y, o'⟩, h₁⟩ ⟨ho, k₁, f₁, a₁, n₁, o₁⟩
      cases ho
      cases o with
      | some e =>
        obtain ⟨b, k, o, n⟩ := step_left (isLocal_each hA) hn k₁ o₁ n₁ h2
        exact .ret ⟨rfl, k, f₁ ++ g, ⟨f₁, g, rfl, a₁, b⟩, n, o⟩
      | none =>
        have h2' := (step_left (isLocal_each hA) hn k₁ o₁ n₁ h2).1
        refine (ih h₁ vs g h2' hn'.2.1).bind ?_
        rintro ⟨vs', o⟩ ⟨⟨ys, o'⟩, h₂⟩ ⟨ho, k₂, g₁, b₁, n₂, o₂⟩
        cases ho
        obtain ⟨a, k, o, n⟩ := step_pair hA ((isLocal_each hA).bound h2) hn k₁ o₁ n₁ a₁ k₂ o₂ n₂
        exact .ret ⟨rfl, k, f₁ ++ g₁, ⟨f₁, g₁, rfl, a, b₁⟩, n, o⟩


theorem Stepped.after {α β : Type} {A : Heap → α → β → List Nat → Prop} {h h₁ : Heap} {fp fp₁ : List Nat} (k : h.Kept h₁ fp) (o : h.Owned fp fp₁) {a : β × Option Err}
    {b : (α × Option Err) × Heap} (s : Stepped A h₁ fp₁ a b) : Stepped A h fp a b := by
  obtain ⟨e, k', fp', a', n, o'⟩ := s
  refine ⟨e, kept_trans k k' (fun _ hi => hi) o, fp', a', n, fun i hi => ?_⟩
  rcases o' i hi with h' | h'
  · exact o i h'
  · exact .inr (Nat.le_trans k.1 h')

theorem owned_refl (h : Heap) (fp : List Nat) : h.Owned fp fp := fun _ hi => .inl hi

theorem Heap.Owned.trans {h h₁ : Heap} {f f₁ f₂ : List Nat} (o : h.Owned f f₁) (l : h.length ≤ h₁.length) (o' : h₁.Owned f₁ f₂) : h.Owned f f₂ := fun i hi => by
  rcases o' i hi with h' | h'
  · exact o i h'
  · exact .inr (Nat.le_trans l h')

theorem kept_new (h : Heap) (c : Cell) (fp : List Nat) : h.Kept (h ++ [c]) fp := by
  refine ⟨by simp, fun i hi _ => ?_⟩
  rw [List.getElem?_append_left hi]

theorem get_new (h : Heap) (c : Cell) : (h ++ [c])[h.length]? = some c := by simp

/-! ## Zero values -/

theorem holdEach_replicate {α β : Type} {R : α → β → List Nat → Prop} {x : α} {v : β} (hr : R x v []) : (n : Nat) → HoldEach R (List.replicate n x) (List.replicate n v) []
  | 0 => rfl
  | n + 1 => ⟨[], [], rfl, hr, holdEach_replicate hr n⟩

mutual
theorem rawZero_holds (h : Heap) : (t : Ty) → t.Holds h t.rawZero t.zero []
  | .basic _ | .named _ | .chain _ => ⟨rfl, rfl⟩
  | .unsupported | .ref _ _ _ => rfl
  | .bytes | .ptr _ | .slice _ | .map _ _ => .inl ⟨rfl, rfl, rfl⟩
  | .array n t => holdEach_replicate (rawZero_holds h t) n
  | .struct fs => rawZero_fields h fs
theorem rawZero_fields (h : Heap) : (fs : Fields) → fs.Holds h fs.rawZero fs.zero []
  | .nil => rfl
  | .cons _ _ t fs => ⟨[], [], rfl, rawZero_holds h t, rawZero_fields h fs⟩
end

/-! ## Cells -/

theorem load_var {h : Heap} {a : Nat} {t : Ty} {y : t.Raw} (hc : h[a]? = some (.var t y)) : Mem.load (Cell.asVar t) a h = pure (y, h) := by
  unfold Mem.load Cell.asVar; rw [hc]; simp

theorem load_arr {h : Heap} {a : Nat} {t : Ty} {y : List t.Raw} (hc : h[a]? = some (.arr t y)) : Mem.load (Cell.asArr t) a h = pure (y, h) := by
  unfold Mem.load Cell.asArr; rw [hc]; simp

theorem load_map {h : Heap} {a : Nat} {k e : Ty} {y : List (k.Val × e.Raw)} (hc : h[a]? = some (.map k e y)) : Mem.load (Cell.asMap k e) a h = pure (y, h) := by
  unfold Mem.load Cell.asMap; rw [hc]; simp

/-- The content of the cell a has been worked on in memory; then it is written back. -/
theorem write_back {α β : Type} {A : Heap → α → β → List Nat → Prop} (hA : IsLocal A) {h h₁ : Heap} {a : Nat} {g g₁ : List Nat} (ha : a < h.length) (hn : a ∉ g)
    (k : h.Kept h₁ g) (o : h.Owned g g₁) (n : g₁.Nodup) {y w} (hy : A h₁ y w g₁) (c : Cell) :
    (h₁.set a c)[a]? = some c ∧ A (h₁.set a c) y w g₁ ∧ h.Kept (h₁.set a c) (a :: g) ∧ (a :: g₁).Nodup ∧ h.Owned (a :: g) (a :: g₁) := by
  have na : a ∉ g₁ := fun hm => by
    rcases o a hm with h' | h'
    · exact hn h'
    · omega
  refine ⟨by rw [List.getElem?_set_self (Nat.lt_of_lt_of_le ha k.1)], hA.frame hy fun i hi => ?_, ⟨by rw [List.length_set]; exact k.1, fun i hi hm => ?_⟩, List.nodup_cons.2 ⟨na, n⟩, ?_⟩
  · rw [List.getElem?_set_ne]; rintro rfl; exact na hi
  · rw [List.getElem?_set_ne]
    · exact k.2 i hi fun h' => hm (List.mem_cons_of_mem _ h')
    · rintro rfl; exact hm List.mem_cons_self
  · intro i hi
    rcases List.mem_cons.1 hi with rfl | hi
    · exact .inl List.mem_cons_self
    · exact (o i hi).imp_left (List.mem_cons_of_mem _)

theorem dec_bind_pure {α : Type} (q : Dec α) : q = q >>= fun p => pure p := by
  induction q with
  | ret | panic | diverge => rfl
  | read n k ih => exact congrArg (Dec.read n) (funext fun b => funext fun c => funext fun e => ih b c e)

/-- After decoding into the variable a -/
def SteppedAt {β : Type} (t : Ty) (A : Heap → t.Raw → β → List Nat → Prop) (h : Heap) (a : Nat) (g : List Nat) (p : β × Option Err) (b : Option Err × Heap) : Prop :=
  p.2 = b.1 ∧ h.Kept b.2 (a :: g) ∧ ∃ y g₁, b.2[a]? = some (.var t y) ∧ A b.2 y p.1 g₁ ∧ (a :: g₁).Nodup ∧ h.Owned (a :: g) (a :: g₁)

theorem follows_at {t : Ty} {dm : t.Raw → Mem (t.Raw × Option Err)} {d : t.Val → Dec (t.Val × Option Err)} (hd : Follows (fun h => t.Holds h) dm d) {h : Heap} {a : Nat} {y : t.Raw} {w : t.Val}
    {g : List Nat} (hc : h[a]? = some (.var t y)) (hy : t.Holds h y w g) (hn : (a :: g).Nodup) : (d w).Alike (SteppedAt t (fun h => t.Holds h) h a g) (Mem.at t dm a h) := by
  have hn' := List.nodup_cons.1 hn
  show (d w).Alike _ (Mem.load (Cell.asVar t) a h >>= fun p => (do let (y, err) ← dm p.1; Mem.store a (.var t y); pure err : Mem (Option Err)) p.2)
  rw [load_var hc]
  rw [dec_bind_pure (d w)]
  refine (hd h y w g hy hn'.2).bind ?_
  rintro ⟨w', o⟩ ⟨⟨y', o'⟩, h₁⟩ ⟨ho, k, g₁, b, n, ow⟩
  cases ho
  obtain ⟨q1, q2, q3, q4, q5⟩ := write_back (isLocal_ty t) (lt_of_get hc) hn'.1 k ow n b (.var t y')
  exact .ret ⟨rfl, q3, y', g₁, q1, q2, q4, q5⟩

theorem ensure_holds {t : Ty} {h : Heap} {x : Option Nat} {v : Option t.Val} {fp : List Nat} (hx : (Ty.ptr t).Holds h x v fp) (hn : fp.Nodup) :
    ∃ a h₀ y g, Mem.ensure t x h = pure (a, h₀) ∧ h₀[a]? = some (.var t y) ∧ t.Holds h₀ y (v.getD t.zero) g ∧ (a :: g).Nodup ∧ h.Kept h₀ fp ∧ h.Owned fp (a :: g) := by
  rcases hx with ⟨h1, h2, rfl⟩ | ⟨a, y, w, g, h1, h2, hc, hg, rfl⟩
  · cases (show x = none from h1); cases (show v = none from h2)
    refine ⟨h.length, h ++ [.var t t.rawZero], t.rawZero, [], rfl, get_new _ _, rawZero_holds _ t, by simp, kept_new _ _ _, ?_⟩
    intro i hi; cases List.mem_singleton.1 hi; exact .inr (Nat.le_refl _)
  · cases (show x = some a from h1); cases (show v = some w from h2)
    exact ⟨a, h, y, g, rfl, hc, hg, hn, kept_refl _ _, owned_refl _ _⟩

theorem mem_bind {α β : Type} {p : Mem α} {f : α → Mem β} {h h₁ : Heap} {a : α} (e : p h = pure (a, h₁)) : (p >>= f) h = f a h₁ := by
  show (p h >>= fun q => f q.1 q.2) = _
  rw [e]; rfl

theorem alike_after {α β γ : Type} {S : γ → β × Heap → Prop} {q : Dec γ} {p : Mem α} {f : α → Mem β} {h h₁ : Heap} {a : α} (e : p h = pure (a, h₁)) (hs : q.Alike S (f a h₁)) :
    q.Alike S ((p >>= f) h) := by rw [mem_bind e]; exact hs

/-- `indirect` and the allocation of nil pointers: decode what the pointer points to -/
theorem follows_ptr {t : Ty} {dm : t.Raw → Mem (t.Raw × Option Err)} {d : t.Val → Dec (t.Val × Option Err)} (hd : Follows (fun h => t.Holds h) dm d) :
    Follows (α := Option Nat) (β := Option t.Val) (fun h x v fp => (Ty.ptr t).Holds h x v fp) (fun x : Option Nat => (do let a ← Mem.ensure t x; let err ← Mem.at t dm a; pure (some a, err) : Mem (Option Nat × Option Err)))
      (fun v : Option t.Val => (do let (x, err) ← d (v.getD t.zero); pure (some x, err) : Dec (Option t.Val × Option Err))) := by
  intro h x v fp hx hn
  obtain ⟨a, h₀, y, g, e, hc, hy, n, k, o⟩ := ensure_holds hx hn
  refine alike_after e ?_
  refine (follows_at hd hc hy n).bind ?_
  rintro ⟨w', er⟩ ⟨er', h₁⟩ ⟨he, k₁, y', g₁, hc', hy', n', o'⟩
  cases he
  exact .ret (Stepped.after k o ⟨rfl, k₁, a :: g₁, .inr ⟨a, y', w', g₁, rfl, rfl, hc', hy', rfl⟩, n', o'⟩)

/-! ## Slices -/

theorem holdEach_length {α β : Type} {R : α → β → List Nat → Prop} : {xs : List α} → {ys : List β} → {fp : List Nat} → HoldEach R xs ys fp → xs.length = ys.length
  | [], [], _, _ => rfl
  | [], _ :: _, _, e => e.elim
  | _ :: _, [], _, e => e.elim
  | _ :: xs, _ :: ys, _, ⟨_, _, _, _, e⟩ => by rw [List.length_cons, List.length_cons, holdEach_length e]

/-- The loop over the array a -/
theorem slice_loop {t : Ty} {dm : t.Raw → Mem (t.Raw × Option Err)} {d : t.Val → Dec (t.Val × Option Err)} (hd : Follows (fun h => t.Holds h) dm d) {h : Heap} {a : Nat} {ys : List t.Raw}
    {ws : List t.Val} {g : List Nat} (ha : a < h.length) (hy : HoldEach (t.Holds h) ys ws g) (hn : (a :: g).Nodup) :
    ((do let (vs, err) ← decEach d ws; pure (some vs, err) : Dec (Option (List t.Val) × Option Err))).Alike (Stepped (fun h (x : Option Nat) (v : Option (List t.Val)) fp => (Ty.slice t).Holds h x v fp) h (a :: g))
      ((do let (zs, err) ← Mem.each dm ys; Mem.store a (.arr t zs); pure (some a, err) : Mem (Option Nat × Option Err)) h) := by
  have hn' := List.nodup_cons.1 hn
  refine (follows_each (isLocal_ty t) hd h ys ws g hy hn'.2).bind ?_
  rintro ⟨w', o⟩ ⟨⟨y', o'⟩, h₁⟩ ⟨ho, k, g₁, b, n, ow⟩
  cases ho
  obtain ⟨q1, q2, q3, q4, q5⟩ := write_back (isLocal_each (isLocal_ty t)) ha hn'.1 k ow n b (.arr t y')
  exact .ret ⟨rfl, q3, a :: g₁, .inr ⟨a, y', w', g₁, rfl, rfl, q1, q2, rfl⟩, q4, q5⟩

theorem follows_slice (t : Ty) (size : Nat) {dm : t.Raw → Mem (t.Raw × Option Err)} {d : t.Val → Dec (t.Val × Option Err)} (hd : Follows (fun h => t.Holds h) dm d) :
    Follows (α := Option Nat) (β := Option (List t.Val)) (fun h x v fp => (Ty.slice t).Holds h x v fp) (Mem.slice t size dm) (decodeSlice t.zero size d) := by
  intro h x v fp hx hn
  refine alike_of readVaruint ?_
  rintro ⟨l, o⟩
  cases o with
  | some e => exact .ret ⟨rfl, kept_refl _ _, fp, hx, hn, owned_refl _ _⟩
  | none =>
    have hlen : Mem.len t x h = pure ((v.getD []).length, h) := by
      rcases hx with ⟨h1, h2, rfl⟩ | ⟨a, ys, ws, g, h1, h2, hc, hg, rfl⟩
      · cases (show x = none from h1); cases (show v = none from h2); rfl
      · cases (show x = some a from h1); cases (show v = some ws from h2)
        show ((Mem.load (Cell.asArr t) a >>= fun xs => pure xs.length) : Mem Nat) h = _
        rw [mem_bind (load_arr hc), holdEach_length hg]; rfl
    refine alike_after hlen ?_
    simp only []
    split
    · unfold makeSlice
      split
      · exact .panic _
      · split
        · exact .panic _
        · refine Dec.Alike.mono (slice_loop hd (h := h ++ [.arr t (List.replicate l.toNat t.rawZero)]) (a := h.length) (g := []) (by simp)
            (holdEach_replicate (rawZero_holds _ t) l.toNat) (by simp)) fun a b hs => Stepped.after (kept_new _ _ _) ?_ hs
          intro i hi; cases List.mem_singleton.1 hi; exact .inr (Nat.le_refl _)
    · rcases hx with ⟨h1, h2, rfl⟩ | ⟨a, ys, ws, g, h1, h2, hc, hg, rfl⟩
      · cases (show x = none from h1); cases (show v = none from h2)
        exact .ret ⟨rfl, kept_refl _ _, [], .inl ⟨rfl, rfl, rfl⟩, List.nodup_nil, owned_refl _ _⟩
      · cases (show x = some a from h1); cases (show v = some ws from h2)
        refine alike_after (load_arr hc) ?_
        exact slice_loop hd (lt_of_get hc) hg hn

/-! ## Maps -/

/-- One entry of a map -/
def EntryHolds (k e : Ty) (h : Heap) (y : k.Val × e.Raw) (w : k.Val × e.Val) (f : List Nat) : Prop := y.1 = w.1 ∧ e.Holds h y.2 w.2 f

theorem isLocal_entry (k e : Ty) : IsLocal (EntryHolds k e) := ⟨fun q => (isLocal_ty e).bound q.2, fun q hh => ⟨q.1, (isLocal_ty e).frame q.2 hh⟩⟩

theorem holds_mapSet {k e : Ty} {h : Heap} (key : k.Val) {y : e.Raw} {w : e.Val} {f : List Nat} (hy : e.Holds h y w f) :
    (m : List (k.Val × e.Raw)) → (ws : List (k.Val × e.Val)) → (g : List Nat) → HoldEach (EntryHolds k e h) m ws g → (g ++ f).Nodup →
    ∃ g', HoldEach (EntryHolds k e h) (mapSet key y m) (mapSet key w ws) g' ∧ g'.Nodup ∧ ∀ i ∈ g', i ∈ g ++ f
  | [], [], g, e, hn => by
    cases (show g = [] from e)
    exact ⟨f ++ [], ⟨f, [], rfl, ⟨rfl, hy⟩, rfl⟩, by simpa using hn, by simp⟩
  | [], _ :: _, _, e, _ => e.elim
  | _ :: _, [], _, e, _ => e.elim
  | (k₁, y₁) :: m, (k₂, w₁) :: ws, _, ⟨g₁, g₂, hg, ⟨hk, h1⟩, h2⟩, hn => by
    subst hg
    cases (show k₁ = k₂ from hk)
    have hn' := List.nodup_append.1 hn
    have hn'' := List.nodup_append.1 hn'.1
    have e1 : mapSet key y ((k₁, y₁) :: m) = if k₁ = key then (k₁, y) :: m else (k₁, y₁) :: mapSet key y m := rfl
    have e2 : mapSet key w ((k₁, w₁) :: ws) = if k₁ = key then (k₁, w) :: ws else (k₁, w₁) :: mapSet key w ws := rfl
    rw [e1, e2]
    by_cases hk : k₁ = key
    · rw [if_pos hk, if_pos hk]
      refine ⟨f ++ g₂, ⟨f, g₂, rfl, ⟨rfl, hy⟩, h2⟩, List.nodup_append.2 ⟨hn'.2.1, hn''.2.1, ?_⟩, ?_⟩
      · rintro i hi _ hj rfl; exact hn'.2.2 i (List.mem_append_right _ hj) i hi rfl
      · intro i hi
        rcases List.mem_append.1 hi with hi | hi
        · exact List.mem_append_right _ hi
        · exact List.mem_append_left _ (List.mem_append_right _ hi)
    · rw [if_neg hk, if_neg hk]
      obtain ⟨g', q1, q2, q3⟩ := holds_mapSet key hy m ws g₂ h2 (List.nodup_append.2 ⟨hn''.2.1, hn'.2.1, fun i hi j hj => hn'.2.2 i (List.mem_append_right _ hi) j hj⟩)
      refine ⟨g₁ ++ g', ⟨g₁, g', rfl, ⟨rfl, h1⟩, q1⟩, List.nodup_append.2 ⟨hn''.1, q2, ?_⟩, ?_⟩
      · rintro i hi _ hj rfl
        rcases List.mem_append.1 (q3 i hj) with h' | h'
        · exact hn''.2.2 i hi i h' rfl
        · exact hn'.2.2 i (List.mem_append_left _ hi) i h' rfl
      · intro i hi
        rcases List.mem_append.1 hi with hi | hi
        · exact List.mem_append_left _ (List.mem_append_left _ hi)
        · rcases List.mem_append.1 (q3 i hi) with h' | h'
          · exact List.mem_append_left _ (List.mem_append_right _ h')
          · exact List.mem_append_right _ h'

theorem mapLoop_follows {k e : Ty} (dk : Dec (k.Val × Option Err)) {dm : Mem (e.Raw × Option Err)} {d : Dec (e.Val × Option Err)}
    (hd : ∀ h, d.Alike (Stepped (fun h => e.Holds h) h []) (dm h)) : (n : Nat) → (h : Heap) → (m : List (k.Val × e.Raw)) → (ws : List (k.Val × e.Val)) → (g : List Nat) →
    HoldEach (EntryHolds k e h) m ws g → g.Nodup → (mapLoop dk d n ws).Alike (Stepped (fun h => HoldEach (EntryHolds k e h)) h g) (Mem.mapLoop dk dm n m h)
  | 0, h, m, ws, g, hm, hn => .ret ⟨rfl, kept_refl _ _, g, hm, hn, owned_refl _ _⟩
  | n + 1, h, m, ws, g, hm, hn => by
    refine alike_of dk ?_
    rintro ⟨key, o⟩
    cases o with
    | some e => exact .ret ⟨rfl, kept_refl _ _, g, hm, hn, owned_refl _ _⟩
    | none =>
      refine (hd h).bind ?_
      rintro ⟨w, o⟩ ⟨⟨y, o'⟩, h₁⟩ ⟨ho, k₁, f, hy, nf, of⟩
      cases ho
      have hm₁ := (isLocal_each (isLocal_entry k e)).frame hm (h' := h₁) fun i hi => k₁.2 i ((isLocal_each (isLocal_entry k e)).bound hm i hi) List.not_mem_nil
      have kg : h.Kept h₁ g := ⟨k₁.1, fun i hi _ => k₁.2 i hi List.not_mem_nil⟩
      cases o with
      | some e => exact .ret ⟨rfl, kg, g, hm₁, hn, owned_refl _ _⟩
      | none =>
        have hnew : ∀ i ∈ f, h.length ≤ i := fun i hi => (of i hi).resolve_left List.not_mem_nil
        obtain ⟨g', q1, q2, q3⟩ := holds_mapSet key hy m ws g hm₁ (List.nodup_append.2 ⟨hn, nf, by
          rintro i hi _ hj rfl
          have := (isLocal_each (isLocal_entry k e)).bound hm i hi
          have := hnew i hj
          omega⟩)
        refine Dec.Alike.mono (mapLoop_follows dk hd n h₁ _ _ g' q1 q2) fun a b hs => Stepped.after kg ?_ hs
        intro i hi
        rcases List.mem_append.1 (q3 i hi) with h' | h'
        · exact .inl h'
        · exact .inr (hnew i h')

/-- The loop over the map a, which is empty -/
theorem map_loop {k e : Ty} (dk : Dec (k.Val × Option Err)) {dm : Mem (e.Raw × Option Err)} {d : Dec (e.Val × Option Err)}
    (hd : ∀ h, d.Alike (Stepped (fun h => e.Holds h) h []) (dm h)) (n : Nat) {h : Heap} {a : Nat} (ha : a < h.length) :
    ((do let (m, err) ← mapLoop dk d n []; pure (some m, err) : Dec (Option (List (k.Val × e.Val)) × Option Err))).Alike
      (Stepped (fun h (x : Option Nat) (v : Option (List (k.Val × e.Val))) fp => (Ty.map k e).Holds h x v fp) h [a])
      ((do let (m, err) ← Mem.mapLoop dk dm n []; Mem.store a (.map k e m); pure (some a, err) : Mem (Option Nat × Option Err)) h) := by
  refine (mapLoop_follows dk hd n h [] [] [] rfl List.nodup_nil).bind ?_
  rintro ⟨w', o⟩ ⟨⟨y', o'⟩, h₁⟩ ⟨ho, kp, g₁, b, nd, ow⟩
  cases ho
  obtain ⟨q1, q2, q3, q4, q5⟩ := write_back (isLocal_each (isLocal_entry k e)) ha List.not_mem_nil kp ow nd b (.map k e y')
  exact .ret ⟨rfl, q3, a :: g₁, .inr ⟨a, y', w', g₁, rfl, rfl, q1, q2, rfl⟩, q4, q5⟩

theorem follows_map {k e : Ty} (dk : Dec (k.Val × Option Err)) {dm : Mem (e.Raw × Option Err)} {d : Dec (e.Val × Option Err)}
    (hd : ∀ h, d.Alike (Stepped (fun h => e.Holds h) h []) (dm h)) :
    Follows (α := Option Nat) (β := Option (List (k.Val × e.Val))) (fun h x v fp => (Ty.map k e).Holds h x v fp) (Mem.map k e dk dm) (decodeMap dk d) := by
  intro h x v fp hx hn
  refine alike_of readVaruint ?_
  rintro ⟨l, o⟩
  cases o with
  | some e => exact .ret ⟨rfl, kept_refl _ _, fp, hx, hn, owned_refl _ _⟩
  | none =>
    have fresh : ∀ (f : List Nat), ((do let (m, err) ← mapLoop dk d (goInt l).toNat []; pure (some m, err) : Dec (Option (List (k.Val × e.Val)) × Option Err))).Alike
        (Stepped (fun h (x : Option Nat) (v : Option (List (k.Val × e.Val))) fp => (Ty.map k e).Holds h x v fp) h f)
        ((do let (m, err) ← Mem.mapLoop dk dm (goInt l).toNat []; Mem.store h.length (.map k e m); pure (some h.length, err) : Mem (Option Nat × Option Err)) (h ++ [.map k e []])) := fun f =>
      Dec.Alike.mono (map_loop dk hd _ (h := h ++ [.map k e []]) (a := h.length) (by simp)) fun a b hs => Stepped.after (kept_new _ _ _)
        (fun i hi => by cases List.mem_singleton.1 hi; exact .inr (Nat.le_refl _)) hs
    rcases hx with ⟨h1, h2, rfl⟩ | ⟨a, ys, ws, g, h1, h2, hc, hg, rfl⟩
    · cases (show x = none from h1); cases (show v = none from h2)
      exact alike_after (a := h.length) (h₁ := h ++ [.map k e []]) rfl (fresh _)
    · cases (show x = some a from h1); cases (show v = some ws from h2)
      by_cases hy : ys.length ≠ 0
      · refine alike_after (a := h.length) (h₁ := h ++ [.map k e []]) ?_ (fresh _)
        show ((Mem.load (Cell.asMap k e) a >>= fun m => _) h) = _
        rw [mem_bind (load_map hc), if_pos hy]; rfl
      · refine alike_after (a := a) (h₁ := h) ?_ (Dec.Alike.mono (map_loop dk hd _ (lt_of_get hc)) fun p b hs => Stepped.after (kept_refl _ _) ?_ hs)
        · show ((Mem.load (Cell.asMap k e) a >>= fun m => _) h) = _
          rw [mem_bind (load_map hc), if_neg hy]; rfl
        · intro i hi; cases List.mem_singleton.1 hi; exact .inl List.mem_cons_self

/-! ## []byte -/

theorem holdEach_basic {h : Heap} : {xs ys : Bytes} → {fp : List Nat} → (HoldEach ((Ty.basic .u8).Holds h) xs ys fp ↔ xs = ys ∧ fp = [])
  | [], [], _ => ⟨fun e => ⟨rfl, e⟩, fun e => e.2⟩
  | [], _ :: _, _ => ⟨fun e => e.elim, fun e => nomatch e.1⟩
  | _ :: _, [], _ => ⟨fun e => e.elim, fun e => nomatch e.1⟩
  | x :: xs, y :: ys, fp => by
    constructor
    · rintro ⟨f, g, rfl, ⟨h1, rfl⟩, h2⟩
      obtain ⟨rfl, rfl⟩ := holdEach_basic.1 h2
      cases (show x = y from h1)
      exact ⟨rfl, rfl⟩
    · rintro ⟨h1, rfl⟩
      cases h1
      exact ⟨[], [], rfl, ⟨rfl, rfl⟩, holdEach_basic.2 ⟨rfl, rfl⟩⟩

theorem bytes_holds {h : Heap} {x : Option Nat} {v : Option Bytes} {fp : List Nat} : Ty.bytes.Holds h x v fp ↔ (Ty.slice (.basic .u8)).Holds h x v fp := by
  constructor
  · rintro (h1 | ⟨a, b, h1, h2, h3, rfl⟩)
    · exact .inl h1
    · exact .inr ⟨a, b, b, [], h1, h2, h3, holdEach_basic.2 ⟨rfl, rfl⟩, rfl⟩
  · rintro (h1 | ⟨a, ys, ws, g, h1, h2, h3, h4, rfl⟩)
    · exact .inl h1
    · obtain ⟨rfl, rfl⟩ := holdEach_basic.1 h4
      exact .inr ⟨a, _, h1, h2, h3, rfl⟩

theorem follows_bytes : Follows (α := Option Nat) (β := Option Bytes) (fun h x v fp => Ty.bytes.Holds h x v fp) Mem.bytes decodeBytes := by
  intro h x v fp hx hn
  refine alike_of readVaruint ?_
  rintro ⟨l, o⟩
  cases o with
  | some e => exact .ret ⟨rfl, kept_refl _ _, fp, hx, hn, owned_refl _ _⟩
  | none =>
    refine alike_of (readBytes (goInt l)) ?_
    rintro ⟨n, b, o⟩
    by_cases hl : goInt l < 0
    · simp only [if_pos hl]
      exact .ret ⟨rfl, kept_refl _ _, [], .inl ⟨rfl, rfl, rfl⟩, List.nodup_nil, fun i hi => absurd hi List.not_mem_nil⟩
    · simp only [if_neg hl]
      refine .ret ⟨rfl, kept_new _ (.arr (.basic .u8) b) _, [h.length], .inr ⟨h.length, b, rfl, rfl, get_new h (.arr (.basic .u8) b), rfl⟩, by simp, fun i hi => ?_⟩
      cases List.mem_singleton.1 hi; exact .inr (Nat.le_refl _)

/-! ## Structs -/

/-- A field and the fields behind it -/
def PairHolds {α β γ δ : Type} (A : Heap → α → β → List Nat → Prop) (B : Heap → γ → δ → List Nat → Prop) (h : Heap) (x : α × γ) (v : β × δ) (fp : List Nat) : Prop :=
  ∃ f g, fp = f ++ g ∧ A h x.1 v.1 f ∧ B h x.2 v.2 g

section
variable {α β γ δ : Type} {A : Heap → α → β → List Nat → Prop} {B : Heap → γ → δ → List Nat → Prop} (hA : IsLocal A) (hB : IsLocal B)

include hA hB in
theorem next_follows {rm : Mem (γ × Option Err)} {r : Dec (δ × Option Err)} {h : Heap} {xs : γ} {vs : δ} {g : List Nat} (hr : r.Alike (Stepped B h g) (rm h)) {y : α} {w : β} {f : List Nat}
    (hy : A h y w f) (hx : B h xs vs g) (hn : (f ++ g).Nodup) :
    ((do let (ys, err) ← r; pure ((w, ys), err) : Dec ((β × δ) × Option Err))).Alike (Stepped (PairHolds A B) h (f ++ g)) ((do let (ys, err) ← rm; pure ((y, ys), err) : Mem ((α × γ) × Option Err)) h) := by
  have hn' := List.nodup_append.1 hn
  refine hr.bind ?_
  rintro ⟨vs', o⟩ ⟨⟨ys, o'⟩, h₂⟩ ⟨ho, k₂, g₁, b₁, n₂, o₂⟩
  cases ho
  obtain ⟨a, k, o, n⟩ := step_pair hA (hB.bound hx) hn (kept_refl h f) (owned_refl h f) hn'.1 hy k₂ o₂ n₂
  exact .ret ⟨rfl, k, f ++ g₁, ⟨f, g₁, rfl, a, b₁⟩, n, o⟩

include hA hB in
theorem follows_field (vis : Vis) (tag : Tag) {zero : α} {zero' : β} (hz : ∀ h, A h zero zero' []) {x : α} {v w : β} {alloc : Mem α} {dm : Mode → α → Mem (α × Option Err)}
    {d : Mode → β → Dec (β × Option Err)} (hd : ∀ mode, Follows A (dm mode) (d mode)) {xs : γ} {vs : δ} (err : Option Err) {rm : Option Err → Mem (γ × Option Err)}
    {r : Option Err → Dec (δ × Option Err)} {h : Heap} {f g : List Nat} (hr : ∀ err h, B h xs vs g → (r err).Alike (Stepped B h g) (rm err h)) (hx : A h x v f) (hxs : B h xs vs g)
    (hn : (f ++ g).Nodup) (ha : ∃ x' h₀ f₀, alloc h = pure (x', h₀) ∧ A h₀ x' w f₀ ∧ f₀.Nodup ∧ h.Kept h₀ f ∧ h.Owned f f₀) :
    (decodeField vis tag v w zero' (fun mode => d mode w) vs err r).Alike (Stepped (PairHolds A B) h (f ++ g)) (Mem.field vis tag x zero alloc dm xs err rm h) := by
  have hn' := List.nodup_append.1 hn
  unfold decodeField Mem.field
  cases vis with
  | blank => exact next_follows hA hB (hr err h hxs) hx hxs hn
  | unexported => exact .panic _
  | exported =>
    obtain ⟨x', h₀, f₀, e, hx', n₀, k₀, o₀⟩ := ha
    simp only []
    refine alike_after e ?_
    obtain ⟨b₀, k, o, n⟩ := step_left hB hn k₀ o₀ n₀ hxs
    -- a field that has been worked on, and the others not yet
    have stop : ∀ {h₁ : Heap} {y : α} {w' : β} {f₁ : List Nat} (er : Option Err), h₀.Kept h₁ f₀ → A h₁ y w' f₁ → f₁.Nodup → h₀.Owned f₀ f₁ →
        Stepped (PairHolds A B) h (f ++ g) ((w', vs), er) (((y, xs), er), h₁) := fun er k₁ hy n₁ o₁ => by
      obtain ⟨b₁, k', o', n'⟩ := step_left hB n k₁ o₁ n₁ b₀
      exact Stepped.after k o ⟨rfl, k', _, ⟨_, g, rfl, hy, b₁⟩, n', o'⟩
    have next : ∀ {h₁ : Heap} {y : α} {w' : β} {f₁ : List Nat} (er : Option Err), h₀.Kept h₁ f₀ → A h₁ y w' f₁ → f₁.Nodup → h₀.Owned f₀ f₁ →
        ((do let (ys, err) ← r er; pure ((w', ys), err) : Dec ((β × δ) × Option Err))).Alike (Stepped (PairHolds A B) h (f ++ g))
          ((do let (ys, err) ← rm er; pure ((y, ys), err) : Mem ((α × γ) × Option Err)) h₁) := fun er k₁ hy n₁ o₁ => by
      obtain ⟨b₁, k', o', n'⟩ := step_left hB n k₁ o₁ n₁ b₀
      exact Dec.Alike.mono (next_follows hA hB (hr er _ b₁) hy b₁ n') fun a b hs => Stepped.after k o (Stepped.after k' o' hs)
    have nothing : ∀ f' : List Nat, h₀.Owned f' [] := fun _ i hi => absurd hi List.not_mem_nil
    cases tag with
    | none =>
      refine (hd .elem h₀ x' w f₀ hx' n₀).bind ?_
      rintro ⟨w', er⟩ ⟨⟨y, er'⟩, h₁⟩ ⟨he, k₁, f₁, hy, n₁, o₁⟩
      cases he
      cases er with
      | some e => exact .ret (stop _ k₁ hy n₁ o₁)
      | none => exact next _ k₁ hy n₁ o₁
    | optional =>
      refine alike_of readBool ?_
      rintro ⟨present, er⟩
      cases er with
      | some e => exact .ret (stop _ (kept_refl _ _) hx' n₀ (owned_refl _ _))
      | none =>
        cases present with
        | false => exact next err (kept_refl _ _) (hz h₀) List.nodup_nil (nothing _)
        | true =>
          refine (hd .elem h₀ x' w f₀ hx' n₀).bind ?_
          rintro ⟨w', er⟩ ⟨⟨y, er'⟩, h₁⟩ ⟨he, k₁, f₁, hy, n₁, o₁⟩
          cases he
          cases er with
          | some e => exact .ret (stop _ k₁ hy n₁ o₁)
          | none => exact next _ k₁ hy n₁ o₁
    | extension =>
      refine (hd .elem h₀ x' w f₀ hx' n₀).bind ?_
      rintro ⟨w', er⟩ ⟨⟨y, er'⟩, h₁⟩ ⟨he, k₁, f₁, hy, n₁, o₁⟩
      cases he
      cases er with
      | some e =>
        simp only []
        split
        · exact next _ k₁ (hz h₁) List.nodup_nil (nothing _)
        · exact .ret (stop _ k₁ hy n₁ o₁)
      | none => exact next _ k₁ hy n₁ o₁
    | variant =>
      refine alike_of readByte ?_
      rintro ⟨idx, er⟩
      cases er with
      | some e => exact .ret (stop _ (kept_refl _ _) hx' n₀ (owned_refl _ _))
      | none =>
        refine (hd (.variant idx.toNat) h₀ x' w f₀ hx' n₀).bind ?_
        rintro ⟨w', er⟩ ⟨⟨y, er'⟩, h₁⟩ ⟨he, k₁, f₁, hy, n₁, o₁⟩
        cases he
        cases er with
        | some e => exact .ret (stop _ k₁ hy n₁ o₁)
        | none => exact next _ k₁ hy n₁ o₁
end

theorem alloc_holds (t : Ty) {h : Heap} {x : t.Raw} {v : t.Val} {f : List Nat} (hx : t.Holds h x v f) (hn : f.Nodup) :
    ∃ x' h₀ f₀, t.rawAlloc x h = pure (x', h₀) ∧ t.Holds h₀ x' (t.alloc v) f₀ ∧ f₀.Nodup ∧ h.Kept h₀ f ∧ h.Owned f f₀ := by
  cases t with
  | ptr t =>
    obtain ⟨a, h₀, y, g, e, hc, hy, n, k, o⟩ := ensure_holds (t := t) hx hn
    refine ⟨(some a : Option Nat), h₀, a :: g, ?_, .inr ⟨a, y, _, g, rfl, rfl, hc, hy, rfl⟩, n, k, o⟩
    show ((Mem.ensure t x >>= fun a => pure (some a)) : Mem (Option Nat)) h = _
    rw [mem_bind e]; rfl
  | basic | named | unsupported | bytes | chain | slice | array | map | struct | ref => exact ⟨x, h, f, rfl, hx, hn, kept_refl _ _, owned_refl _ _⟩

theorem rawIsNil_eq (t : Ty) {h : Heap} {x : t.Raw} {v : t.Val} {f : List Nat} (hx : t.Holds h x v f) : t.rawIsNil x = t.isNil v := by
  cases t with
  | ptr t =>
    rcases hx with ⟨h1, h2, _⟩ | ⟨a, y, w, g, h1, h2, _⟩
    · cases (show (show Option Nat from x) = none from h1); cases (show (show Option t.Val from v) = none from h2); rfl
    · cases (show (show Option Nat from x) = some a from h1); cases (show (show Option t.Val from v) = some w from h2); rfl
  | slice t =>
    rcases hx with ⟨h1, h2, _⟩ | ⟨a, y, w, g, h1, h2, _⟩
    · cases (show (show Option Nat from x) = none from h1); cases (show (show Option (List t.Val) from v) = none from h2); rfl
    · cases (show (show Option Nat from x) = some a from h1); cases (show (show Option (List t.Val) from v) = some w from h2); rfl
  | map k e =>
    rcases hx with ⟨h1, h2, _⟩ | ⟨a, y, w, g, h1, h2, _⟩
    · cases (show (show Option Nat from x) = none from h1); cases (show (show Option (List (k.Val × e.Val)) from v) = none from h2); rfl
    · cases (show (show Option Nat from x) = some a from h1); cases (show (show Option (List (k.Val × e.Val)) from v) = some w from h2); rfl
  | bytes =>
    rcases hx with ⟨h1, h2, _⟩ | ⟨a, b, h1, h2, _⟩
    · cases (show (show Option Nat from x) = none from h1); cases (show (show Option Bytes from v) = none from h2); rfl
    · cases (show (show Option Nat from x) = some a from h1); cases (show (show Option Bytes from v) = some b from h2); rfl
  | chain c =>
    obtain ⟨h1, _⟩ := hx
    cases (show x = v from h1)
    cases c <;> rfl
  | basic | named | unsupported | array | struct | ref => rfl

/-- What becomes of a member that is not selected -/
def rawClearOne (vis : Vis) (t : Ty) (x : t.Raw) : Option t.Raw := match t.rawIsNil x with
  | none => none
  | some true => some x
  | some false => if vis = .exported then some t.rawZero else none

/-- The index of the selected member among the members behind the first -/
def lowerIdx : Option Nat → Option Nat
  | some (n + 1) => some n
  | _ => none

theorem clear_consLower (vis : Vis) (tag : Tag) (t : Ty) (fs : Fields) (idx : Option Nat) (x : t.Val) (xs : fs.Val) :
    (Fields.cons vis tag t fs).clear idx ((x, xs) : t.Val × fs.Val) =
      match (if idx = some 0 then some x else clearOne vis t x), fs.clear (lowerIdx idx) xs with
      | some x, some xs => some ((x, xs) : t.Val × fs.Val)
      | _, _ => none := rfl

theorem rawClear_consEq (vis : Vis) (tag : Tag) (t : Ty) (fs : Fields) (idx : Option Nat) (x : t.Raw) (xs : fs.Raw) :
    (Fields.cons vis tag t fs).rawClear idx ((x, xs) : t.Raw × fs.Raw) =
      match (if idx = some 0 then some x else rawClearOne vis t x), fs.rawClear (lowerIdx idx) xs with
      | some x, some xs => some ((x, xs) : t.Raw × fs.Raw)
      | _, _ => none := rfl

theorem clearOne_holds (vis : Vis) (t : Ty) {h : Heap} {x : t.Raw} {v : t.Val} {fp : List Nat} (hx : t.Holds h x v fp) :
    (rawClearOne vis t x = none ∧ clearOne vis t v = none) ∨ ∃ x' v' fp', rawClearOne vis t x = some x' ∧ clearOne vis t v = some v' ∧ t.Holds h x' v' fp' ∧ fp'.Sublist fp := by
  unfold rawClearOne clearOne
  rw [rawIsNil_eq t hx]
  cases t.isNil v with
  | none => exact .inl ⟨rfl, rfl⟩
  | some b =>
    cases b with
    | true => exact .inr ⟨x, v, fp, rfl, rfl, hx, List.Sublist.refl _⟩
    | false =>
      by_cases he : vis = .exported
      · exact .inr ⟨t.rawZero, t.zero, [], if_pos he, if_pos he, rawZero_holds h t, List.nil_sublist _⟩
      · exact .inl ⟨if_neg he, if_neg he⟩

/-- Setting members to nil: both panic, or what remains holds the cleared value. -/
theorem clear_holds : (fs : Fields) → (idx : Option Nat) → {h : Heap} → {x : fs.Raw} → {v : fs.Val} → {fp : List Nat} → fs.Holds h x v fp →
    (fs.rawClear idx x = none ∧ fs.clear idx v = none) ∨ ∃ x' v' fp', fs.rawClear idx x = some x' ∧ fs.clear idx v = some v' ∧ fs.Holds h x' v' fp' ∧ fp'.Sublist fp
  | .nil, _, _, _, _, fp, hx => .inr ⟨(), (), [], rfl, rfl, rfl, by rw [show fp = [] from hx]; exact List.Sublist.refl _⟩
  | .cons vis tag t fs, idx, h, x, v, fp, hx => by
    obtain ⟨x, xs⟩ : t.Raw × fs.Raw := x
    obtain ⟨v, vs⟩ : t.Val × fs.Val := v
    obtain ⟨f, g, rfl, h1, h2⟩ := hx
    replace h1 : t.Holds h x v f := h1
    replace h2 : fs.Holds h xs vs g := h2
    have ih := clear_holds fs (lowerIdx idx) h2
    have one : ((if idx = some 0 then some x else rawClearOne vis t x) = none ∧ (if idx = some 0 then some v else clearOne vis t v) = none) ∨
        ∃ x' v' fp', (if idx = some 0 then some x else rawClearOne vis t x) = some x' ∧ (if idx = some 0 then some v else clearOne vis t v) = some v' ∧ t.Holds h x' v' fp' ∧ fp'.Sublist f := by
      by_cases h0 : idx = some 0
      · rw [if_pos h0, if_pos h0]
        exact .inr ⟨x, v, f, rfl, rfl, h1, List.Sublist.refl _⟩
      · rw [if_neg h0, if_neg h0]
        exact clearOne_holds vis t h1
    rw [rawClear_consEq, clear_consLower]
    rcases one with ⟨o1, o2⟩ | ⟨x', v', f', o1, o2, o3, o4⟩
    · rw [o1, o2]
      exact .inl ⟨rfl, rfl⟩
    · rw [o1, o2]
      rcases ih with ⟨i1, i2⟩ | ⟨xs', vs', g', i1, i2, i3, i4⟩
      · rw [i1, i2]
        exact .inl ⟨rfl, rfl⟩
      · rw [i1, i2]
        exact .inr ⟨((x', xs') : t.Raw × fs.Raw), ((v', vs') : t.Val × fs.Val), f' ++ g', rfl, rfl, ⟨f', g', rfl, o3, i3⟩, o4.append i4⟩

/-! ## On an input -/

theorem alike_runE {α β : Type} {R : α → β → Prop} {p : Dec α} {q : Dec β} (h : p.Alike R q) (fin : Err) (s : Bytes) :
    match p.runE fin s with
    | .ok a r => ∃ b, q.runE fin s = .ok b r ∧ R a b
    | .panic m => q.runE fin s = .panic m
    | .diverge => q.runE fin s = .diverge := by
  induction h generalizing s with
  | ret h => exact ⟨_, rfl, h⟩
  | panic w => rfl
  | diverge => rfl
  | read n _ ih =>
    by_cases hn : n ≤ s.length
    · simp only [Dec.runE, if_pos hn]
      exact ih _ _ _ _
    · simp only [Dec.runE, if_neg hn]
      exact ih _ _ _ _

/-! ## All types -/

theorem follows_via {α : Type} {t : Ty} (hc : ∀ old, chainDecoder t old = pure (old, false, none)) {A : Heap → α → t.Val → List Nat → Prop} {fm sm : α → Mem (α × Option Err)}
    {f s : t.Val → Dec (t.Val × Option Err)} (hf : Follows A fm f) (hs : Follows A sm s) (mode : Mode) :
    Follows A (fun x => Mem.via mode x (fm x) (sm x)) (fun v => viaDecFn chainDecoder t mode v f s) := by
  intro h x v fp hx hn
  have keep : ∀ e, Stepped A h fp (v, some e) ((x, some e), h) := fun e => ⟨rfl, kept_refl _ _, fp, hx, hn, owned_refl _ _⟩
  have fast : viaDecFn chainDecoder t .decode v f s = f v := by
    show (chainDecoder t v >>= fun p => if p.2.1 || p.2.2.isSome then pure (p.1, p.2.2) else f p.1) = _
    rw [hc]; rfl
  cases mode with
  | value => exact hs h x v fp hx hn
  | variant => exact .ret (keep _)
  | member => exact .ret (keep _)
  | decode => show Dec.Alike _ (viaDecFn chainDecoder t .decode v f s) _; rw [fast]; exact hf h x v fp hx hn
  | elem => show Dec.Alike _ (viaDecFn chainDecoder t .decode v f s) _; rw [fast]; exact hf h x v fp hx hn

/-- A value that is not in memory -/
theorem follows_plain {α : Type} (p : α → Dec (α × Option Err)) : Follows (fun _ (x v : α) fp => x = v ∧ fp = []) (fun x => Mem.of (p x)) p := by
  rintro h x _ _ ⟨rfl, rfl⟩ _
  have := (Dec.Alike.refl (p x)).bind (f := pure) (g := fun a => pure (a, h)) (S := Stepped (fun _ (x v : α) fp => x = v ∧ fp = []) h []) (by
    rintro ⟨a, o⟩ _ rfl
    exact .ret ⟨rfl, kept_refl _ _, [], ⟨rfl, rfl⟩, List.nodup_nil, owned_refl _ _⟩)
  rwa [← dec_bind_pure] at this

theorem follows_unit {p : Unit → Dec (Unit × Option Err)} : Follows (fun _ (_ _ : Unit) fp => fp = []) (fun x => Mem.of (p x)) p := by
  rintro h x v fp rfl hn
  refine Dec.Alike.mono (follows_plain p h x v [] ⟨rfl, rfl⟩ hn) ?_
  rintro a b ⟨h1, h2, fp', h3, h4, h5⟩
  exact ⟨h1, h2, fp', h3.2, h4, h5⟩

/-- Weaken what is said of the content -/
theorem Follows.change {α β : Type} {A B : Heap → α → β → List Nat → Prop} {dm : α → Mem (α × Option Err)} {d : β → Dec (β × Option Err)} (hd : Follows A dm d)
    (hab : ∀ {h x v fp}, A h x v fp ↔ B h x v fp) : Follows B dm d := by
  intro h x v fp hx hn
  refine Dec.Alike.mono (hd h x v fp (hab.2 hx) hn) ?_
  rintro a b ⟨h1, h2, fp', h3, h4, h5⟩
  exact ⟨h1, h2, fp', hab.1 h3, h4, h5⟩

mutual
theorem decodeMem_follows : (t : Ty) → (mode : Mode) → Follows (fun h => t.Holds h) (decodeMem t mode) (decodeWith chainDecoder t mode)
  | .basic b, mode => follows_plain (decodeWith chainDecoder (.basic b) mode)
  | .named b, mode => follows_plain (decodeWith chainDecoder (.named b) mode)
  | .chain c, mode => follows_plain (decodeWith chainDecoder (.chain c) mode)
  | .unsupported, mode => follows_unit (p := decodeWith chainDecoder .unsupported mode)
  | .ref i s a, mode => follows_unit (p := decodeWith chainDecoder (.ref i s a) mode)
  | .bytes, mode => by
    have hs := (follows_slice (.basic .u8) 1 (dm := fun _ => Mem.of readUint8) (d := fun x => viaDecFn chainDecoder (.basic .u8) .elem x (fun _ => readUint8) (fun x => pure (x, none)))
      (follows_plain (α := UInt8) fun _ => readUint8)).change (fun {h x v fp} => (bytes_holds (h := h) (x := x) (v := v) (fp := fp)).symm)
    exact follows_via (t := .bytes) (fun _ => rfl) follows_bytes hs mode
  | .slice t, mode => follows_via (t := .slice t) (fun _ => rfl) (follows_slice t t.size (decodeMem_follows t .elem)) (follows_slice t t.size (decodeMem_follows t .elem)) mode
  | .array n t, mode => follows_via (t := .array n t) (fun _ => rfl) (follows_each (isLocal_ty t) (decodeMem_follows t .elem)) (follows_each (isLocal_ty t) (decodeMem_follows t .elem)) mode
  | .map k e, mode => by
    have hm := follows_map (k := k) (e := e) (decodeWith chainDecoder k .decode k.zero) (dm := decodeMem e .decode e.rawZero) (d := decodeWith chainDecoder e .decode e.zero)
      fun h => decodeMem_follows e .decode h _ _ [] (rawZero_holds h e) List.nodup_nil
    exact follows_via (t := .map k e) (fun _ => rfl) hm hm mode
  | .ptr t, mode => by
    have slow := follows_ptr (decodeMem_follows t .value)
    cases mode with
    | elem => exact follows_ptr (decodeMem_follows t .decode)
    | variant idx => exact follows_ptr (decodeMem_follows t (.variant idx))
    | decode => exact follows_via (t := .ptr t) (fun _ => rfl) slow slow .decode
    | value => exact slow
    | member =>
      intro h x v fp hx hn
      refine alike_after (a := h.length) (h₁ := h ++ [.var t t.rawZero]) rfl ?_
      refine (follows_at (decodeMem_follows t .decode) (get_new h _) (rawZero_holds _ t) (by simp)).bind ?_
      rintro ⟨w', er⟩ ⟨er', h₁⟩ ⟨he, k₁, y', g₁, hc', hy', n', o'⟩
      cases he
      have kp : h.Kept h₁ fp := kept_trans (kept_new _ _ _) k₁ (fun _ hi => hi) fun i hi => by cases List.mem_singleton.1 hi; exact .inr (Nat.le_refl _)
      cases er with
      | some e => exact .ret ⟨rfl, kp, fp, (isLocal_ty (.ptr t)).frame hx fun i hi => by
          have := (isLocal_ty (.ptr t)).bound hx i hi
          rw [k₁.2 i (by simp; omega) (by simp; omega), List.getElem?_append_left this], hn, owned_refl _ _⟩
      | none =>
        refine .ret ⟨rfl, kp, h.length :: g₁, .inr ⟨h.length, y', w', g₁, rfl, rfl, hc', hy', rfl⟩, n', fun i hi => ?_⟩
        rcases o' i hi with h' | h'
        · cases List.mem_singleton.1 h'; exact .inr (Nat.le_refl _)
        · refine .inr (Nat.le_trans ?_ h'); simp
  | .struct fs, mode => by
    have hf := decodeMemFields_follows fs none
    cases mode with
    | variant idx =>
      intro h x v fp hx hn
      show Dec.Alike _ (if idx ≥ fs.count then pure (v, some errVariantIndex) else match fs.clear (some idx) v with
        | none => .panic "reflect: call of reflect.Value.IsNil on a value that cannot be nil, or Set on an unexported field"
        | some cleared => decodeMember chainDecoder fs idx cleared) ((if idx ≥ fs.count then pure (x, some errVariantIndex) else match fs.rawClear (some idx) x with
        | none => Mem.of (.panic "reflect: call of reflect.Value.IsNil on a value that cannot be nil, or Set on an unexported field")
        | some cleared => decodeMemMember fs idx cleared : Mem (fs.Raw × Option Err)) h)
      split
      · exact .ret ⟨rfl, kept_refl _ _, fp, hx, hn, owned_refl _ _⟩
      · rcases clear_holds fs (some idx) hx with ⟨h1, h2⟩ | ⟨x', v', fp', h1, h2, h3, h4⟩
        · rw [h1, h2]; exact .panic _
        · rw [h1, h2]
          exact Dec.Alike.mono (decodeMemMember_follows fs idx h x' v' fp' h3 (h4.nodup hn)) fun a b hs => Stepped.after (kept_refl _ _) (fun i hi => .inl (h4.subset hi)) hs
    | decode => exact follows_via (t := .struct fs) (fun _ => rfl) hf hf .decode
    | elem => exact follows_via (t := .struct fs) (fun _ => rfl) hf hf .elem
    | value => exact follows_via (t := .struct fs) (fun _ => rfl) hf hf .value
    | member => exact follows_via (t := .struct fs) (fun _ => rfl) hf hf .member
theorem decodeMemFields_follows : (fs : Fields) → (err : Option Err) → Follows (fun h => fs.Holds h) (decodeMemFields fs err) (decodeFields chainDecoder fs err)
  | .nil, err => by
    intro h x v fp hx hn
    exact .ret ⟨rfl, kept_refl _ _, fp, hx, hn, owned_refl _ _⟩
  | .cons vis tag t fs, err => by
    intro h x v fp hx hn
    obtain ⟨x, xs⟩ : t.Raw × fs.Raw := x
    obtain ⟨v, vs⟩ : t.Val × fs.Val := v
    obtain ⟨f, g, rfl, h1, h2⟩ := hx
    have hn' := List.nodup_append.1 hn
    exact follows_field (isLocal_ty t) (isLocal_fields fs) vis tag (fun h => rawZero_holds h t) (fun mode => decodeMem_follows t mode) err
      (fun err h hb => decodeMemFields_follows fs err h xs vs g hb hn'.2.1) h1 h2 hn (alloc_holds t h1 hn'.1)
theorem decodeMemMember_follows : (fs : Fields) → (n : Nat) → Follows (fun h => fs.Holds h) (decodeMemMember fs n) (decodeMember chainDecoder fs n)
  | .nil, n => by
    intro h x v fp hx hn
    exact .ret ⟨rfl, kept_refl _ _, fp, hx, hn, owned_refl _ _⟩
  | .cons vis tag t fs, 0 => by
    intro h x v fp hx hn
    obtain ⟨x, xs⟩ : t.Raw × fs.Raw := x
    obtain ⟨v, vs⟩ : t.Val × fs.Val := v
    obtain ⟨f, g, rfl, h1, h2⟩ := hx
    have hn' := List.nodup_append.1 hn
    refine (decodeMem_follows t .member h x v f h1 hn'.1).bind ?_
    rintro ⟨w', er⟩ ⟨⟨y, er'⟩, h₁⟩ ⟨he, k₁, f₁, hy, n₁, o₁⟩
    cases he
    obtain ⟨b, k, o, n⟩ := step_left (isLocal_fields fs) hn k₁ o₁ n₁ h2
    cases er with
    | some e => exact .ret ⟨rfl, k, f₁ ++ g, ⟨f₁, g, rfl, hy, b⟩, n, o⟩
    | none =>
      simp only []
      split
      · exact .ret ⟨rfl, k, f₁ ++ g, ⟨f₁, g, rfl, hy, b⟩, n, o⟩
      · exact .panic _
  | .cons vis tag t fs, n + 1 => by
    intro h x v fp hx hn
    obtain ⟨x, xs⟩ : t.Raw × fs.Raw := x
    obtain ⟨v, vs⟩ : t.Val × fs.Val := v
    obtain ⟨f, g, rfl, h1, h2⟩ := hx
    have hn' := List.nodup_append.1 hn
    exact next_follows (isLocal_ty t) (isLocal_fields fs) (decodeMemMember_follows fs n h xs vs g h2 hn'.2.1) h1 h2 hn
end

/-! ## Where the result is -/

theorem alike_back {α β : Type} {R : α → β → Prop} {p : Dec α} {q : Dec β} (h : p.Alike R q) {fin : Err} {s r : Bytes} {b : β} (hr : q.runE fin s = .ok b r) : ∃ a, p.runE fin s = .ok a r ∧ R a b := by
  have := alike_runE h fin s
  revert this
  cases hp : p.runE fin s with
  | panic m => intro this; rw [hr] at this; cases this
  | diverge => intro this; rw [hr] at this; cases this
  | ok a r' =>
    rintro ⟨b', h1, h2⟩
    rw [hr] at h1
    cases h1
    exact ⟨a, rfl, h2⟩

theorem kept_of_run {t : Ty} {p : Nat} {h : Heap} {v : t.Val} {g : List Nat} (ha : h.At t p v g) {fin : Err} {s r : Bytes} {o : Option Err} {h' : Heap} (hr : (decodeAt t p h).runE fin s = .ok (o, h') r) :
    h.Kept h' (p :: g) := by
  obtain ⟨y, hc, hy, hn⟩ := ha
  obtain ⟨_, _, _, hk, _⟩ := alike_back (follows_at (decodeMem_follows t .decode) hc hy hn) hr
  exact hk

theorem at_run {t : Ty} {dm : t.Raw → Mem (t.Raw × Option Err)} {a : Nat} {h h' : Heap} {y : t.Raw} {fin : Err} {s r : Bytes} {o : Option Err} (hc : h[a]? = some (.var t y))
    (hr : (Mem.at t dm a h).runE fin s = .ok (o, h') r) : ∃ y' h₁, (dm y h).runE fin s = .ok ((y', o), h₁) r ∧ h' = h₁.set a (.var t y') := by
  have e : Mem.at t dm a h = (dm y h >>= fun q => (pure (q.1.2, q.2.set a (.var t q.1.1)) : Dec (Option Err × Heap))) := by
    show (Mem.load (Cell.asVar t) a h >>= fun p => (do let (y, err) ← dm p.1; Mem.store a (.var t y); pure err : Mem (Option Err)) p.2) = _
    rw [load_var hc]; rfl
  rw [e] at hr
  obtain ⟨⟨⟨y', o'⟩, h₁⟩, m, h1, h2⟩ := Dec.runE_bind_ok hr
  cases h2
  exact ⟨y', h₁, h1, rfl⟩

/-- A step that returns the address a -/
theorem store_run {α β : Type} {dm : Mem (α × Option Err)} {c : α → Cell} {b : β} {a : Nat} {h h₁ : Heap} {fin : Err} {s r : Bytes} {y : β} {o : Option Err}
    (hr : ((do let (zs, err) ← dm; Mem.store a (c zs); pure (b, err) : Mem (β × Option Err)) h).runE fin s = .ok ((y, o), h₁) r) : y = b := by
  obtain ⟨q, m, _, h2⟩ := Dec.runE_bind_ok (show (dm h >>= fun q => (pure ((b, q.1.2), q.2.set a (c q.1.1)) : Dec ((β × Option Err) × Heap))).runE fin s = _ from hr)
  cases h2
  rfl

theorem sliceAt_run {t : Ty} {size : Nat} {dm : t.Raw → Mem (t.Raw × Option Err)} {d : t.Val → Dec (t.Val × Option Err)} (hd : Follows (fun h => t.Holds h) dm d) {a : Nat} {h h₁ : Heap} {ys : List t.Raw}
    (hy : h[a]? = some (.arr t ys)) {fin : Err} {s m r : Bytes} {l : UInt64} (hl : readVaruint.runE fin s = .ok (l, none) m) {y : Option Nat} {o : Option Err}
    (hr : (Mem.slice t size dm (some a) h).runE fin s = .ok ((y, o), h₁) r) :
    if goInt l = ys.length then y = some a else y = some h.length ∧ ∀ i < h.length, h₁[i]? = h[i]? := by
  have hlen : Mem.len t (some a) h = pure (ys.length, h) := by
    show ((Mem.load (Cell.asArr t) a >>= fun xs => pure xs.length) : Mem Nat) h = _
    rw [mem_bind (load_arr hy)]; rfl
  unfold Mem.slice at hr
  obtain ⟨⟨⟨l', o'⟩, h₂⟩, m', h1, h2⟩ := Dec.runE_bind_ok (show (Mem.of readVaruint h >>= _).runE fin s = _ from hr)
  obtain ⟨q, m'', h3, h4⟩ := Dec.runE_bind_ok h1
  rw [hl] at h3
  cases h3
  cases h4
  simp only [] at h2
  rw [mem_bind hlen] at h2
  split
  · rename_i he
    rw [if_neg (by simpa using he.symm)] at h2
    rw [mem_bind (load_arr hy)] at h2
    exact store_run h2
  · rename_i he
    rw [if_pos (by simpa using fun e => he e.symm)] at h2
    unfold makeSlice at h2
    split at h2
    · cases h2
    split at h2
    · cases h2
    have h2 : ((do let (zs, err) ← Mem.each dm (List.replicate l.toNat t.rawZero); Mem.store h.length (.arr t zs); pure (some h.length, err) : Mem (Option Nat × Option Err))
      (h ++ [.arr t (List.replicate l.toNat t.rawZero)])).runE fin m = .ok ((y, o), h₁) r := h2
    refine ⟨store_run h2, fun i hi => ?_⟩
    obtain ⟨_, _, _, hk, _⟩ := alike_back (slice_loop hd (h := h ++ [.arr t (List.replicate l.toNat t.rawZero)]) (a := h.length) (g := []) (by simp) (holdEach_replicate (rawZero_holds _ t) l.toNat) (by simp)) h2
    rw [hk.2 i (by simp; omega) (by simp; omega), List.getElem?_append_left hi]

theorem mapAt_run {k e : Ty} {dk : Dec (k.Val × Option Err)} {dm : Mem (e.Raw × Option Err)} {d : Dec (e.Val × Option Err)} (hd : ∀ h, d.Alike (Stepped (fun h => e.Holds h) h []) (dm h)) {a : Nat}
    {h h₁ : Heap} {ys : List (k.Val × e.Raw)} (hy : h[a]? = some (.map k e ys)) {fin : Err} {s m r : Bytes} {l : UInt64} (hl : readVaruint.runE fin s = .ok (l, none) m) {y : Option Nat}
    {o : Option Err} (hr : (Mem.map k e dk dm (some a) h).runE fin s = .ok ((y, o), h₁) r) :
    if ys = [] then y = some a else y = some h.length ∧ ∀ i < h.length, h₁[i]? = h[i]? := by
  unfold Mem.map at hr
  obtain ⟨⟨⟨l', o'⟩, h₂⟩, m', h1, h2⟩ := Dec.runE_bind_ok (show (Mem.of readVaruint h >>= _).runE fin s = _ from hr)
  obtain ⟨q, m'', h3, h4⟩ := Dec.runE_bind_ok h1
  rw [hl] at h3
  cases h3
  cases h4
  simp only [] at h2
  split
  · rename_i he
    have he' : Mem.ensureMap k e (some a) h = pure (a, h) := by
      show ((Mem.load (Cell.asMap k e) a >>= fun m => _) h) = _
      rw [mem_bind (load_map hy), if_neg (by simp [he])]; rfl
    rw [mem_bind he'] at h2
    exact store_run h2
  · rename_i he
    have he' : Mem.ensureMap k e (some a) h = pure (h.length, h ++ [.map k e []]) := by
      show ((Mem.load (Cell.asMap k e) a >>= fun m => _) h) = _
      rw [mem_bind (load_map hy), if_pos (by simpa using he)]; rfl
    rw [mem_bind he'] at h2
    refine ⟨store_run h2, fun i hi => ?_⟩
    obtain ⟨_, _, _, hk, _⟩ := alike_back (map_loop dk hd (goInt l).toNat (h := h ++ [.map k e []]) (a := h.length) (by simp)) h2
    rw [hk.2 i (by simp; omega) (by simp; omega), List.getElem?_append_left hi]

end Verif
