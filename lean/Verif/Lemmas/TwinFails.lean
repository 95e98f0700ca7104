import Verif.Lemmas.Twin
import Verif.Props.AbiFails
import Verif.Props.Fails
/-! # The errors of the two decoders on types that describe the same data -/
namespace Verif

variable {a : Abi} {fin : Err}

/-- The failure is the error e, unless it is a panic. -/
def Mostly (e : Err) (P : Failure → Prop) : Prop := P (.err e) ∨ P .panic

theorem Mostly.map {e : Err} {P Q : Failure → Prop} (h : ∀ y, P y → Q y) (hp : Mostly e P) : Mostly e Q := hp.imp (h _) (h _)

theorem gives_splits {t : Ty} (ht : t.Strait) {m : Mode} {v : t.Val} {s r : Bytes} (h : t.Gives fin m v s r) : ∃ w, s = w ++ r ∧ t.Takes m v w :=
  (ty_exactly t ht m fin s v r).1 (((ty_does t m).gives fin s v r).2 h)

theorem suffix_le {w r : Bytes} {k n : Nat} (h : (w ++ r).length * k ≤ n) : w.length * k ≤ n ∧ r.length * k ≤ n := by
  rw [List.length_append] at h
  exact ⟨mul_le_of (by omega) h, mul_le_of (by omega) h⟩

theorem inner_gives {b : Bytes} {t : Ty} (tw : TwinInner a b t) {m : Mode} (hm : m = .decode ∨ m = .elem) {v : t.Val} {s r : Bytes} (hL : s.length * 16 ≤ maxAlloc) (h : t.Gives fin m v s r) :
    GivesInner a fin b s (tw.av v) r ∧ r.length * 16 ≤ maxAlloc := by
  obtain ⟨w, rfl, h'⟩ := gives_splits (inner_go tw).1 h
  exact ⟨accepts_givesInner (inner_accepts tw m hm v w (suffix_le hL).1 h') r, (suffix_le hL).2⟩

theorem body_gives {b : Bytes} {arr : Bool} {t : Ty} (tw : TwinBody a b arr t) {m : Mode} (hm : m = .decode ∨ m = .elem) {v : t.Val} {s r : Bytes} (hL : s.length * 16 ≤ maxAlloc)
    (h : t.Gives fin m v s r) (ext : Bool) : GivesBody a fin b arr ext s (tw.av v) r ∧ r.length * 16 ≤ maxAlloc := by
  obtain ⟨w, rfl, h'⟩ := gives_splits (body_go tw).1 h
  exact ⟨accepts_givesBody (body_accepts tw m hm v w (suffix_le hL).1 h') r ext, (suffix_le hL).2⟩

theorem members_gives {fs : List AbiField} {gs : Fields} (tw : TwinMembers a fs gs) {v : gs.Val} {s r : Bytes} (hL : s.length * 16 ≤ maxAlloc) (h : (Ty.struct gs).Gives fin .elem v s r) :
    GivesMembers a fin fs s (tw.entries v) r ∧ r.length * 16 ≤ maxAlloc := by
  obtain ⟨w, rfl, h'⟩ := gives_splits (t := .struct gs) (members_go tw).1 h
  exact ⟨accepts_givesMembers (members_accepts tw v w (suffix_le hL).1 h') r, (suffix_le hL).2⟩

theorem failsMembers_left {es : List AbiField} (fs : List AbiField) {s : Bytes} {x : Failure} (h : FailsMembers a fin es s x) : FailsMembers a fin (es ++ fs) s x := by
  match h with
  | .here h => exact .here h
  | .later h1 h2 => exact .later h1 (failsMembers_left fs h2)

theorem failsMembers_right {es fs : List AbiField} {xs : List (Bytes × AV)} {s m : Bytes} {x : Failure} (h : GivesMembers a fin es s xs m) (hf : FailsMembers a fin fs m x) :
    FailsMembers a fin (es ++ fs) s x := by
  match h with
  | .nil => exact hf
  | .cons h1 h2 => exact .later h1 (failsMembers_right h2 hf)

/-- Elements -/
theorem among_items {α : Type} {R : α → Bytes → Bytes → Prop} {F : Bytes → Failure → Prop} {f : α → AV} {b : Bytes} {e : Err}
    (hg : ∀ x s m, s.length * 16 ≤ maxAlloc → R x s m → GivesInner a fin b s (f x) m ∧ m.length * 16 ≤ maxAlloc)
    (hf : ∀ s, s.length * 16 ≤ maxAlloc → F s (.err e) → Mostly e (FailsInner a fin b s)) :
    ∀ {n : Nat} {s : Bytes}, s.length * 16 ≤ maxAlloc → FaultAmong R F n s (.err e) → Mostly e (FailsItems a fin b n s) := by
  rintro n s hL ⟨xs, m, hn, hi, hx⟩
  induction hi generalizing n with
  | nil =>
    obtain ⟨n, rfl⟩ : ∃ k, n = k + 1 := ⟨n - 1, by simp at hn; omega⟩
    exact (hf _ hL hx).map fun y h => .here h
  | cons h1 _ ih =>
    obtain ⟨n, rfl⟩ : ∃ k, n = k + 1 := ⟨n - 1, by simp at hn; omega⟩
    obtain ⟨h2, h3⟩ := hg _ _ _ hL h1
    exact (ih h3 (by simpa using hn) hx).map fun y h => .later h2 h

theorem slice_body {α : Type} {size : Nat} {R : α → Bytes → Bytes → Prop} {F : Bytes → Failure → Prop} {b : Bytes} {e : Err} {s : Bytes} (hL : s.length * 16 ≤ maxAlloc)
    (hi : ∀ {n : Nat} {s : Bytes}, s.length * 16 ≤ maxAlloc → FaultAmong R F n s (.err e) → Mostly e (FailsItems a fin b n s))
    (h : FaultSlice size R F fin s (.err e)) : Mostly e (FailsBody a fin b true false s) := by
  rcases h with h | ⟨n, lb, s', h1, rfl, ⟨_, h⟩ | ⟨h2, _, h⟩⟩
  · exact .inl (.count h nofun)
  · cases h
  · by_cases hn : n * 16 ≤ maxAlloc
    · exact (hi (suffix_le hL).2 h).map fun y h => .element h1 h2 hn h
    · exact .inr (.large h1 (.inr (by omega)))

section
variable {root : Bytes} (hx : a.NoExtension root)
include hx

mutual
theorem inner_refuses {e : Err} : {b : Bytes} → {t : Ty} → (tw : TwinInner a b t) → (m : Mode) → m = .decode ∨ m = .elem → {n : Bytes} → {arr ext opt : Bool} → Reach a root n → Spelled n b arr ext opt →
    (s : Bytes) → s.length * 16 ≤ maxAlloc → t.Fails fin m s (.err e) → Mostly e (FailsInner a fin b s)
  | _, _, .alias (ext := ext) h1 h2 tw, m, hm, _, _, _, _, hr, hs, s, hL, h => by
    have hr' := Reach.step hr (.alias hs h1)
    cases ext with
    | true => exact absurd h2 (hx _ _ _ _ hr')
    | false => exact (body_refuses tw m hm hr' h2 s hL h).map fun y h => .alias h1 (.plain h2 h)
  | _, _, .struct (gs := gs) h1 h2 tw, m, hm, _, _, _, _, hr, hs, s, hL, h => by
    have h : gs.Fails fin false s (.err e) := by rcases hm with rfl | rfl <;> exact h
    exact (members_refuses tw (fieldsOf_reach h1 hr hs) s hL h).map fun y h => .struct h1 h
  | _, _, .basic h1 h2, m, hm, _, _, _, _, hr, hs, s, hL, h => by
    rcases hm with rfl | rfl <;> rcases h with h | ⟨h, _⟩ | ⟨⟨_, h⟩, _⟩ | ⟨h, _⟩ <;> first | exact .inl (.builtin h1 (.basic h2 h.2)) | cases h
  | _, _, .chain h1 h2, m, hm, _, _, _, _, hr, hs, s, hL, h => by
    rcases hm with rfl | rfl <;> rcases h with h | ⟨h, _⟩ <;> first | exact .inl (.builtin h1 (.chain h2 h.2)) | cases h
  | _, _, .uint64 h1, m, hm, _, _, _, _, hr, hs, s, hL, h => by
    rcases hm with rfl | rfl <;> rcases h with h | ⟨h, _⟩ | ⟨⟨_, h⟩, _⟩ | ⟨h, _⟩ <;> first | exact .inl (.builtin h1 (.chain (c := .uint64) (by decide) h.2)) | cases h
  | _, _, .bytes h1, m, hm, _, _, _, _, hr, hs, s, hL, h => by
    rcases hm with rfl | rfl <;> rcases h with h | ⟨h, _⟩ | ⟨⟨_, h⟩, _⟩ | ⟨h, _⟩ <;> first | exact .inl (.builtin h1 (.bytes h.2)) | cases h
  | _, _, .chainBytes h1, m, hm, _, _, _, _, hr, hs, s, hL, h => by
    rcases hm with rfl | rfl <;> rcases h with h | ⟨h, _⟩ <;> first | exact .inl (.builtin h1 (.bytes h.2)) | cases h
theorem body_refuses {e : Err} : {b : Bytes} → {arr : Bool} → {t : Ty} → (tw : TwinBody a b arr t) → (m : Mode) → m = .decode ∨ m = .elem → {n : Bytes} → {ext opt : Bool} → Reach a root n →
    Spelled n b arr ext opt → (s : Bytes) → s.length * 16 ≤ maxAlloc → t.Fails fin m s (.err e) → Mostly e (FailsBody a fin b arr false s)
  | _, _, _, .one tw, m, hm, _, _, _, hr, hs, s, hL, h => (inner_refuses tw m hm hr hs s hL h).map fun y h => .one h nofun
  | _, _, _, .many (t := t) tw, m, hm, _, _, _, hr, hs, s, hL, h => by
    have h : FaultSlice t.size (fun v s r => t.Gives fin .elem v s r) (fun s x => t.Fails fin .elem s x) fin s (.err e) := by
      rcases hm with rfl | rfl <;> rcases h with h | ⟨⟨_, h⟩, _⟩ | ⟨h, _⟩ <;> first | exact h.2 | cases h
    exact slice_body hL (fun hL h => among_items (fun x s m hL h => inner_gives tw (.inr rfl) hL h) (fun s hL h => inner_refuses tw .elem (.inr rfl) hr hs s hL h) hL h) h
  | _, _, _, .pointers (t := t) tw, m, hm, _, _, _, hr, hs, s, hL, h => by
    have h : FaultSlice (Ty.ptr t).size (fun v s r => (Ty.ptr t).Gives fin .elem v s r) (fun s x => (Ty.ptr t).Fails fin .elem s x) fin s (.err e) := by
      rcases hm with rfl | rfl <;> rcases h with h | ⟨⟨_, h⟩, _⟩ | ⟨h, _⟩ <;> first | exact h.2 | cases h
    refine slice_body hL (fun hL h => among_items (f := fun x : Option t.Val => match x with
      | none => .nil
      | some x => tw.av x) (fun x s m hL h => ?_) (fun s hL h => inner_refuses tw .decode (.inl rfl) hr hs s hL h) hL h) h
    obtain ⟨y, e, h⟩ := h
    have e : x = some y := e
    subst e
    exact inner_gives tw (.inl rfl) hL h
theorem members_refuses {e : Err} : {fs : List AbiField} → {gs : Fields} → (tw : TwinMembers a fs gs) → (∀ f ∈ fs, Reach a root f.type) → (s : Bytes) → s.length * 16 ≤ maxAlloc →
    gs.Fails fin false s (.err e) → Mostly e (FailsMembers a fin fs s)
  | _, _, .nil, hr, s, hL, h => nomatch h.1
  | _, _, .plain (ext := ext) (t := t) h1 tw ws, hr, s, hL, h => by
    have hr' := hr _ List.mem_cons_self
    cases ext with
    | true => exact absurd h1 (hx _ _ _ _ hr')
    | false =>
      rcases h with h | ⟨v, m, h2, h⟩
      · exact (body_refuses tw .elem (.inr rfl) hr' h1 s hL h).map fun y h => .here (.plain h1 h)
      · obtain ⟨h3, h4⟩ := body_gives tw (.inr rfl) hL h2 false
        exact (members_refuses ws (fun f hf => hr f (List.mem_cons_of_mem _ hf)) m h4 h).map fun y h => .later (.plain h1 h3) h
  | _, _, .pointer (ext := ext) (t := t) h1 tw ws, hr, s, hL, h => by
    have hr' := hr _ List.mem_cons_self
    cases ext with
    | true => exact absurd h1 (hx _ _ _ _ hr')
    | false =>
      rcases h with h | ⟨v, m, ⟨y, _, h2⟩, h⟩
      · exact (body_refuses tw .decode (.inl rfl) hr' h1 s hL h).map fun y h => .here (.plain h1 h)
      · obtain ⟨h3, h4⟩ := body_gives tw (.inl rfl) hL h2 false
        exact (members_refuses ws (fun f hf => hr f (List.mem_cons_of_mem _ hf)) m h4 h).map fun y h => .later (.plain h1 h3) h
  | _, _, .optional (ext := ext) (t := t) h1 tw ws, hr, s, hL, h => by
    have hr' := hr _ List.mem_cons_self
    have hrs := fun f hf => hr f (List.mem_cons_of_mem _ hf)
    cases ext with
    | true => exact absurd h1 (hx _ _ _ _ hr')
    | false =>
      rcases h with h | ⟨s', rfl, h⟩ | ⟨p, s', hp, rfl, h⟩
      · exact .inl (.here (.mark h1 h))
      · exact (members_refuses ws hrs s' (suffix_le (w := [0]) hL).2 h).map fun y h => .later (.absent h1) h
      · have hL' := (suffix_le (w := [p]) hL).2
        rcases h with h | ⟨v, m, ⟨y, _, h2⟩, h⟩
        · exact (body_refuses tw .decode (.inl rfl) hr' h1 s' hL' h).map fun y h => .here (.present h1 hp h)
        · obtain ⟨h3, h4⟩ := body_gives tw (.inl rfl) hL' h2 false
          exact (members_refuses ws hrs m h4 h).map fun y h => .later (.present h1 hp h3) h
  | _, _, .within tw ws, hr, s, hL, h => by
    rcases h with h | ⟨v, m, h2, h⟩
    · exact (members_refuses tw (fun f hf => hr f (List.mem_append_left _ hf)) s hL h).map fun y h => failsMembers_left _ h
    · obtain ⟨h3, h4⟩ := members_gives tw hL h2
      exact (members_refuses ws (fun f hf => hr f (List.mem_append_right _ hf)) m h4 h).map fun y h => failsMembers_right h3 h
end
end

mutual
theorem inner_refless : {b : Bytes} → {t : Ty} → TwinInner a b t → t.Refless
  | _, _, .alias _ _ tw => body_refless tw
  | _, _, .struct _ _ tw => members_refless tw
  | _, _, .basic _ _ => trivial
  | _, _, .chain _ _ => trivial
  | _, _, .uint64 _ => trivial
  | _, _, .bytes _ => trivial
  | _, _, .chainBytes _ => trivial
theorem body_refless : {b : Bytes} → {arr : Bool} → {t : Ty} → TwinBody a b arr t → t.Refless
  | _, _, _, .one tw => inner_refless tw
  | _, _, _, .many tw => by have h := inner_refless tw; exact h
  | _, _, _, .pointers tw => by have h := inner_refless tw; exact h
theorem members_refless : {fs : List AbiField} → {gs : Fields} → TwinMembers a fs gs → gs.Refless
  | _, _, .nil => trivial
  | _, _, .plain _ tw ws => ⟨body_refless tw, members_refless ws⟩
  | _, _, .pointer _ tw ws => ⟨by have h := body_refless tw; exact h, members_refless ws⟩
  | _, _, .optional _ tw ws => ⟨by have h := body_refless tw; exact h, members_refless ws⟩
  | _, _, .within tw ws => ⟨by have h := members_refless tw; exact h, members_refless ws⟩
end

end Verif
