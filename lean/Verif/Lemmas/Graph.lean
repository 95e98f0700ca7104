import Verif.Spec.Graph
import Verif.Lemmas.RecursiveSim
import Verif.Lemmas.RecursiveEnc
/-! # Following pointers -/
namespace Verif

/-! ### Zero values -/

theorem map_replicate_iff {α β γ : Type} (f : α → β) (g : α → γ) (z : β) (z' : γ) (h : ∀ x, f x = z ↔ g x = z') (n : Nat) (xs : List α) :
    xs.map f = List.replicate n z ↔ xs.map g = List.replicate n z' := by
  induction xs generalizing n with
  | nil => cases n <;> simp
  | cons x xs ih =>
    cases n with
    | zero => simp
    | succ n => rw [List.map_cons, List.map_cons, List.replicate_succ, List.replicate_succ, List.cons.injEq, List.cons.injEq, h, ih]

section
variable {σ τ ρ : Nat → Nat → Nat → Ty} {f : ∀ i s a, (ρ i s a).Val → (σ i s a).Val} {g : ∀ i s a, (ρ i s a).Val → (τ i s a).Val}

mutual
theorem zero_follow : (t : Ty) → t.Indirect false → (v : (t.subst ρ).Val) → (t.mapRefs f v = (t.subst σ).zero ↔ t.mapRefs g v = (t.subst τ).zero)
  | .basic _, _, _ => Iff.rfl
  | .named _, _, _ => Iff.rfl
  | .unsupported, _, _ => Iff.rfl
  | .bytes, _, _ => Iff.rfl
  | .chain _, _, _ => Iff.rfl
  | .ptr t, _, v => by
    show Option.map _ _ = none ↔ Option.map _ _ = none
    rw [Option.map_eq_none_iff, Option.map_eq_none_iff]
  | .slice t, _, v => by
    show Option.map _ _ = none ↔ Option.map _ _ = none
    rw [Option.map_eq_none_iff, Option.map_eq_none_iff]
  | .map k e, _, v => by
    show Option.map _ _ = none ↔ Option.map _ _ = none
    rw [Option.map_eq_none_iff, Option.map_eq_none_iff]
  | .array n t, h, v => map_replicate_iff _ _ _ _ (zero_follow t h) n _
  | .struct fs, h, v => zeroFields_follow fs h v
theorem zeroFields_follow : (fs : Fields) → fs.Indirect false → (v : (fs.subst ρ).Val) → (fs.mapRefs f v = (fs.subst σ).zero ↔ fs.mapRefs g v = (fs.subst τ).zero)
  | .nil, _, _ => Iff.rfl
  | .cons _ _ t fs, h, v => by
    refine Prod.mk_inj.trans (Iff.trans ?_ Prod.mk_inj.symm)
    exact and_congr (zero_follow t h.1 _) (zeroFields_follow fs h.2.2 _)
end

theorem isZero_follow (t : Ty) (h : t.Indirect false) (v : (t.subst ρ).Val) : (t.subst τ).isZero (t.mapRefs g v) = (t.subst σ).isZero (t.mapRefs f v) :=
  decide_eq_decide.mpr (zero_follow t h v).symm

/-! ### Deeper -/

theorem encEach_follow {α β γ : Type} {f : α → β} {g : α → γ} {d : β → Enc (Option Err)} {d' : γ → Enc (Option Err)} (k : Enc (Option Err)) (h : ∀ x, (d (f x)).Below (d' (g x))) (xs : List α) :
    (encEach d k (xs.map f)).Below (encEach d' k (xs.map g)) := by
  induction xs with
  | nil => exact .refl _
  | cons x xs ih =>
    refine (h x).bind ?_
    rintro (_ | e)
    · exact ih
    · exact .refl _

mutual
theorem encode_follow (hl : ∀ i s a, (σ i s a).Closed) (hr : ∀ i s a, (τ i s a).Closed)
    (hs : ∀ i s a p, (encodeWith chainEncoder (σ i s a) (f i s a p)).Below (encodeWith chainEncoder (τ i s a) (g i s a p))) : (t : Ty) → (b : Bool) → t.Indirect b → (v : (t.subst ρ).Val) →
    (encodeWith chainEncoder (t.subst σ) (t.mapRefs f v)).Below (encodeWith chainEncoder (t.subst τ) (t.mapRefs g v))
  | .basic _, _, _, _ => .refl _
  | .named _, _, _, _ => .refl _
  | .unsupported, _, _, _ => .refl _
  | .bytes, _, _, _ => .refl _
  | .chain _, _, _, _ => .refl _
  | .ptr t, _, hi, v => by
    have ih := encode_follow hl hr hs t true hi
    cases t with
    | chain c => cases v <;> exact .refl _
    | ref i s a =>
      refine Enc.Below.of_eq' (encode_ptr (hl i s a) _) (encode_ptr (hr i s a) _) ?_
      cases v with
      | none => exact .refl _
      | some x => exact ih x
    | _ =>
      cases v with
      | none => exact .refl _
      | some x => exact ih x
  | .slice t, _, hi, v => by
    cases v with
    | none => exact .refl _
    | some xs =>
      change List (t.subst ρ).Val at xs
      refine Enc.Below.bind (p := writeVaruint (xs.map (t.mapRefs f)).length.toUInt64) (p' := writeVaruint (xs.map (t.mapRefs g)).length.toUInt64) (.of_eq (by simp)) ?_
      rintro (_ | e)
      · exact encEach_follow (pure none) (encode_follow hl hr hs t true hi) xs
      · exact .refl _
  | .array n t, b, hi, v => encEach_follow _ (encode_follow hl hr hs t b hi) _
  | .map k e, _, hi, v => by
    cases v with
    | none => exact .refl _
    | some xs =>
      change List (k.Val × (e.subst ρ).Val) at xs
      refine Enc.Below.bind (p := writeVaruint (xs.map fun x => (x.1, e.mapRefs f x.2)).length.toUInt64)
        (p' := writeVaruint (xs.map fun x => (x.1, e.mapRefs g x.2)).length.toUInt64) (.of_eq (by simp)) ?_
      rintro (_ | err)
      · refine encEach_follow (f := fun x : k.Val × (e.subst ρ).Val => (x.1, e.mapRefs f x.2)) (g := fun x : k.Val × (e.subst ρ).Val => (x.1, e.mapRefs g x.2))
          (d := fun x : k.Val × (e.subst σ).Val => do match ← encodeWith chainEncoder k x.1 with | some err => pure (some err) | none => encodeWith chainEncoder (e.subst σ) x.2)
          (d' := fun x : k.Val × (e.subst τ).Val => do match ← encodeWith chainEncoder k x.1 with | some err => pure (some err) | none => encodeWith chainEncoder (e.subst τ) x.2) (pure none) ?_ xs
        intro x
        refine (Enc.Below.refl _).bind ?_
        rintro (_ | err)
        · exact encode_follow hl hr hs e true hi x.2
        · exact .refl _
      · exact .refl _
  | .struct fs, b, hi, v => encodeFields_follow hl hr hs fs b hi v
  | .ref i s a, _, _, v => hs i s a v
theorem encodeFields_follow (hl : ∀ i s a, (σ i s a).Closed) (hr : ∀ i s a, (τ i s a).Closed)
    (hs : ∀ i s a p, (encodeWith chainEncoder (σ i s a) (f i s a p)).Below (encodeWith chainEncoder (τ i s a) (g i s a p))) : (fs : Fields) → (b : Bool) → fs.Indirect b → (v : (fs.subst ρ).Val) →
    (encodeFields chainEncoder (fs.subst σ) (fs.mapRefs f v)).Below (encodeFields chainEncoder (fs.subst τ) (fs.mapRefs g v))
  | .nil, _, _, _ => .refl _
  | .cons vis tag t fs, b, hi, v => by
    obtain ⟨x, xs⟩ : (t.subst ρ).Val × (fs.subst ρ).Val := v
    have h1 := encode_follow hl hr hs t b hi.1 x
    have h2 := encodeFields_follow hl hr hs fs b hi.2.2 xs
    by_cases ht : tag = .optional
    · exact encodeField_below vis tag _ _ (isZero_follow t (hi.2.1 ht) x) h1 h2
    · show (encodeField vis tag _ _ _).Below (encodeField vis tag _ _ _)
      unfold encodeField
      rw [if_neg ht, if_neg ht]
      split
      · refine h1.bind ?_
        rintro (_ | e)
        · exact h2
        · exact .refl _
      · exact .refl _
end
end

theorem follow_deeper {D : Decls} (hi : ∀ i, (D i).Indirect true) (G : Graph D) : ∀ n i s a p,
    (encodeWith chainEncoder (D.level n i s a) (G.follow n i s a p)).Below (encodeWith chainEncoder (D.level (n + 1) i s a) (G.follow (n + 1) i s a p))
  | 0, _, _, _, _ => trivial
  | n + 1, i, _, _, p => encode_follow (level_closed D n) (level_closed D (n + 1)) (follow_deeper hi G n) (.struct (D i)) true (hi i) (G i p)

theorem follow_below {D : Decls} (hi : ∀ i, (D i).Indirect true) (G : Graph D) (t : Ty) (ht : t.Indirect true) (v : (t.subst addrTy).Val) (n : Nat) : ∀ k,
    (encodeWith chainEncoder (t.unfold D n) (t.follow G n v)).Below (encodeWith chainEncoder (t.unfold D (n + k)) (t.follow G (n + k) v))
  | 0 => .refl _
  | k + 1 => (follow_below hi G t ht v n k).trans (encode_follow (level_closed D _) (level_closed D _) (follow_deeper hi G (n + k)) t true ht v)

/-! ### Without cycles -/

mutual
theorem whole_ends : (t : Ty) → t.Whole → (v : t.Val) → t.Ends v
  | .basic _, _, _ => trivial
  | .named _, _, _ => trivial
  | .unsupported, _, _ => trivial
  | .bytes, _, _ => trivial
  | .chain _, _, _ => trivial
  | .ptr t, h, _ => fun x _ => whole_ends t h x
  | .slice t, h, _ => fun x _ => whole_ends t h x
  | .array _ t, h, _ => fun x _ => whole_ends t h x
  | .map k e, h, _ => fun x _ => ⟨whole_ends k h.1 x.1, whole_ends e h.2 x.2⟩
  | .struct fs, h, v => wholeFields_ends fs h v
theorem wholeFields_ends : (fs : Fields) → fs.Whole → (v : fs.Val) → fs.Ends v
  | .nil, _, _ => trivial
  | .cons _ _ t fs, h, v => ⟨whole_ends t h.1 _, wholeFields_ends fs h.2 _⟩
end

mutual
theorem follow_ends {D : Decls} {σ : Nat → Nat → Nat → Ty} {f : ∀ i s a, (addrTy i s a).Val → (σ i s a).Val} : (t : Ty) → t.RefsOk D → (v : (t.subst addrTy).Val) →
    (∀ i s a p, t.Mentions v i p → (σ i s a).Ends (f i s a p)) → (t.subst σ).Ends (t.mapRefs f v)
  | .basic _, _, _, _ => trivial
  | .named _, _, _, _ => trivial
  | .unsupported, _, _, _ => trivial
  | .bytes, _, _, _ => trivial
  | .chain _, _, _, _ => trivial
  | .ptr t, hr, v, h => fun x hx => by
    obtain ⟨y, hy, rfl⟩ := Option.map_eq_some_iff.1 hx
    exact follow_ends t hr y fun i s a p hm => h i s a p ⟨y, hy, hm⟩
  | .slice t, hr, v, h => fun x hx => by
    cases v with
    | none => cases hx
    | some xs =>
      obtain ⟨y, hy, rfl⟩ := List.mem_map.1 hx
      exact follow_ends t hr y fun i s a p hm => h i s a p ⟨y, hy, hm⟩
  | .array _ t, hr, v, h => fun x hx => by
    obtain ⟨y, hy, rfl⟩ := List.mem_map.1 hx
    exact follow_ends t hr y fun i s a p hm => h i s a p ⟨y, hy, hm⟩
  | .map k e, hr, v, h => fun x hx => by
    cases v with
    | none => cases hx
    | some xs =>
      obtain ⟨y, hy, rfl⟩ := List.mem_map.1 hx
      exact ⟨whole_ends k hr.1 _, follow_ends e hr.2 y.2 fun i s a p hm => h i s a p ⟨y, hy, hm⟩⟩
  | .struct fs, hr, v, h => followFields_ends fs hr v h
  | .ref i s a, _, v, h => h i s a v ⟨rfl, rfl⟩
theorem followFields_ends {D : Decls} {σ : Nat → Nat → Nat → Ty} {f : ∀ i s a, (addrTy i s a).Val → (σ i s a).Val} : (fs : Fields) → fs.RefsOk D → (v : (fs.subst addrTy).Val) →
    (∀ i s a p, fs.Mentions v i p → (σ i s a).Ends (f i s a p)) → (fs.subst σ).Ends (fs.mapRefs f v)
  | .nil, _, _, _ => trivial
  | .cons _ _ t fs, hr, v, h => ⟨follow_ends t hr.1 _ fun i s a p hm => h i s a p (.inl hm), followFields_ends fs hr.2 _ fun i s a p hm => h i s a p (.inr hm)⟩
end

theorem ranked_ends {D : Decls} (hD : D.Ok) (G : Graph D) (r : Nat → UInt64 → Nat) (hr : G.Ranked r) : ∀ n i s a p, r i p < n → (D.level n i s a).Ends (G.follow n i s a p)
  | 0, _, _, _, _, h => absurd h (Nat.not_lt_zero _)
  | n + 1, i, _, _, p, h => followFields_ends (D i) (hD i) (G i p) fun j s a q hm => ranked_ends hD G r hr n j s a q (by have := hr i p j q hm; omega)

/-! ### With cycles -/

/-- p does not return a nil error. -/
def Enc.NoNil : Enc (Option Err) → Prop
  | .ret a => a ≠ none
  | .panic _ => True
  | .diverge => True
  | .write _ k => ∀ e, (k e).NoNil

theorem Enc.NoNil.bind_right {α : Type} {p : Enc α} {g : α → Enc (Option Err)} (h : ∀ a, (g a).NoNil) : (p >>= g).NoNil := by
  change (Enc.bind p g).NoNil
  induction p with
  | ret a => exact h a
  | panic _ => trivial
  | diverge => trivial
  | write b k ih => exact ih

theorem Enc.NoNil.bind_left {p : Enc (Option Err)} {g : Option Err → Enc (Option Err)} (hp : p.NoNil) (h : ∀ e, (g (some e)).NoNil) : (p >>= g).NoNil := by
  change (Enc.bind p g).NoNil
  induction p with
  | ret a =>
    cases a with
    | none => exact absurd rfl hp
    | some e => exact h e
  | panic _ => trivial
  | diverge => trivial
  | write b k ih => exact fun e => ih e (hp e)

theorem Enc.NoNil.runW {p : Enc (Option Err)} (h : p.NoNil) (w : Nat → WEv) (out : Bytes) (fl : Bool) : p.runW w ≠ .ok none out fl := by
  induction p generalizing w out fl with
  | ret a => intro hh; cases hh; exact h rfl
  | panic _ => exact fun h => nomatch h
  | diverge => exact fun h => nomatch h
  | write b k ih =>
    have key : ∀ (o : WOut (Option Err)) (b : Bytes) (f : Bool), (∀ out fl, o ≠ .ok none out fl) → ∀ out fl, o.prepend b f ≠ .ok none out fl := by
      intro o b f ho out fl hh
      cases o with
      | ok a out' fl' => cases hh; exact ho _ _ rfl
      | panic _ => cases hh
      | diverge => cases hh
    unfold Enc.runW
    split
    all_goals exact key _ _ _ (ih _ (h _) _) _ _

theorem encEach_noNil {α : Type} {d : α → Enc (Option Err)} {k : Enc (Option Err)} {xs : List α} {x : α} (hx : x ∈ xs) (h : (d x).NoNil) : (encEach d k xs).NoNil := by
  induction xs with
  | nil => cases hx
  | cons y xs ih =>
    rcases List.mem_cons.1 hx with rfl | hx
    · exact h.bind_left fun e => nofun
    · refine Enc.NoNil.bind_right ?_
      rintro (_ | e)
      · exact ih hx
      · exact nofun

mutual
theorem mentions_nonzero : (t : Ty) → t.Indirect false → (v : (t.subst addrTy).Val) → (j : Nat) → (q : UInt64) → t.Mentions v j q → v ≠ (t.subst addrTy).zero
  | .ptr t, _, v, j, q, h => by obtain ⟨x, hx, -⟩ := h; intro hh; rw [hh] at hx; cases hx
  | .slice t, _, v, j, q, h => by obtain ⟨x, hx, -⟩ := h; intro hh; rw [hh] at hx; cases hx
  | .map k e, _, v, j, q, h => by obtain ⟨x, hx, -⟩ := h; intro hh; rw [hh] at hx; cases hx
  | .array n t, hi, v, j, q, h => by
    obtain ⟨x, hx, hm⟩ := h
    intro hh
    rw [hh] at hx
    exact mentions_nonzero t hi x j q hm (List.eq_of_mem_replicate hx)
  | .struct fs, hi, v, j, q, h => mentionsFields_nonzero fs hi v j q h
theorem mentionsFields_nonzero : (fs : Fields) → fs.Indirect false → (v : (fs.subst addrTy).Val) → (j : Nat) → (q : UInt64) → fs.Mentions v j q → v ≠ (fs.subst addrTy).zero
  | .cons _ _ t fs, hi, v, j, q, h => by
    intro hh
    have := Prod.mk_inj.1 ((Prod.eta (show (t.subst addrTy).Val × (fs.subst addrTy).Val from v)).trans hh)
    rcases h with h | h
    · exact mentions_nonzero t hi.1 _ j q h this.1
    · exact mentionsFields_nonzero fs hi.2.2 _ j q h this.2
end

mutual
theorem mapRefs_id {ρ : Nat → Nat → Nat → Ty} : (t : Ty) → (v : (t.subst ρ).Val) → t.mapRefs (fun _ _ _ p => p) v = v
  | .basic _, _ => rfl
  | .named _, _ => rfl
  | .unsupported, _ => rfl
  | .bytes, _ => rfl
  | .chain _, _ => rfl
  | .ptr t, v => by
    show Option.map _ _ = _
    rw [funext (mapRefs_id t), Option.map_id']
  | .slice t, v => by
    show Option.map _ _ = _
    rw [funext (mapRefs_id t), List.map_id_fun', Option.map_id]; rfl
  | .array _ t, v => by
    show List.map _ _ = _
    rw [funext (mapRefs_id t), List.map_id']
  | .map k e, v => by
    show Option.map (List.map fun x : k.Val × (e.subst ρ).Val => (x.1, e.mapRefs _ x.2)) _ = _
    rw [funext (mapRefs_id e), List.map_id_fun', Option.map_id]; rfl
  | .struct fs, v => mapRefsFields_id fs v
  | .ref _ _ _, _ => rfl
theorem mapRefsFields_id {ρ : Nat → Nat → Nat → Ty} : (fs : Fields) → (v : (fs.subst ρ).Val) → fs.mapRefs (fun _ _ _ p => p) v = v
  | .nil, _ => rfl
  | .cons _ _ t fs, v => by
    show (Ty.mapRefs _ t _, Fields.mapRefs _ fs _) = _
    rw [mapRefs_id t, mapRefsFields_id fs]
    rfl
end

mutual
theorem follow_noNil {σ : Nat → Nat → Nat → Ty} {f : ∀ i s a, (addrTy i s a).Val → (σ i s a).Val} (hl : ∀ i s a, (σ i s a).Closed) (j : Nat) (q : UInt64)
    (hs : ∀ s a, (encodeWith chainEncoder (σ j s a) (f j s a q)).NoNil) : (t : Ty) → (b : Bool) → t.Indirect b → (v : (t.subst addrTy).Val) → t.Mentions v j q →
    (encodeWith chainEncoder (t.subst σ) (t.mapRefs f v)).NoNil
  | .ptr t, _, hi, v, h => by
    have ih := follow_noNil hl j q hs t true hi
    obtain ⟨x, hx, hm⟩ := h
    obtain rfl : v = some x := hx
    cases t with
    | chain c => exact hm.elim
    | ref i s a =>
      have := encode_ptr (hl i s a) (some (f i s a x))
      have e : encodeWith chainEncoder ((Ty.ptr (.ref i s a)).subst σ) (Ty.mapRefs f (.ptr (.ref i s a)) (some x)) = encodeWith chainEncoder (σ i s a) (f i s a x) := this
      rw [e]
      exact ih x hm
    | _ => exact ih x hm
  | .slice t, _, hi, v, h => by
    obtain ⟨x, hx, hm⟩ := h
    cases v with
    | none => cases hx
    | some xs =>
      change List (t.subst addrTy).Val at xs
      refine Enc.NoNil.bind_right (p := writeVaruint (xs.map (t.mapRefs f)).length.toUInt64) ?_
      rintro (_ | e)
      · exact encEach_noNil (List.mem_map_of_mem hx) (follow_noNil hl j q hs t true hi x hm)
      · exact nofun
  | .array n t, b, hi, v, h => by
    obtain ⟨x, hx, hm⟩ := h
    exact encEach_noNil (List.mem_map_of_mem hx) (follow_noNil hl j q hs t b hi x hm)
  | .map k e, _, hi, v, h => by
    obtain ⟨x, hx, hm⟩ := h
    cases v with
    | none => cases hx
    | some xs =>
      change List (k.Val × (e.subst addrTy).Val) at xs
      refine Enc.NoNil.bind_right (p := writeVaruint (xs.map fun x => (x.1, e.mapRefs f x.2)).length.toUInt64) ?_
      rintro (_ | err)
      · refine encEach_noNil (α := k.Val × (e.subst σ).Val) (x := (x.1, e.mapRefs f x.2)) (List.mem_map_of_mem (f := fun x : k.Val × (e.subst addrTy).Val => (x.1, e.mapRefs f x.2)) hx) ?_
        refine Enc.NoNil.bind_right ?_
        rintro (_ | err)
        · exact follow_noNil hl j q hs e true hi x.2 hm
        · exact nofun
      · exact nofun
  | .struct fs, b, hi, v, h => followFields_noNil hl j q hs fs b hi v h
  | .ref i s a, _, _, v, h => by
    obtain ⟨rfl, rfl⟩ := h
    exact hs s a
theorem followFields_noNil {σ : Nat → Nat → Nat → Ty} {f : ∀ i s a, (addrTy i s a).Val → (σ i s a).Val} (hl : ∀ i s a, (σ i s a).Closed) (j : Nat) (q : UInt64)
    (hs : ∀ s a, (encodeWith chainEncoder (σ j s a) (f j s a q)).NoNil) : (fs : Fields) → (b : Bool) → fs.Indirect b → (v : (fs.subst addrTy).Val) → fs.Mentions v j q →
    (encodeFields chainEncoder (fs.subst σ) (fs.mapRefs f v)).NoNil
  | .cons vis tag t fs, b, hi, v, h => by
    obtain ⟨x, xs⟩ : (t.subst addrTy).Val × (fs.subst addrTy).Val := v
    show (encodeField vis tag _ _ _).NoNil
    rcases h with h | h
    · have h1 := follow_noNil hl j q hs t b hi.1 x h
      have field : (if vis = .exported then do
          match ← encodeWith chainEncoder (t.subst σ) (t.mapRefs f x) with
          | some e => pure (some e)
          | none => encodeFields chainEncoder (fs.subst σ) (fs.mapRefs f xs)
        else (.panic "reflect.Value.Interface: cannot return value obtained from unexported field or method") : Enc (Option Err)).NoNil := by
        split
        · exact h1.bind_left fun e => nofun
        · trivial
      unfold encodeField
      by_cases ht : tag = .optional
      · rw [if_pos ht]
        have hz : (t.subst σ).isZero (t.mapRefs f x) = false := by
          refine (isZero_follow (f := fun _ _ _ p => p) t (hi.2.1 ht) x).trans ?_
          rw [mapRefs_id]
          exact decide_eq_false (mentions_nonzero t (hi.2.1 ht) x j q h)
        refine Enc.NoNil.bind_right fun _ => ?_
        rw [hz]
        exact field
      · rw [if_neg ht]
        exact field
    · have h2 := followFields_noNil hl j q hs fs b hi.2.2 xs h
      have field : (if vis = .exported then do
          match ← encodeWith chainEncoder (t.subst σ) (t.mapRefs f x) with
          | some e => pure (some e)
          | none => encodeFields chainEncoder (fs.subst σ) (fs.mapRefs f xs)
        else (.panic "reflect.Value.Interface: cannot return value obtained from unexported field or method") : Enc (Option Err)).NoNil := by
        split
        · refine Enc.NoNil.bind_right ?_
          rintro (_ | e)
          · exact h2
          · exact nofun
        · trivial
      unfold encodeField
      by_cases ht : tag = .optional
      · rw [if_pos ht]
        refine Enc.NoNil.bind_right fun _ => ?_
        split
        · exact h2
        · exact field
      · rw [if_neg ht]
        exact field
end

theorem endless_noNil {D : Decls} (hi : ∀ i, (D i).Indirect true) (G : Graph D) (S : Nat → UInt64 → Prop) (hS : G.Endless S) : ∀ n i s a p, S i p →
    (encodeWith chainEncoder (D.level n i s a) (G.follow n i s a p)).NoNil
  | 0, _, _, _, _, _ => trivial
  | n + 1, i, _, _, p, h => by
    obtain ⟨j, q, hm, hq⟩ := hS i p h
    exact followFields_noNil (level_closed D n) j q (fun s a => endless_noNil hi G S hS n j s a q hq) (D i) true (hi i) (G i p) hm

end Verif
