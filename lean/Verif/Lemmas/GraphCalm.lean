import Verif.Lemmas.Graph
import Verif.Lemmas.Reflect
/-! # Encode without errors -/
namespace Verif

/-- On a writer that takes everything p returns a nil error or does not return. -/
def Enc.Calm (p : Enc (Option Err)) : Prop := p.run = .diverge ∨ ∃ bs, p.run = .ok none bs

theorem Enc.Writes.calm {p : Enc (Option Err)} {bs : Bytes} (h : p.Writes bs) : p.Calm := .inr ⟨bs, h⟩

theorem Enc.Calm.bind {p : Enc (Option Err)} {g : Option Err → Enc (Option Err)} (hp : p.Calm) (hg : (g none).Calm) : (p >>= g).Calm := by
  unfold Enc.Calm
  rw [Enc.run_bind]
  rcases hp with hp | ⟨bs, hp⟩ <;> rw [hp]
  · exact .inl rfl
  · rw [EOut.bind_ok]
    rcases hg with hg | ⟨cs, hg⟩ <;> rw [hg]
    · exact .inl rfl
    · exact .inr ⟨_, rfl⟩

theorem encEach_calm {α : Type} {d : α → Enc (Option Err)} {k : Enc (Option Err)} (xs : List α) (h : ∀ x ∈ xs, (d x).Calm) (hk : k.Calm) : (encEach d k xs).Calm := by
  induction xs with
  | nil => exact hk
  | cons x xs ih => exact (h x List.mem_cons_self).bind (ih fun y hy => h y (List.mem_cons_of_mem _ hy))

section
variable {σ : Nat → Nat → Nat → Ty} {f : ∀ i s a, (addrTy i s a).Val → (σ i s a).Val}

mutual
theorem follow_calm (hl : ∀ i s a, (σ i s a).Closed) (hs : ∀ i s a p, (encodeWith chainEncoder (σ i s a) (f i s a p)).Calm) : (t : Ty) → (b : Bool) → t.Indirect b → t.Encodable → (v : (t.subst addrTy).Val) →
    (t.subst addrTy).Wf v → (encodeWith chainEncoder (t.subst σ) (t.mapRefs f v)).Calm
  | .basic c, _, _, he, v, hw => let ⟨_, _, h⟩ := encode_layout (.basic c) v he hw; h.calm
  | .named c, _, _, he, v, hw => let ⟨_, _, h⟩ := encode_layout (.named c) v he hw; h.calm
  | .unsupported, _, _, he, _, _ => he.elim
  | .bytes, _, _, he, v, hw => let ⟨_, _, h⟩ := encode_layout .bytes v he hw; h.calm
  | .chain c, _, _, he, v, hw => let ⟨_, _, h⟩ := encode_layout (.chain c) v he hw; h.calm
  | .ptr t, b, hi, he, v, hw => by
    have ih := follow_calm hl hs t true hi he
    obtain ⟨x, hx, hw⟩ := hw
    obtain rfl : v = some x := hx
    cases t with
    | chain c => obtain ⟨_, _, h⟩ := encode_layout (.ptr (.chain c)) (some x) he ⟨x, rfl, hw⟩; exact h.calm
    | ref i s a =>
      have e : encodeWith chainEncoder ((Ty.ptr (.ref i s a)).subst σ) (Ty.mapRefs f (.ptr (.ref i s a)) (some x)) = encodeWith chainEncoder (σ i s a) (f i s a x) := encode_ptr (hl i s a) (some (f i s a x))
      rw [e]
      exact ih x hw
    | _ => exact ih x hw
  | .slice t, b, hi, he, v, hw => by
    have hc : (writeVaruint (Option.getD (α := List (t.subst addrTy).Val) v []).length.toUInt64).Calm := (writeVaruint_writes _ hw.1).calm
    have hx := hw.2.2
    cases v with
    | none => exact hc.bind (encEach_calm (α := (t.subst σ).Val) [] (fun _ h => nomatch h) (.inr ⟨[], rfl⟩))
    | some xs =>
      change List (t.subst addrTy).Val at xs
      have hc : (writeVaruint (xs.map (t.mapRefs f)).length.toUInt64).Calm := by rw [List.length_map]; exact hc
      refine hc.bind (encEach_calm (xs.map (t.mapRefs f)) (fun y hy => ?_) (.inr ⟨[], rfl⟩))
      obtain ⟨x, hm, rfl⟩ := List.mem_map.1 hy
      exact follow_calm hl hs t true hi he x (hx x hm)
  | .array n t, b, hi, he, v, hw => by
    refine encEach_calm _ (fun y hy => ?_) (.inr ⟨[], rfl⟩)
    obtain ⟨x, hm, rfl⟩ := List.mem_map.1 hy
    exact follow_calm hl hs t b hi he x (hw.2 x hm)
  | .map k e, b, hi, he, v, hw => by
    have hc : (writeVaruint (Option.getD (α := List (k.Val × (e.subst addrTy).Val)) v []).length.toUInt64).Calm := (writeVaruint_writes _ hw.1).calm
    have hx := hw.2.2
    cases v with
    | none => exact hc.bind (encEach_calm (α := k.Val × (e.subst σ).Val) [] (fun _ h => nomatch h) (.inr ⟨[], rfl⟩))
    | some xs =>
      change List (k.Val × (e.subst addrTy).Val) at xs
      have hc : (writeVaruint (xs.map fun x => (x.1, e.mapRefs f x.2)).length.toUInt64).Calm := by rw [List.length_map]; exact hc
      refine hc.bind (encEach_calm (xs.map fun x => (x.1, e.mapRefs f x.2)) (fun y hy => ?_) (.inr ⟨[], rfl⟩))
      obtain ⟨x, hm, rfl⟩ := List.mem_map.1 hy
      obtain ⟨_, _, hk⟩ := encode_layout k x.1 he.1 (hx x hm).1
      exact hk.calm.bind (follow_calm hl hs e true hi he.2 x.2 (hx x hm).2)
  | .struct fs, b, hi, he, v, hw => followFields_calm hl hs fs b hi he v hw
  | .ref i s a, _, _, _, v, _ => hs i s a v
theorem followFields_calm (hl : ∀ i s a, (σ i s a).Closed) (hs : ∀ i s a p, (encodeWith chainEncoder (σ i s a) (f i s a p)).Calm) : (fs : Fields) → (b : Bool) → fs.Indirect b → fs.Encodable →
    (v : (fs.subst addrTy).Val) → (fs.subst addrTy).Wf v → (encodeFields chainEncoder (fs.subst σ) (fs.mapRefs f v)).Calm
  | .nil, _, _, _, _, _ => .inr ⟨[], rfl⟩
  | .cons vis tag t fs, b, hi, he, v, hw => by
    obtain ⟨x, xs⟩ : (t.subst addrTy).Val × (fs.subst addrTy).Val := v
    have h2 := followFields_calm hl hs fs b hi.2.2 he.2.2 xs hw.2
    obtain rfl : vis = .exported := he.1
    show (encodeField .exported tag _ _ _).Calm
    unfold encodeField
    by_cases ht : tag = .optional
    · rw [if_pos ht]
      have hb : (writeBool (!(t.subst σ).isZero (t.mapRefs f x))).Calm := (writeBool_writes _).calm
      refine hb.bind ?_
      have hz : (t.subst σ).isZero (t.mapRefs f x) = (t.subst addrTy).isZero x := by
        have := isZero_follow (f := fun _ _ _ p => p) (g := f) t (hi.2.1 ht) x
        rwa [mapRefs_id] at this
      rw [hz]
      split
      · exact h2
      · next h0 =>
        have h0 : x ≠ (t.subst addrTy).zero := fun h => h0 (by rw [h]; exact decide_eq_true rfl)
        exact (follow_calm hl hs t b hi.1 he.2.1 x (hw.1.resolve_left fun h => h0 h.2)).bind h2
    · rw [if_neg ht]
      exact (follow_calm hl hs t b hi.1 he.2.1 x (hw.1.resolve_left fun h => ht h.1)).bind h2
end
end

theorem level_calm {D : Decls} (hi : ∀ i, (D i).Indirect true) (he : ∀ i, (D i).Encodable) (G : Graph D) (hw : ∀ i p, ((D i).subst addrTy).Wf (G i p)) : ∀ n i s a p,
    (encodeWith chainEncoder (D.level n i s a) (G.follow n i s a p)).Calm
  | 0, _, _, _, _ => .inl rfl
  | n + 1, i, _, _, p => followFields_calm (level_closed D n) (level_calm hi he G hw n) (D i) true (hi i) (he i) (G i p) (hw i p)

theorem Enc.NoNil.run {p : Enc (Option Err)} (h : p.NoNil) (bs : Bytes) : p.run ≠ .ok none bs := by
  induction p generalizing bs with
  | ret a => intro hh; cases hh; exact h rfl
  | panic _ => exact fun h => nomatch h
  | diverge => exact fun h => nomatch h
  | write b k ih =>
    intro hh
    change ((k none).run).prepend b = _ at hh
    cases hk : (k none).run with
    | ok a out => rw [hk] at hh; cases hh; exact ih none (h none) out hk
    | panic _ => rw [hk] at hh; cases hh
    | diverge => rw [hk] at hh; cases hh

theorem Enc.Finite.run {α : Type} {p : Enc α} (h : p.Finite) : p.run ≠ .diverge := by
  induction p with
  | ret a => exact nofun
  | panic _ => exact nofun
  | diverge => exact h.elim
  | write b k ih =>
    intro hh
    change ((k none).run).prepend b = _ at hh
    cases hk : (k none).run with
    | ok a out => rw [hk] at hh; cases hh
    | panic _ => rw [hk] at hh; cases hh
    | diverge => exact ih none (h none) hk

end Verif
