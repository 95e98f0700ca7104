import Verif.Spec.MethodCanon
import Verif.Lemmas.Canon
/-! # Lemmas about writing what was read if there are types with methods -/
namespace Verif

variable {A : Accepted} {C : Conducts}

theorem matched_ptr (h : Matched A C) (t : MTy) (x : t.bare.Val) : (MTy.ptr t).fault C (some x : Option t.bare.Val) = t.fault C x ∧
    ∀ bs, (MTy.ptr t).Wire C (some x : Option t.bare.Val) bs ↔ t.Wire C x bs := by
  cases t with
  | own i t =>
    have hr : (C i t).receiver = .value ∨ (C i t).receiver = .none := by
      have := h i t
      split at this
      · exact .inl this.1
      · exact .inr this
    constructor
    · show (match (some x : Option t.bare.Val), (C i t).receiver with
        | some x, .none => t.fault C x
        | some x, _ => (C i t).fault x
        | none, .none => some t.bare.nilFault
        | none, .value => some .panics
        | none, .pointer => (C i t).nilFault) = if (C i t).receiver = .value then (C i t).fault x else t.fault C x
      rcases hr with hr | hr <;> rw [hr] <;> rfl
    · intro bs
      show (if (C i t).receiver = .none then t.Wire C x bs else (C i t).form x bs) ↔ if (C i t).receiver = .value then (C i t).form x bs else t.Wire C x bs
      rcases hr with hr | hr <;> rw [hr] <;> exact Iff.rfl
  | plain t => exact ⟨rfl, fun bs => ⟨fun ⟨y, hy, h⟩ => by cases hy; exact h, fun h => ⟨x, rfl, h⟩⟩⟩
  | ptr t => exact ⟨rfl, fun _ => Iff.rfl⟩
  | slice t => exact ⟨rfl, fun _ => Iff.rfl⟩
  | array n t => exact ⟨rfl, fun _ => Iff.rfl⟩
  | map k t => exact ⟨rfl, fun _ => Iff.rfl⟩
  | struct fs => exact ⟨rfl, fun _ => Iff.rfl⟩

theorem matched_own {i : Nat} {t : MTy} (h : Matched A C) {R : t.bare.Val → Bytes → Prop} (hA : A i t = some R) : (C i t).receiver = .value ∧ (∀ v a b, (C i t).form v a → (C i t).form v b → a = b) ∧
    ∀ v w, R v w → t.bare.Real v ∧ ((C i t).fault v = some .panics ∨ (C i t).fault v = none ∧ ∃ out, (C i t).form v out ∧ R v out ∧ out.length ≤ w.length) := by
  have := h i t
  rw [hA] at this
  exact this

theorem matched_none {i : Nat} {t : MTy} (h : Matched A C) (hA : A i t = none) : (C i t).receiver = .none := by
  have := h i t
  rw [hA] at this
  exact this

theorem takes_own_some {i : Nat} {t : MTy} {m : Mode} {v : t.bare.Val} {w : Bytes} {R : t.bare.Val → Bytes → Prop} (hA : A i t = some R) : (MTy.own i t).Takes A m v w ↔ R v w := by
  show (match A i t with
    | some R => R v w
    | none => t.Takes A m v w) ↔ _
  rw [hA]

theorem takes_own_none {i : Nat} {t : MTy} {m : Mode} {v : t.bare.Val} {w : Bytes} (hA : A i t = none) : (MTy.own i t).Takes A m v w ↔ t.Takes A m v w := by
  show (match A i t with
    | some R => R v w
    | none => t.Takes A m v w) ↔ _
  rw [hA]

theorem own_value {i : Nat} {t : MTy} (h : (C i t).receiver = .value) (v : t.bare.Val) : (MTy.own i t).fault C v = (C i t).fault v ∧ ∀ bs, (MTy.own i t).Wire C v bs ↔ (C i t).form v bs := by
  constructor
  · show (if (C i t).receiver = .value then (C i t).fault v else t.fault C v) = _
    rw [h]; rfl
  · intro bs
    show (if (C i t).receiver = .value then (C i t).form v bs else t.Wire C v bs) ↔ _
    rw [h]; exact Iff.rfl

theorem own_none {i : Nat} {t : MTy} (h : (C i t).receiver = .none) (v : t.bare.Val) : (MTy.own i t).fault C v = t.fault C v ∧ ∀ bs, (MTy.own i t).Wire C v bs ↔ t.Wire C v bs := by
  constructor
  · show (if (C i t).receiver = .value then (C i t).fault v else t.fault C v) = _
    rw [h]; rfl
  · intro bs
    show (if (C i t).receiver = .value then (C i t).form v bs else t.Wire C v bs) ↔ _
    rw [h]; exact Iff.rfl

theorem plain_ptr {m : Mode} : (if m = Mode.elem then Mode.decode else Mode.value).Plain := by
  split <;> simp [Mode.Plain]

mutual
theorem wire_unique (hM : Matched A C) : (t : MTy) → (v : t.bare.Val) → (a b : Bytes) → t.Wire C v a → t.Wire C v b → a = b
  | .plain t, v, a, b, h1, h2 => Ty.layout_unique t v a b h1 h2
  | .own i t, v, a, b, h1, h2 => by
    cases hA : A i t with
    | some R =>
      obtain ⟨g1, g2, _⟩ := matched_own hM hA
      have g := (own_value g1 v).2
      exact g2 v a b ((g a).1 h1) ((g b).1 h2)
    | none =>
      have g := (own_none (matched_none hM hA) v).2
      exact wire_unique hM t v a b ((g a).1 h1) ((g b).1 h2)
  | .ptr t, v, a, b, h1, h2 => by
    change Option t.bare.Val at v
    cases v with
    | some x =>
      have g := (matched_ptr hM t x).2
      exact wire_unique hM t x a b ((g a).1 h1) ((g b).1 h2)
    | none =>
      cases t with
      | plain t => obtain ⟨_, h, _⟩ := h1; cases h
      | own i t =>
        have h3 : (C i t).receiver = .pointer := h1.1
        have := hM i t
        split at this
        · rw [this.1] at h3; cases h3
        · rw [this] at h3; cases h3
      | _ => exact h1.elim
  | .slice t, v, a, b, h1, h2 => counted_unique (t.Wire C) (wire_unique hM t) _ a b h1 h2
  | .array _ t, v, a, b, h1, h2 => each_unique (t.Wire C) (wire_unique hM t) _ a b h1 h2
  | .map k t, v, a, b, h1, h2 => counted_unique _ (fun a x y ⟨b1, b2, g1, g2, g3⟩ ⟨b3, b4, g4, g5, g6⟩ => by
      rw [g3, g6, k.layout_unique a.1 b1 b3 g1 g4, wire_unique hM t a.2 b2 b4 g2 g5]) _ a b h1 h2
  | .struct fs, v, a, b, h1, h2 => wires_unique hM fs v a b h1 h2
theorem wires_unique (hM : Matched A C) : (fs : MFields) → (v : fs.bare.Val) → (a b : Bytes) → fs.Wire C v a → fs.Wire C v b → a = b
  | .nil, _, _, _, h1, h2 => h1.trans h2.symm
  | .cons tag t fs, v, x, y, ⟨b1, b2, h1, h2, h3⟩, ⟨b3, b4, g1, g2, g3⟩ => by
    rw [h2, g2, wires_unique hM fs _ b2 b4 h1 g1]
    congr 1
    by_cases ht : tag = .optional
    · rw [if_pos ht] at h3 g3
      rcases h3 with ⟨z, e⟩ | ⟨z, b, hl, e⟩ <;> rcases g3 with ⟨z', e'⟩ | ⟨z', b', hl', e'⟩
      · rw [e, e']
      · exact absurd z z'
      · exact absurd z' z
      · rw [e, e', wire_unique hM t _ b b' hl hl']
    · rw [if_neg ht] at h3 g3
      exact wire_unique hM t _ b1 b3 h3 g3
end

mutual
theorem calmM_ty (hM : Matched A C) : (t : MTy) → (m : Mode) → m.Plain → t.Strait → t.Decodable A m → (v : t.bare.Val) → (w : Bytes) → t.Takes A m v w → t.bare.Real v ∧ Calm (t.fault C v)
  | .plain t, m, hm, _, hd, v, w, h => calm_ty t m hm hd v w h
  | .own i t, m, hm, hs, hd, v, w, h => by
    cases hA : A i t with
    | some R =>
      obtain ⟨g1, _, g3⟩ := matched_own hM hA
      obtain ⟨g4, g5⟩ := g3 v w ((takes_own_some hA).1 h)
      refine ⟨g4, ?_⟩
      rw [(own_value g1 v).1]
      rcases g5 with g5 | ⟨g5, _⟩
      · exact .inr g5
      · exact .inl g5
    | none =>
      have := calmM_ty hM t m hm hs.2 (hd hA) v w ((takes_own_none hA).1 h)
      rw [(own_none (matched_none hM hA) v).1]
      exact this
  | .ptr t, m, hm, hs, hd, v, w, ⟨x, hx, h⟩ => by
    cases hx
    have key := calmM_ty hM t _ plain_ptr hs hd x w h
    refine ⟨fun y hy => by cases hy; exact key.1, ?_⟩
    rw [(matched_ptr hM t x).1]
    exact key.2
  | .slice t, m, _, hs, hd, v, w, h => by
    obtain ⟨_, ⟨_, _, _, h2, _, h3, _⟩⟩ := h
    have key := fun x hx => Exists.elim (each_takes h3 x hx) fun w h => calmM_ty hM t .elem (by simp [Mode.Plain]) hs hd x w h
    exact ⟨⟨h2, fun x hx => (key x hx).1⟩, (calm_len _).or (calm_each _ fun x hx => (key x hx).2)⟩
  | .array _ t, m, _, hs, hd, v, w, h => by
    obtain ⟨_, h3⟩ := h
    have key := fun x hx => Exists.elim (each_takes h3 x hx) fun w h => calmM_ty hM t .elem (by simp [Mode.Plain]) hs hd x w h
    exact ⟨fun x hx => (key x hx).1, calm_each _ fun x hx => (key x hx).2⟩
  | .map k t, m, _, hs, hd, v, w, ⟨ys, xs, lb, es, hv, hg, hl, he, hw⟩ => by
    cases hv
    obtain ⟨_, g2, g3⟩ := gathers_self ys xs hg
    obtain ⟨h1, es', h2, _⟩ := each_subset xs ys es he g2 g3
    have hlt := anyCount_lt hl
    have key : ∀ x ∈ xs, (k.Real x.1 ∧ Calm (k.fault x.1)) ∧ t.bare.Real x.2 ∧ Calm (t.fault C x.2) := fun x hx => by
      obtain ⟨w, b1, b2, k1, k2, _⟩ := each_takes h2 x hx
      exact ⟨calm_ty k .decode (by simp [Mode.Plain]) hd.1 x.1 b1 k1, calmM_ty hM t .decode (by simp [Mode.Plain]) hs.2.2 hd.2 x.2 b2 k2⟩
    exact ⟨⟨Nat.lt_of_le_of_lt h1 hlt, fun x hx => ⟨(key x hx).1.1, (key x hx).2.1⟩⟩, (calm_len _).or (calm_each _ fun x hx => (key x hx).1.2.or (key x hx).2.2)⟩
  | .struct fs, m, _, hs, hd, v, w, h => calmM_fields hM fs hs hd v w h
theorem calmM_fields (hM : Matched A C) : (fs : MFields) → fs.Strait → fs.Decodable A → (v : fs.bare.Val) → (w : Bytes) → fs.Takes A v w → fs.bare.Real v ∧ Calm (fs.fault C v)
  | .nil, _, _, _, _, _ => ⟨trivial, .inl rfl⟩
  | .cons tag t fs, ⟨_, hs, hss⟩, ⟨hd, hds⟩, v, w, ⟨b1, b2, h2, _, h1⟩ => by
    obtain ⟨x, xs⟩ : t.bare.Val × fs.bare.Val := v
    have ih := calmM_fields hM fs hss hds xs b2 h2
    have key : t.bare.Real x ∧ Calm (if tag = .optional ∧ x = t.bare.zero then none else t.fault C x) := by
      by_cases hz : tag = .optional ∧ x = t.bare.zero
      · rw [if_pos hz]
        exact ⟨hz.2 ▸ real_zero t.bare, .inl rfl⟩
      · rw [if_neg hz]
        have : ∃ b, t.Takes A .elem x b := by
          by_cases ht : tag = .optional
          · rw [if_pos ht] at h1
            rcases h1 with ⟨h, _⟩ | ⟨p, b, _, h, _⟩
            · exact absurd ⟨ht, h⟩ hz
            · exact ⟨b, h⟩
          · rw [if_neg ht] at h1
            exact ⟨_, h1⟩
        obtain ⟨b, hb⟩ := this
        exact calmM_ty hM t .elem (by simp [Mode.Plain]) hs hd x b hb
    exact ⟨⟨key.1, ih.1⟩, key.2.or ih.2⟩
end

mutual
theorem canonM_ty (hM : Matched A C) : (t : MTy) → (m : Mode) → m.Plain → t.Strait → t.Decodable A m → (v : t.bare.Val) → (w : Bytes) → t.fault C v = none → t.Takes A m v w →
    Canon (t.Wire C v) (t.Takes A m v) w
  | .plain t, m, hm, _, hd, v, w, hf, h => canon_ty t m hm hd v w hf h
  | .own i t, m, hm, hs, hd, v, w, hf, h => by
    cases hA : A i t with
    | some R =>
      obtain ⟨g1, _, g3⟩ := matched_own hM hA
      obtain ⟨_, g5⟩ := g3 v w ((takes_own_some hA).1 h)
      rw [(own_value g1 v).1] at hf
      rcases g5 with g5 | ⟨_, out, k1, k2, k3⟩
      · rw [hf] at g5; cases g5
      · exact ⟨out, ((own_value g1 v).2 out).2 k1, (takes_own_some hA).2 k2, k3⟩
    | none =>
      have g := own_none (matched_none hM hA) v
      rw [g.1] at hf
      obtain ⟨out, k1, k2, k3⟩ := canonM_ty hM t m hm hs.2 (hd hA) v w hf ((takes_own_none hA).1 h)
      exact ⟨out, (g.2 out).2 k1, (takes_own_none hA).2 k2, k3⟩
  | .ptr t, m, hm, hs, hd, v, w, hf, ⟨x, hx, h⟩ => by
    cases hx
    rw [(matched_ptr hM t x).1] at hf
    obtain ⟨out, k1, k2, k3⟩ := canonM_ty hM t _ plain_ptr hs hd x w hf h
    exact ⟨out, ((matched_ptr hM t x).2 out).2 k1, ⟨x, rfl, k2⟩, k3⟩
  | .slice t, m, _, hs, hd, v, w, hf, h => by
    have hf := or_none' hf
    obtain ⟨bs, h1, h2, h3⟩ := canon_counted (L := t.Wire C) hf.1 h.2 fun x hx w => canonM_ty hM t .elem (by simp [Mode.Plain]) hs hd x w (each_none hf.2 x hx)
    exact ⟨bs, h1, ⟨h.1, h2⟩, h3⟩
  | .array _ t, m, _, hs, hd, v, w, hf, h => by
    obtain ⟨bs, h1, h2, h3⟩ := canon_each (L := t.Wire C) h.2 fun x hx w => canonM_ty hM t .elem (by simp [Mode.Plain]) hs hd x w (each_none hf x hx)
    exact ⟨bs, h1, ⟨h.1, h2⟩, h3⟩
  | .map k t, m, _, hs, hd, v, w, hf, ⟨ys, xs, lb, es, hv, hg, hl, he, hw⟩ => by
    cases hv
    have hf := or_none' hf
    obtain ⟨bs, h1, ⟨lb', es', h2, h3, h4, h5⟩, h6⟩ := canon_map (K := k.Takes .decode) (V := t.Takes A .decode) (K' := k.Layout) (V' := t.Wire C) hg hl he hf.1 fun x hx => by
      have hf := or_none' (each_none hf.2 x hx)
      exact ⟨fun w => canon_ty k .decode (by simp [Mode.Plain]) hd.1 x.1 w hf.1, fun w => canonM_ty hM t .decode (by simp [Mode.Plain]) hs.2.2 hd.2 x.2 w hf.2⟩
    exact ⟨bs, h1, ⟨xs, xs, lb', es', rfl, h2, h3, h4, h5⟩, by rw [hw]; exact h6⟩
  | .struct fs, m, _, hs, hd, v, w, hf, h => canonM_fields hM fs hs hd v w hf h
theorem canonM_fields (hM : Matched A C) : (fs : MFields) → fs.Strait → fs.Decodable A → (v : fs.bare.Val) → (w : Bytes) → fs.fault C v = none → fs.Takes A v w →
    Canon (fs.Wire C v) (fs.Takes A v) w
  | .nil, _, _, _, _, _, h => canon_same h h
  | .cons tag t fs, ⟨_, hs, hss⟩, ⟨hd, hds⟩, v, w, hf, ⟨b1, b2, h2, hw, h1⟩ => by
    obtain ⟨x, xs⟩ : t.bare.Val × fs.bare.Val := v
    have hf := or_none' hf
    obtain ⟨c2, p2, q2, r2⟩ := canonM_fields hM fs hss hds xs b2 hf.2 h2
    have f1 : (if tag = .optional ∧ x = t.bare.zero then none else t.fault C x) = none := hf.1
    by_cases ht : tag = .optional
    · rw [if_pos ht] at h1
      by_cases hz : x = t.bare.zero
      · refine ⟨[0] ++ c2, ⟨[0], c2, p2, rfl, ?_⟩, ⟨[0], c2, q2, rfl, ?_⟩, ?_⟩
        · rw [if_pos ht]; exact .inl ⟨hz, rfl⟩
        · rw [if_pos ht]; exact .inl ⟨hz, rfl⟩
        · have : 1 ≤ b1.length := by
            rcases h1 with ⟨_, e⟩ | ⟨p, b, _, _, e⟩ <;> rw [e] <;> simp
          rw [hw]; simp; omega
      · rw [if_neg fun h => hz h.2] at f1
        rcases h1 with ⟨hz', _⟩ | ⟨p, b, hp, hb, e⟩
        · exact absurd hz' hz
        · obtain ⟨c1, p1, q1, r1⟩ := canonM_ty hM t .elem (by simp [Mode.Plain]) hs hd x b f1 hb
          refine ⟨(1 :: c1) ++ c2, ⟨1 :: c1, c2, p2, rfl, ?_⟩, ⟨1 :: c1, c2, q2, rfl, ?_⟩, ?_⟩
          · rw [if_pos ht]; exact .inr ⟨hz, c1, p1, rfl⟩
          · rw [if_pos ht]; exact .inr ⟨1, c1, by decide, q1, rfl⟩
          · rw [hw, e]; simp; omega
    · rw [if_neg ht] at h1
      rw [if_neg fun h => ht h.1] at f1
      obtain ⟨c1, p1, q1, r1⟩ := canonM_ty hM t .elem (by simp [Mode.Plain]) hs hd x b1 f1 h1
      refine ⟨c1 ++ c2, ⟨c1, c2, p2, rfl, ?_⟩, ⟨c1, c2, q2, rfl, ?_⟩, by rw [hw]; simp; omega⟩
      · rw [if_neg ht]; exact p1
      · rw [if_neg ht]; exact q1
end

end Verif
