import Verif.Spec.Methods
import Verif.Lemmas.Reflect
/-! # Lemmas about types with methods -/
namespace Verif

theorem encodeM_ptr (M : Program) (t : MTy) (x : t.bare.Val) : encodeM M (.ptr t) (some x : Option t.bare.Val) =
    match t, x with
    | .own i t, x => if (M i t).receiver = .none then encodeM M t x else (M i t).marshal x
    | t, x => encodeM M t x := by
  cases t
  case own i t =>
    show (match (some x : Option t.bare.Val), (M i t).receiver with
      | some x, .none => encodeM M t x
      | some x, _ => (M i t).marshal x
      | none, .none => encode (.ptr t.bare) (none : Option t.bare.Val)
      | none, .value => .panic "value method called using nil pointer"
      | none, .pointer => (M i t).marshalNil) = if (M i t).receiver = .none then encodeM M t x else (M i t).marshal x
    cases (M i t).receiver <;> rfl
  case plain t => exact encode_ptr_some t x
  all_goals rfl

theorem encodeM_own (M : Program) (i : Nat) (t : MTy) (v : t.bare.Val) : encodeM M (.own i t) v =
    match (M i t).receiver with
    | .value => (M i t).marshal v
    | _ => encodeM M t v := rfl

theorem decodeM_own (M : Program) (i : Nat) (t : MTy) (m : Mode) (v : t.bare.Val) : decodeM M (.own i t) m v =
    match (M i t).unmarshal with
    | some u => u v
    | none => decodeM M t m v := rfl

variable {W : Formats} {M : Program}

mutual
theorem encodeM_layout (hM : M.Keeps W) : (t : MTy) → (v : t.bare.Val) → (m : Mode) → t.Sound W (fun i t => (M i t).receiver) m false → t.Wf W v →
    ∃ bs, t.Layout W v bs ∧ (encodeM M t v).Writes bs
  | .plain t, v, m, hs, hw => by
    obtain ⟨bs, h1, h2⟩ := encode_layout t v hs.1 hw
    exact ⟨bs, h1, Enc.Writes.of_eq (by rw [encodeM]) h2⟩
  | .own i t, v, m, hs, hw => by
    have hk := hM i t
    rw [MTy.Sound] at hs
    rw [MTy.Wf] at hw
    simp only [MTy.Layout, encodeM]
    cases hf : W i t with
    | some f =>
      simp only [hf] at hs hw hk ⊢
      obtain ⟨bs, h1, h2⟩ := hk.1 v hw
      rcases hs with hs | ⟨_, hs⟩
      · simp only [hs]; exact ⟨bs, h1, h2⟩
      · cases hs
    | none =>
      simp only [hf] at hs hw hk ⊢
      obtain ⟨bs, h1, h2⟩ := encodeM_layout hM t v m hs hw
      simp only [hk.1]
      exact ⟨bs, h1, h2⟩
  | .ptr (.own i t), v, m, hs, hw => by
    obtain ⟨x, rfl, hx⟩ := hw
    suffices h : ∃ bs, (MTy.own i t).Layout W x bs ∧ (encodeM M (.ptr (.own i t)) (some x : Option _)).Writes bs from
      let ⟨bs, h1, h2⟩ := h
      ⟨bs, ⟨x, rfl, h1⟩, h2⟩
    have he := encodeM_ptr M (.own i t) x
    dsimp only at he
    have hk := hM i t
    rw [MTy.Sound, MTy.Sound] at hs
    rw [MTy.Wf] at hx
    simp only [MTy.Layout]
    cases hf : W i t with
    | some f =>
      simp only [hf] at hs hx hk ⊢
      obtain ⟨bs, h1, h2⟩ := hk.1 x hx
      rw [if_neg (by rcases hs with hs | ⟨hs, _⟩ <;> simp [hs])] at he
      exact ⟨bs, h1, Enc.Writes.of_eq he h2⟩
    | none =>
      simp only [hf] at hs hx hk ⊢
      obtain ⟨bs, h1, h2⟩ := encodeM_layout hM t x _ hs hx
      rw [if_pos hk.1] at he
      exact ⟨bs, h1, Enc.Writes.of_eq he h2⟩
  | .ptr (.plain t), v, m, hs, hw => by
    obtain ⟨x, rfl, hx⟩ := hw
    obtain ⟨bs, h1, h2⟩ := encodeM_layout hM (.plain t) x _ hs hx
    exact ⟨bs, ⟨x, rfl, h1⟩, Enc.Writes.of_eq (encodeM_ptr M (.plain t) x) h2⟩
  | .ptr (.ptr t), v, m, hs, hw => by
    obtain ⟨x, rfl, hx⟩ := hw
    obtain ⟨bs, h1, h2⟩ := encodeM_layout hM (.ptr t) x _ hs hx
    exact ⟨bs, ⟨x, rfl, h1⟩, Enc.Writes.of_eq (encodeM_ptr M (.ptr t) x) h2⟩
  | .ptr (.slice t), v, m, hs, hw => by
    obtain ⟨x, rfl, hx⟩ := hw
    obtain ⟨bs, h1, h2⟩ := encodeM_layout hM (.slice t) x m hs hx
    exact ⟨bs, ⟨x, rfl, h1⟩, Enc.Writes.of_eq (encodeM_ptr M (.slice t) x) h2⟩
  | .ptr (.array n t), v, m, hs, hw => by
    obtain ⟨x, rfl, hx⟩ := hw
    obtain ⟨bs, h1, h2⟩ := encodeM_layout hM (.array n t) x m hs hx
    exact ⟨bs, ⟨x, rfl, h1⟩, Enc.Writes.of_eq (encodeM_ptr M (.array n t) x) h2⟩
  | .ptr (.struct fs), v, m, hs, hw => by
    obtain ⟨x, rfl, hx⟩ := hw
    obtain ⟨bs, h1, h2⟩ := encodeM_layout hM (.struct fs) x m hs hx
    exact ⟨bs, ⟨x, rfl, h1⟩, Enc.Writes.of_eq (encodeM_ptr M (.struct fs) x) h2⟩
  | .ptr (.map k t), v, m, hs, hw => by
    obtain ⟨x, rfl, hx⟩ := hw
    obtain ⟨bs, h1, h2⟩ := encodeM_layout hM (.map k t) x m hs hx
    exact ⟨bs, ⟨x, rfl, h1⟩, Enc.Writes.of_eq (encodeM_ptr M (.map k t) x) h2⟩
  | .slice t, v, m, hs, hw =>
    counted_layout (t.Layout W) (encodeM M t) (Option.getD (α := List t.bare.Val) v []) hw.1 (fun x hx => encodeM_layout hM t x _ hs (hw.2.2 x hx)) _ rfl
  | .array _ t, v, m, hs, hw => encEach_layout (t.Layout W) (encodeM M t) v fun x hx => encodeM_layout hM t x _ hs (hw.2 x hx)
  | .map k t, v, m, hs, hw =>
    counted_layout _ (fun (x, y) => do
        match ← encode k x with
        | some e => pure (some e)
        | none => encodeM M t y) (Option.getD (α := List (k.Val × t.bare.Val)) v []) hw.1 (fun x hx => by
      obtain ⟨b1, h1, h2⟩ := encode_layout k x.1 hs.1 (hw.2.2 x hx).1
      obtain ⟨b2, h3, h4⟩ := encodeM_layout hM t x.2 _ hs.2.2.2 (hw.2.2 x hx).2
      exact ⟨_, ⟨b1, b2, h1, h3, rfl⟩, h2.bind h4⟩) _ rfl
  | .struct fs, v, m, hs, hw => encodeMFields_layout hM fs v hs hw
theorem encodeMFields_layout (hM : M.Keeps W) : (fs : MFields) → (v : fs.bare.Val) → fs.Sound W (fun i t => (M i t).receiver) → fs.Wf W v →
    ∃ bs, fs.Layout W v bs ∧ (encodeMFields M fs v).Writes bs
  | .nil, _, _, _ => ⟨[], rfl, Enc.Writes.pure⟩
  | .cons tag t fs, v, hs, hw => by
    obtain ⟨x, xs⟩ : t.bare.Val × fs.bare.Val := v
    obtain ⟨h1, h2⟩ := hs
    obtain ⟨w1, w2⟩ := hw
    obtain ⟨b2, l2, e2⟩ := encodeMFields_layout hM fs xs h2 w2
    have one : t.Wf W x → ∃ b1, t.Layout W x b1 ∧ Enc.Writes ((encodeM M t x).bind fun e => match e with
        | some e => pure (some e)
        | none => encodeMFields M fs xs) (b1 ++ b2) := fun hx => by
      obtain ⟨b1, l1, e1⟩ := encodeM_layout hM t x _ h1 hx
      exact ⟨b1, l1, e1.bind e2⟩
    change ∃ bs, (∃ b1 b2, fs.Layout W xs b2 ∧ bs = b1 ++ b2 ∧
      (if tag = .optional then (x = t.bare.zero ∧ b1 = [0]) ∨ (x ≠ t.bare.zero ∧ ∃ b, t.Layout W x b ∧ b1 = 1 :: b) else t.Layout W x b1)) ∧
      (encodeField .exported tag.tag (t.bare.isZero x) (encodeM M t x) (encodeMFields M fs xs)).Writes bs
    cases tag
    case optional =>
      simp only [if_true]
      by_cases hz : x = t.bare.zero
      · refine ⟨[0] ++ b2, ⟨[0], b2, l2, rfl, .inl ⟨hz, rfl⟩⟩, ?_⟩
        have : t.bare.isZero x = true := by unfold Ty.isZero; exact decide_eq_true hz
        simp only [encodeField, FieldTag.tag, this, if_true, Bool.not_true]
        exact Enc.Writes.bind (writeBool_writes false) e2
      · obtain ⟨b1, l1, e1⟩ := one (w1.resolve_left fun h => hz h.2)
        refine ⟨(1 :: b1) ++ b2, ⟨1 :: b1, b2, l2, rfl, .inr ⟨hz, b1, l1, rfl⟩⟩, ?_⟩
        have : t.bare.isZero x = false := by unfold Ty.isZero; exact decide_eq_false hz
        simp only [encodeField, FieldTag.tag, this, Bool.not_false]
        exact Enc.Writes.bind (b1 := [1]) (writeBool_writes true) e1
    case none =>
      obtain ⟨b1, l1, e1⟩ := one (w1.resolve_left fun h => nomatch h.1)
      exact ⟨b1 ++ b2, ⟨b1, b2, l2, rfl, l1⟩, e1⟩
    case extension =>
      obtain ⟨b1, l1, e1⟩ := one (w1.resolve_left fun h => nomatch h.1)
      exact ⟨b1 ++ b2, ⟨b1, b2, l2, rfl, l1⟩, e1⟩
end

mutual
theorem decodeM_layout (hM : M.Keeps W) : (t : MTy) → (m : Mode) → (b : Bool) → (v old : t.bare.Val) → (bs : Bytes) → m.Plain → t.Sound W (fun i t => (M i t).receiver) m b →
    t.Wf W v → t.bare.Clean old → t.Layout W v bs → ∃ w, t.bare.Same v w ∧ (decodeM M t m old).Reads bs w
  | .plain t, m, _, v, old, bs, hm, hs, hw, hc, hl => by
    obtain ⟨w, h1, h2⟩ := decode_layout t m v old bs hm hs.2 hw hc hl
    exact ⟨w, h1, Dec.Reads.of_eq (by rw [decodeM]) h2⟩
  | .own i t, m, _, v, old, bs, hm, hs, hw, hc, hl => by
    have hk := hM i t
    rw [MTy.Sound] at hs
    rw [MTy.Wf] at hw
    rw [MTy.Layout] at hl
    simp only [decodeM]
    cases hf : W i t with
    | some f =>
      simp only [hf] at hs hw hk hl ⊢
      obtain ⟨u, hu, h⟩ := hk.2
      obtain ⟨w, h1, h2⟩ := h v old bs hw hc hl
      simp only [hu]
      exact ⟨w, h1, h2⟩
    | none =>
      simp only [hf] at hs hw hk hl ⊢
      obtain ⟨w, h1, h2⟩ := decodeM_layout hM t m false v old bs hm hs hw hc hl
      simp only [hk.2]
      exact ⟨w, h1, h2⟩
  | .ptr t, m, _, v, old, bs, hm, hs, hw, hc, hl => by
    obtain ⟨x, rfl, hx⟩ := hw
    obtain ⟨y, hy, hl⟩ := hl
    cases hy
    have hold := clean_getD t.bare old hc
    rcases hm with rfl | rfl | rfl
    · obtain ⟨w, h1, h2⟩ := decodeM_layout hM t .value true x _ bs (.inr (.inr rfl)) hs hx hold hl
      exact ⟨(some w : Option t.bare.Val), .inr ⟨x, w, rfl, rfl, h1⟩, h2.last rfl⟩
    · obtain ⟨w, h1, h2⟩ := decodeM_layout hM t .decode true x _ bs (.inl rfl) hs hx hold hl
      exact ⟨(some w : Option t.bare.Val), .inr ⟨x, w, rfl, rfl, h1⟩, h2.last rfl⟩
    · obtain ⟨w, h1, h2⟩ := decodeM_layout hM t .value true x _ bs (.inr (.inr rfl)) hs hx hold hl
      exact ⟨(some w : Option t.bare.Val), .inr ⟨x, w, rfl, rfl, h1⟩, h2.last rfl⟩
  | .slice t, m, _, v, old, bs, hm, hs, hw, hc, hl =>
    decodeSlice_layout (t.Layout W) t.bare.Same t.bare.Clean t.bare.zero t.bare.size (decodeM M t .elem) (Option.getD (α := List t.bare.Val) v [])
      (fun x hx o b ho hb => decodeM_layout hM t .elem false x o b (.inr (.inl rfl)) hs (hw.2.2 x hx) ho hb) old hw.1 hw.2.1 (clean_zero t.bare) hc bs hl
  | .array n t, m, _, v, old, bs, hm, hs, hw, hc, hl =>
    decEach_layout (t.Layout W) t.bare.Same t.bare.Clean (decodeM M t .elem) v
      (fun x hx o b ho hb => decodeM_layout hM t .elem false x o b (.inr (.inl rfl)) hs (hw.2 x hx) ho hb) old (hc.1.trans hw.1.symm) hc.2 bs hl
  | .map k t, m, _, v, old, bs, hm, hs, hw, _, hl =>
    decodeMap_layout (fun x bs => ∃ b1 b2, k.Layout x.1 b1 ∧ t.Layout W x.2 b2 ∧ bs = b1 ++ b2) t.bare.Same (decodeWith chainDecoder k .decode k.zero)
      (decodeM M t .decode t.bare.zero) (Option.getD (α := List (k.Val × t.bare.Val)) v [])
      (fun x hx b hb => by
        obtain ⟨b1, b2, l1, l2, rfl⟩ := hb
        obtain ⟨w1, s1, d1⟩ := decode_layout k .decode x.1 k.zero b1 (.inl rfl) hs.2.2.1 (hw.2.2 x hx).1 (clean_zero k) l1
        obtain ⟨w2, s2, d2⟩ := decodeM_layout hM t .decode false x.2 t.bare.zero b2 (.inl rfl) hs.2.2.2 (hw.2.2 x hx).2 (clean_zero t.bare) l2
        exact ⟨b1, b2, w2, rfl, s2, key_same k hs.2.1 _ _ s1 ▸ d1, d2⟩) hw.1 hw.2.1 old bs hl
  | .struct fs, m, _, v, old, bs, hm, hs, hw, hc, hl => decodeMFields_layout hM fs v old bs hs hw hc hl
theorem decodeMFields_layout (hM : M.Keeps W) : (fs : MFields) → (v old : fs.bare.Val) → (bs : Bytes) → fs.Sound W (fun i t => (M i t).receiver) → fs.Wf W v →
    fs.bare.Clean old → fs.Layout W v bs → ∃ w, fs.bare.Same v w ∧ (decodeMFields M fs none old).Reads bs w
  | .nil, v, old, bs, _, _, _, hl => by cases hl; exact ⟨old, trivial, Dec.Reads.pure _⟩
  | .cons tag t fs, v, old, bs, hs, hw, hc, hl => by
    obtain ⟨x, xs⟩ : t.bare.Val × fs.bare.Val := v
    obtain ⟨o, os⟩ : t.bare.Val × fs.bare.Val := old
    obtain ⟨b1, b2, l2, rfl, l1⟩ := hl
    obtain ⟨ws, s2, d2⟩ := decodeMFields_layout hM fs xs os b2 hs.2 hw.2 hc.2 l2
    have one : ∀ b, t.Wf W x → t.Layout W x b → ∃ w, t.bare.Same x w ∧ (decodeM M t .elem (t.bare.alloc o)).Reads b w := fun b hx hb =>
      decodeM_layout hM t .elem false x _ b (.inr (.inl rfl)) hs.1 hx (clean_alloc t.bare o hc.1) hb
    have main : ∀ w : t.bare.Val, t.bare.Same x w → (decodeField .exported tag.tag o (t.bare.alloc o) t.bare.zero (fun mode => decodeM M t mode (t.bare.alloc o)) os none
        (fun err => decodeMFields M fs err os)).Reads (b1 ++ b2) (w, ws) →
        ∃ w, (MFields.cons tag t fs).bare.Same (x, xs) w ∧ (decodeMFields M (MFields.cons tag t fs) none (o, os)).Reads (b1 ++ b2) w :=
      fun w s d => ⟨(w, ws), ⟨s, s2⟩, d⟩
    cases tag
    case none =>
      obtain ⟨w, s1, d1⟩ := one b1 (hw.1.resolve_left fun h => nomatch h.1) l1
      exact main w s1 (Dec.Reads.bind d1 (d2.last rfl))
    case extension =>
      obtain ⟨w, s1, d1⟩ := one b1 (hw.1.resolve_left fun h => nomatch h.1) l1
      exact main w s1 (Dec.Reads.bind d1 (d2.last rfl))
    case optional =>
      rcases l1 with ⟨hz, rfl⟩ | ⟨hz, b, hb, rfl⟩
      · cases hz
        exact main t.bare.zero (same_zero t.bare) (Dec.Reads.bind (b1 := [0]) (readBool_reads false) (d2.last rfl))
      · obtain ⟨w, s1, d1⟩ := one b (hw.1.resolve_left fun h => hz h.2) hb
        exact main w s1 (Dec.Reads.bind (b1 := [1]) (readBool_reads true) (Dec.Reads.bind d1 (d2.last rfl)))
end

/-! ### Without methods -/

theorem encEach_congr {α : Type} {f : α → Enc (Option Err)} {g : α → Enc (Option Err)} {k : Enc (Option Err)} (xs : List α) (h : ∀ x ∈ xs, f x = g x) : encEach f k xs = encEach g k xs := by
  induction xs with
  | nil => rfl
  | cons x xs ih => simp only [encEach, h x (by simp), ih fun y hy => h y (by simp [hy])]

mutual
theorem encodeM_unseen : (t : MTy) → (v : t.bare.Val) → t.Unseen (fun i t => (M i t).receiver) false → encodeM M t v = encode t.bare v
  | .plain t, v, _ => rfl
  | .own i t, v, h => by
    have := encodeM_unseen t v h.2.2
    have hr := h.1
    rw [encodeM]
    split
    · next h' => exact absurd h' hr
    · exact this
  | .ptr (.plain t), v, _ => rfl
  | .ptr (.own i t), v, h => by
    have hr : (M i t).receiver = .none := by
      have h1 := h.1
      have h2 := h.2.1
      cases h' : (M i t).receiver
      · rfl
      · exact absurd h' h1
      · exact nomatch h2 h'
    change Option t.bare.Val at v
    cases v with
    | some x =>
      have := encodeM_unseen t x h.2.2
      refine (encodeM_ptr M (.own i t) x).trans ?_
      dsimp only
      rw [if_pos hr]
      exact this.trans (encode_ptr_some t.bare x).symm
    | none =>
      show (match (none : Option t.bare.Val), (M i t).receiver with
        | some x, .none => encodeM M t x
        | some x, _ => (M i t).marshal x
        | none, .none => encode (.ptr t.bare) (none : Option t.bare.Val)
        | none, .value => .panic "value method called using nil pointer"
        | none, .pointer => (M i t).marshalNil) = encode (.ptr t.bare) (none : Option t.bare.Val)
      rw [hr]
  | .ptr (.ptr t), v, h => by
    change Option (Option t.bare.Val) at v
    cases v with
    | none => rfl
    | some x => exact (encodeM_unseen (.ptr t) x h).trans (encode_ptr_some (MTy.bare (.ptr t)) x).symm
  | .ptr (.slice t), v, h => by
    change Option (Option (List t.bare.Val)) at v
    cases v with
    | none => rfl
    | some x => exact (encodeM_unseen (.slice t) x h).trans (encode_ptr_some (MTy.bare (.slice t)) x).symm
  | .ptr (.array n t), v, h => by
    change Option (List t.bare.Val) at v
    cases v with
    | none => rfl
    | some x => exact (encodeM_unseen (.array n t) x h).trans (encode_ptr_some (MTy.bare (.array n t)) x).symm
  | .ptr (.struct fs), v, h => by
    change Option fs.bare.Val at v
    cases v with
    | none => rfl
    | some x => exact (encodeM_unseen (.struct fs) x h).trans (encode_ptr_some (MTy.bare (.struct fs)) x).symm
  | .ptr (.map k t), v, h => by
    change Option (Option (List (k.Val × t.bare.Val))) at v
    cases v with
    | none => rfl
    | some x => exact (encodeM_unseen (.map k t) x h).trans (encode_ptr_some (MTy.bare (.map k t)) x).symm
  | .slice t, v, h => by
    have := encEach_congr (k := pure none) (Option.getD (α := List t.bare.Val) v []) fun x _ => encodeM_unseen t x h
    rw [encodeM, this]
    rfl
  | .array _ t, v, h => encEach_congr (k := pure none) v fun x _ => encodeM_unseen t x h
  | .map k t, v, h => by
    have : encodeM M t = encode t.bare := funext fun y => encodeM_unseen t y h
    rw [encodeM, this]
    rfl
  | .struct fs, v, h => encodeMFields_unseen fs v h
theorem encodeMFields_unseen : (fs : MFields) → (v : fs.bare.Val) → fs.Unseen (fun i t => (M i t).receiver) → encodeMFields M fs v = encodeFields chainEncoder fs.bare v
  | .nil, _, _ => rfl
  | .cons tag t fs, v, h => by
    obtain ⟨x, xs⟩ : t.bare.Val × fs.bare.Val := v
    show encodeField .exported tag.tag (t.bare.isZero x) (encodeM M t x) (encodeMFields M fs xs) =
      encodeField .exported tag.tag (t.bare.isZero x) (encode t.bare x) (encodeFields chainEncoder fs.bare xs)
    rw [encodeM_unseen t x h.1, encodeMFields_unseen fs xs h.2]
end

mutual
theorem decodeM_none (hM : ∀ i t, (M i t).unmarshal = none) : (t : MTy) → (m : Mode) → m.Plain → (old : t.bare.Val) → decodeM M t m old = decodeWith chainDecoder t.bare m old
  | .plain t, _, _, old => rfl
  | .own i t, m, hm, old => by
    have := decodeM_none hM t m hm old
    refine (decodeM_own M i t m old).trans ?_
    rw [hM]
    exact this
  | .ptr t, m, hm, old => by
    rcases hm with rfl | rfl | rfl
    · have := decodeM_none hM t .value (.inr (.inr rfl)) (Option.getD (α := t.bare.Val) old t.bare.zero)
      rw [decodeM, this]
      · rfl
      · intro h; cases h
    · have := decodeM_none hM t .decode (.inl rfl) (Option.getD (α := t.bare.Val) old t.bare.zero)
      rw [decodeM, this]; rfl
    · have := decodeM_none hM t .value (.inr (.inr rfl)) (Option.getD (α := t.bare.Val) old t.bare.zero)
      rw [decodeM, this]
      · rfl
      · intro h; cases h
  | .slice t, m, hm, old => by
    have : decodeM M t .elem = decodeWith chainDecoder t.bare .elem := funext fun o => decodeM_none hM t .elem (.inr (.inl rfl)) o
    rw [decodeM, this]
    rcases hm with rfl | rfl | rfl <;> rfl
  | .array n t, m, hm, old => by
    have : decodeM M t .elem = decodeWith chainDecoder t.bare .elem := funext fun o => decodeM_none hM t .elem (.inr (.inl rfl)) o
    rw [decodeM, this]
    rcases hm with rfl | rfl | rfl <;> rfl
  | .map k t, m, hm, old => by
    have := decodeM_none hM t .decode (.inl rfl) t.bare.zero
    rw [decodeM, this]
    rcases hm with rfl | rfl | rfl <;> rfl
  | .struct fs, m, hm, old => by
    have := decodeMFields_none hM fs none old
    rcases hm with rfl | rfl | rfl <;> exact this
theorem decodeMFields_none (hM : ∀ i t, (M i t).unmarshal = none) : (fs : MFields) → (err : Option Err) → (old : fs.bare.Val) →
    decodeMFields M fs err old = decodeFields chainDecoder fs.bare err old
  | .nil, _, _ => rfl
  | .cons tag t fs, err, old => by
    obtain ⟨x, xs⟩ : t.bare.Val × fs.bare.Val := old
    have h1 := decodeM_none hM t .elem (.inr (.inl rfl)) (t.bare.alloc x)
    have h2 : (fun err => decodeMFields M fs err xs) = fun err => decodeFields chainDecoder fs.bare err xs := funext fun e => decodeMFields_none hM fs e xs
    show decodeField .exported tag.tag x (t.bare.alloc x) t.bare.zero (fun mode => decodeM M t mode (t.bare.alloc x)) xs err (fun err => decodeMFields M fs err xs) =
      decodeField .exported tag.tag x (t.bare.alloc x) t.bare.zero (fun mode => decodeWith chainDecoder t.bare mode (t.bare.alloc x)) xs err (fun err => decodeFields chainDecoder fs.bare err xs)
    rw [h2]
    cases tag <;> simp only [decodeField, FieldTag.tag, h1]
end

/-! ### Embedded types of package chain -/

theorem marshalPromoted_congr : (fs : Fields) → (emb : List Bool) → (v w : fs.Val) → fs.EmbeddedEq emb v w → fs.marshalPromoted emb v = fs.marshalPromoted emb w
  | .nil, _, _, _, _ => rfl
  | .cons _ _ _ _, [], _, _, _ => rfl
  | .cons vis tag t fs, e :: emb, v, w, h => by
    obtain ⟨x, xs⟩ : t.Val × fs.Val := v
    obtain ⟨y, ys⟩ : t.Val × fs.Val := w
    have ih := marshalPromoted_congr fs emb xs ys h.2
    by_cases he : (e && t.hasMethods) = true
    · have he' : e = true ∧ t.hasMethods = true := by rwa [Bool.and_eq_true] at he
      have hx : x = y := h.1 he'.1 he'.2
      subst hx
      cases t
      case chain c => exact (if_pos he).trans (if_pos he).symm
      case ptr t =>
        cases t
        case chain c => exact (if_pos he).trans (if_pos he).symm
        all_goals exact nomatch he'.2
      all_goals exact nomatch he'.2
    · exact (if_neg he).trans (ih.trans (if_neg he).symm)

theorem encEach_forall2 {α : Type} {R : α → α → Prop} {f : α → Enc (Option Err)} {xs ys : List α} (h : Forall2 R xs ys) (hf : ∀ x y, R x y → f x = f y) :
    encEach f (pure none) xs = encEach f (pure none) ys := by
  induction h with
  | nil => rfl
  | cons h1 _ ih => simp only [encEach, hf _ _ h1, ih]

theorem embeddedEq_refl : (fs : Fields) → (emb : List Bool) → (v : fs.Val) → fs.EmbeddedEq emb v v
  | .nil, _, _ => trivial
  | .cons _ _ _ _, [], _ => trivial
  | .cons _ _ _ fs, _ :: emb, _ => ⟨fun _ _ => rfl, embeddedEq_refl fs emb _⟩

mutual
theorem encodeM_equalBut (emb : Nat → List Bool) : (t : MTy) → (v w : t.bare.Val) → t.EqualBut emb v w → encodeM (embedding emb) t v = encodeM (embedding emb) t w
  | .plain _, v, w, h => by cases h; rfl
  | .own i (.struct fs), v, w, h => by
    rw [MTy.EqualBut] at h
    split at h
    · next hp =>
      refine (encodeM_own _ i (.struct fs) v).trans (Eq.trans ?_ (encodeM_own _ i (.struct fs) w).symm)
      simp only [embedding, if_pos hp.1, hp.2, if_true]
      exact marshalPromoted_congr _ _ _ _ h
    · cases h; rfl
  | .own i (.plain _), v, w, h => by cases h; rfl
  | .own i (.own _ _), v, w, h => by cases h; rfl
  | .own i (.ptr _), v, w, h => by cases h; rfl
  | .own i (.slice _), v, w, h => by cases h; rfl
  | .own i (.array _ _), v, w, h => by cases h; rfl
  | .own i (.map _ _), v, w, h => by cases h; rfl
  | .ptr (.plain t), v, w, h => by
    rcases h with h | ⟨x, y, rfl, rfl, h⟩
    · cases h; rfl
    · cases h; rfl
  | .ptr (.own i t), v, w, h => by
    rcases h with h | ⟨x, y, rfl, rfl, h⟩
    · cases h; rfl
    · cases t
      case struct fs =>
        rw [MTy.EqualBut] at h
        refine (encodeM_ptr _ (.own i (.struct fs)) x).trans (Eq.trans ?_ (encodeM_ptr _ (.own i (.struct fs)) y).symm)
        dsimp only
        split at h
        · next hp =>
          simp only [embedding, if_pos hp.1, hp.2, if_true]
          exact marshalPromoted_congr _ _ _ _ h
        · cases h; rfl
      all_goals cases h; rfl
  | .ptr (.ptr t), v, w, h => by
    rcases h with h | ⟨x, y, rfl, rfl, h⟩
    · cases h; rfl
    · exact encodeM_equalBut emb (.ptr t) x y h
  | .ptr (.slice t), v, w, h => by
    rcases h with h | ⟨x, y, rfl, rfl, h⟩
    · cases h; rfl
    · exact encodeM_equalBut emb (.slice t) x y h
  | .ptr (.array n t), v, w, h => by
    rcases h with h | ⟨x, y, rfl, rfl, h⟩
    · cases h; rfl
    · exact encodeM_equalBut emb (.array n t) x y h
  | .ptr (.struct fs), v, w, h => by
    rcases h with h | ⟨x, y, rfl, rfl, h⟩
    · cases h; rfl
    · exact encodeM_equalBut emb (.struct fs) x y h
  | .ptr (.map k t), v, w, h => by
    rcases h with h | ⟨x, y, rfl, rfl, h⟩
    · cases h; rfl
    · exact encodeM_equalBut emb (.map k t) x y h
  | .slice t, v, w, h => by
    have := encEach_forall2 h fun x y hxy => encodeM_equalBut emb t x y hxy
    rw [encodeM, encodeM, forall2_length _ _ _ h, this]
  | .array _ t, v, w, h => encEach_forall2 h fun x y hxy => encodeM_equalBut emb t x y hxy
  | .map k t, v, w, h => by
    let f : k.Val × t.bare.Val → Enc (Option Err) := fun (x, y) => do
      match ← encode k x with
      | some e => pure (some e)
      | none => encodeM (embedding emb) t y
    have key : ∀ xs ys : List (k.Val × t.bare.Val), Forall2 (fun x y => x.1 = y.1 ∧ t.EqualBut emb x.2 y.2) xs ys →
        ((writeVaruint xs.length.toUInt64).bind fun e => match e with
          | some e => pure (some e)
          | none => encEach f (pure none) xs) = (writeVaruint ys.length.toUInt64).bind fun e => match e with
          | some e => pure (some e)
          | none => encEach f (pure none) ys := fun xs ys hxs => by
      rw [forall2_length _ _ _ hxs, encEach_forall2 hxs fun x y hxy => by
        obtain ⟨x1, x2⟩ := x
        obtain ⟨y1, y2⟩ := y
        obtain ⟨h1, h2⟩ := hxy
        cases h1
        dsimp only [f]
        rw [encodeM_equalBut emb t x2 y2 h2]]
    exact key _ _ h
  | .struct fs, v, w, h => encodeMFields_equalBut emb fs v w h
theorem encodeMFields_equalBut (emb : Nat → List Bool) : (fs : MFields) → (v w : fs.bare.Val) → fs.EqualBut emb v w → encodeMFields (embedding emb) fs v = encodeMFields (embedding emb) fs w
  | .nil, _, _, _ => rfl
  | .cons tag t fs, v, w, h => by
    obtain ⟨x, xs⟩ : t.bare.Val × fs.bare.Val := v
    obtain ⟨y, ys⟩ : t.bare.Val × fs.bare.Val := w
    obtain ⟨h1, h2, h3⟩ := h
    have e1 := encodeM_equalBut emb t x y h1
    have e3 := encodeMFields_equalBut emb fs xs ys h3
    show encodeField .exported tag.tag (t.bare.isZero x) (encodeM _ t x) (encodeMFields _ fs xs) =
      encodeField .exported tag.tag (t.bare.isZero y) (encodeM _ t y) (encodeMFields _ fs ys)
    rw [e1, e3]
    cases tag
    case optional =>
      have : t.bare.isZero x = t.bare.isZero y := by unfold Ty.isZero; exact decide_eq_decide.2 (h2 rfl)
      rw [this]
    all_goals rfl
end

end Verif
