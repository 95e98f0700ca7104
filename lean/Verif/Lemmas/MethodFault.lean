import Verif.Spec.MethodFault
import Verif.Lemmas.Methods
import Verif.Lemmas.Fault
/-! # Lemmas about the values that Encode writes if there are types with methods -/
namespace Verif

variable {M : Program} {C : Conducts}

theorem Enc.Outcome.ends {p : Enc (Option Err)} {f : Option Fault} {R : Bytes → Prop} (h : p.Outcome f R) : p.Ends f R := h
theorem Enc.Ends.of_eq {p q : Enc (Option Err)} {f : Option Fault} {R : Bytes → Prop} (h : p = q) (hq : q.Ends f R) : p.Ends f R := h ▸ hq

mutual
theorem encodeM_ends (hM : M.Follows C) : (t : MTy) → t.bare.Whole → (v : t.bare.Val) → t.bare.Real v → (encodeM M t v).Ends (t.fault C v) (t.Wire C v)
  | .plain t, hw, v, hr => ends_ty t hw v hr
  | .own i t, hw, v, hr => by
    have h0 := encodeM_ends hM t hw v hr
    obtain ⟨h1, h2, _⟩ := hM i t
    refine Enc.Ends.of_eq (encodeM_own M i t v) ?_
    show Enc.Ends _ (if (C i t).receiver = .value then (C i t).fault v else t.fault C v) fun bs => if (C i t).receiver = .value then (C i t).form v bs else t.Wire C v bs
    rw [h1]
    cases hc : (C i t).receiver with
    | value =>
      simp only [if_true]
      exact (h2 (by rw [hc]; nofun) v).ends
    | none => exact h0
    | pointer => exact h0
  | .ptr (.plain t), hw, v, hr => ends_ty (.ptr t) hw v hr
  | .ptr (.own i t), hw, v, hr => by
    obtain ⟨h1, h2, h3⟩ := hM i t
    change Option t.bare.Val at v
    cases v with
    | some x =>
      have h0 := encodeM_ends hM t hw x (hr x rfl)
      refine Enc.Ends.of_eq (encodeM_ptr M (.own i t) x) ?_
      show Enc.Ends (if (M i t).receiver = .none then encodeM M t x else (M i t).marshal x) (match (some x : Option t.bare.Val), (C i t).receiver with
        | some x, .none => t.fault C x
        | some x, _ => (C i t).fault x
        | none, .none => some t.bare.nilFault
        | none, .value => some .panics
        | none, .pointer => (C i t).nilFault) fun bs => if (C i t).receiver = .none then t.Wire C x bs else (C i t).form x bs
      rw [h1]
      cases hc : (C i t).receiver with
      | none => exact h0
      | value => exact (h2 (by rw [hc]; nofun) x).ends
      | pointer => exact (h2 (by rw [hc]; nofun) x).ends
    | none =>
      show Enc.Ends (match (none : Option t.bare.Val), (M i t).receiver with
        | some x, .none => encodeM M t x
        | some x, _ => (M i t).marshal x
        | none, .none => encode (.ptr t.bare) (none : Option t.bare.Val)
        | none, .value => .panic "value method called using nil pointer"
        | none, .pointer => (M i t).marshalNil) (match (none : Option t.bare.Val), (C i t).receiver with
        | some x, .none => t.fault C x
        | some x, _ => (C i t).fault x
        | none, .none => some t.bare.nilFault
        | none, .value => some .panics
        | none, .pointer => (C i t).nilFault) fun bs => (C i t).receiver = .pointer ∧ (C i t).nilForm bs
      rw [h1]
      cases hc : (C i t).receiver with
      | none => exact (ends_nil t.bare).mono fun _ h => h.elim
      | value => exact ⟨_, rfl⟩
      | pointer => exact (h3 hc).ends.mono fun _ h => ⟨rfl, h⟩
  | .ptr (.ptr t), hw, v, hr => by
    change Option (Option t.bare.Val) at v
    cases v with
    | none => exact ⟨[], rfl⟩
    | some x => exact encodeM_ends hM (.ptr t) hw x (hr x rfl)
  | .ptr (.slice t), hw, v, hr => by
    change Option (Option (List t.bare.Val)) at v
    cases v with
    | none => exact ⟨[], rfl⟩
    | some x => exact encodeM_ends hM (.slice t) hw x (hr x rfl)
  | .ptr (.array n t), hw, v, hr => by
    change Option (List t.bare.Val) at v
    cases v with
    | none => exact ⟨[], rfl⟩
    | some x => exact encodeM_ends hM (.array n t) hw x (hr x rfl)
  | .ptr (.map k t), hw, v, hr => by
    change Option (Option (List (k.Val × t.bare.Val))) at v
    cases v with
    | none => exact ⟨[], rfl⟩
    | some x => exact encodeM_ends hM (.map k t) hw x (hr x rfl)
  | .ptr (.struct fs), hw, v, hr => by
    change Option fs.bare.Val at v
    cases v with
    | none => exact ⟨[], rfl⟩
    | some x => exact encodeM_ends hM (.struct fs) hw x (hr x rfl)
  | .slice t, hw, v, hr => ends_counted_all (R := t.Wire C) (enc := encodeM M t) (fa := t.fault C) (Option.getD (α := List t.bare.Val) v []) hr.1
      (fun x hx => encodeM_ends hM t hw x (hr.2 x hx)) _ rfl
  | .array _ t, hw, v, hr => ends_all (R := t.Wire C) (enc := encodeM M t) (fa := t.fault C) (show List t.bare.Val from v) fun x hx => encodeM_ends hM t hw x (hr x hx)
  | .map k t, hw, v, hr => ends_counted_all (R := fun (x : k.Val × t.bare.Val) bs => ∃ b1 b2, k.Layout x.1 b1 ∧ t.Wire C x.2 b2 ∧ bs = b1 ++ b2)
      (enc := fun (x : k.Val × t.bare.Val) => do
        match ← encode k x.1 with
        | some e => pure (some e)
        | none => encodeM M t x.2) (fa := fun x => (k.fault x.1).or (t.fault C x.2)) (Option.getD (α := List (k.Val × t.bare.Val)) v []) hr.1
      (fun x hx => (ends_ty k hw.1 x.1 (hr.2 x hx).1).bind (encodeM_ends hM t hw.2 x.2 (hr.2 x hx).2) fun b1 b2 h1 h2 => ⟨b1, b2, h1, h2, rfl⟩) _ rfl
  | .struct fs, hw, v, hr => encodeMFields_ends hM fs hw v hr
theorem encodeMFields_ends (hM : M.Follows C) : (fs : MFields) → fs.bare.Whole → (v : fs.bare.Val) → fs.bare.Real v → (encodeMFields M fs v).Ends (fs.fault C v) (fs.Wire C v)
  | .nil, _, _, _ => ⟨[], rfl, Enc.Writes.pure⟩
  | .cons tag t fs, hw, v, hr => by
    obtain ⟨x, xs⟩ : t.bare.Val × fs.bare.Val := v
    have h1 := encodeM_ends hM t hw.1 x hr.1
    have h2 := encodeMFields_ends hM fs hw.2 xs hr.2
    change (encodeField .exported tag.tag (t.bare.isZero x) (encodeM M t x) (encodeMFields M fs xs)).Ends
      ((if tag = .optional ∧ x = t.bare.zero then none else t.fault C x).or (fs.fault C xs))
      fun bs => ∃ b1 b2, fs.Wire C xs b2 ∧ bs = b1 ++ b2 ∧
      (if tag = .optional then (x = t.bare.zero ∧ b1 = [0]) ∨ (x ≠ t.bare.zero ∧ ∃ b, t.Wire C x b ∧ b1 = 1 :: b) else t.Wire C x b1)
    unfold encodeField
    by_cases ht : tag = .optional
    · have ht' : tag.tag = .optional := by rw [ht]; rfl
      simp only [if_pos ht, if_pos ht']
      by_cases hz : x = t.bare.zero
      · have : t.bare.isZero x = true := (isZero_iff t.bare x).2 hz
        simp only [this, if_true, Bool.not_true, if_pos (And.intro ht hz)]
        have hb : (writeBool false >>= fun _ => encodeMFields M fs xs).Ends (fs.fault C xs) fun bs => ∃ b2, fs.Wire C xs b2 ∧ bs = [0] ++ b2 := by
          have := Enc.Ends.bind (f := none) (R := fun bs => bs = [0]) (T := fun bs => ∃ b2, fs.Wire C xs b2 ∧ bs = [0] ++ b2) ⟨[0], rfl, writeBool_writes false⟩ h2 fun b1 b2 e h => ⟨b2, h, by rw [e]⟩
          exact this
        exact hb.mono fun bs ⟨b2, h, e⟩ => ⟨[0], b2, h, e, .inl ⟨hz, rfl⟩⟩
      · have hf : t.bare.isZero x = false := Bool.eq_false_iff.2 fun h => hz ((isZero_iff t.bare x).1 h)
        simp only [hf, Bool.not_false, if_neg fun h : tag = .optional ∧ x = t.bare.zero => hz h.2]
        have := Enc.Ends.bind (f := none) (R := fun bs => bs = [1]) (T := fun bs => ∃ b1 b2, fs.Wire C xs b2 ∧ bs = b1 ++ b2 ∧ ((x = t.bare.zero ∧ b1 = [0]) ∨ (x ≠ t.bare.zero ∧ ∃ b, t.Wire C x b ∧ b1 = 1 :: b)))
          ⟨[1], rfl, writeBool_writes true⟩ (h1.bind (T := fun bs => ∃ b1 b2, fs.Wire C xs b2 ∧ bs = b1 ++ b2 ∧ t.Wire C x b1) h2 fun b1 b2 g1 g2 => ⟨b1, b2, g2, rfl, g1⟩)
          fun b1 b2 e ⟨b3, b4, g1, g2, g3⟩ => ⟨1 :: b3, b4, g1, by rw [e, g2]; rfl, .inr ⟨hz, b3, g3, rfl⟩⟩
        exact this
    · have ht' : tag.tag ≠ .optional := by revert ht; cases tag <;> simp [FieldTag.tag]
      simp only [if_neg ht, if_neg ht', if_neg fun h : tag = .optional ∧ x = t.bare.zero => ht h.1]
      exact h1.bind h2 fun b1 b2 g1 g2 => ⟨b1, b2, g2, rfl, g1⟩
end

end Verif
