import Verif.Spec.MethodTakes
import Verif.Lemmas.MethodVariants
import Verif.Lemmas.TakesReflect
/-! # Lemmas about the bytes that a type with methods accepts -/
namespace Verif
open Dec

variable {M : Program} {A : Accepted}

theorem alloc_not_ptr (t : Ty) (h : ∀ u, t ≠ .ptr u) (v : t.Val) : t.alloc v = v := by
  cases t <;> first | rfl | exact absurd rfl (h _)

theorem allocM_zero : (t : MTy) → t.Strait → decodeM M t .elem (t.bare.alloc t.bare.zero) = decodeM M t .elem t.bare.zero
  | .plain t, _ => alloc_zero_elem chainDecoder t
  | .own _ t, h => congrArg _ (alloc_not_ptr t.bare h.1 _)
  | .ptr _, _ => rfl
  | .slice _, _ => rfl
  | .array _ _, _ => rfl
  | .map _ _, _ => rfl
  | .struct _, _ => rfl

mutual
theorem decodeM_exactly (hM : M.Exact A) : (t : MTy) → t.Strait → (m : Mode) → (decodeM M t m t.bare.zero).Exactly (t.Takes A m)
  | .plain t, hs, m => ty_exactly t hs m
  | .own i t, hs, m => by
    have := decodeM_exactly hM t hs.2 m
    have hk := hM i t
    intro fin bs a r
    rw [show decodeM M (.own i t) m (MTy.own i t).bare.zero = _ from decodeM_own M i t m t.bare.zero]
    show _ ↔ ∃ w, bs = w ++ r ∧ (match A i t with | some R => R a w | none => t.Takes A m a w)
    cases hA : A i t with
    | some R =>
      rw [hA] at hk
      obtain ⟨u, h1, h2⟩ := hk
      rw [h1]
      exact h2 fin bs a r
    | none =>
      rw [hA] at hk
      rw [show (M i t).unmarshal = none from hk]
      exact this fin bs a r
  | .ptr t, hs, m => match m with
      | .elem => ptr_exactly (decodeM_exactly hM t hs .decode)
      | .variant _ => ptr_exactly (decodeM_exactly hM t hs .value)
      | .member => ptr_exactly (decodeM_exactly hM t hs .value)
      | .decode => ptr_exactly (decodeM_exactly hM t hs .value)
      | .value => ptr_exactly (decodeM_exactly hM t hs .value)
  | .slice t, hs, _ => decodeSlice_exactly t.bare.zero t.bare.size (decodeM_exactly hM t hs .elem)
  | .array n t, hs, _ => (decEach_exactly (List.replicate n t.bare.zero) fun x hx => by
      rw [List.eq_of_mem_replicate hx]
      exact decodeM_exactly hM t hs .elem).iff fun v w => by
        rw [List.length_replicate]
        rfl
  | .map k t, hs, _ => decodeMap_exactly (ty_exactly k hs.2.1 .decode) (decodeM_exactly hM t hs.2.2 .decode) _
  | .struct fs, hs, _ => decodeMFields_exactly hM fs hs
theorem decodeMFields_exactly (hM : M.Exact A) : (fs : MFields) → fs.Strait → (decodeMFields M fs none fs.bare.zero).Exactly (fs.Takes A)
  | .nil, _ => (exactly_pure _).iff fun v w => ⟨fun h => h.2, fun h => ⟨rfl, h⟩⟩
  | .cons tag t fs, hs => by
    have h1 := decodeM_exactly hM t hs.2.1 .elem
    have h2 := decodeMFields_exactly hM fs hs.2.2
    rw [← allocM_zero t hs.2.1] at h1
    have key := decodeField_exactly .exported tag.tag (by have := hs.1; revert this; cases tag <;> simp [FieldTag.tag]) (t.bare.alloc t.bare.zero) t.bare.zero
      (dec := fun m => if m = .elem then decodeM M t .elem (t.bare.alloc t.bare.zero) else .panic "") (T := fun m v w => m = .elem ∧ t.Takes A .elem v w)
      (h1.iff fun v w => by simp) (fun i => (never_panic _).exactly fun _ _ h => nomatch h.1) fs.bare.zero (rest := fun err => decodeMFields M fs err fs.bare.zero) h2
    cases tag with
    | none =>
      exact key.iff fun v w => by
        constructor
        · rintro ⟨b1, b2, h1, h2, h3⟩
          exact ⟨b1, b2, h1, h2, h3.2⟩
        · rintro ⟨b1, b2, h1, h2, h3⟩
          exact ⟨b1, b2, h1, h2, rfl, h3⟩
    | optional =>
      exact key.iff fun v w => by
        constructor
        · rintro ⟨b1, b2, h1, h2, h3⟩
          exact ⟨b1, b2, h1, h2, h3.imp_right fun ⟨p, b, h4, h5, h6⟩ => ⟨p, b, h4, h5.2, h6⟩⟩
        · rintro ⟨b1, b2, h1, h2, h3⟩
          refine ⟨b1, b2, h1, h2, Or.imp_right (fun ⟨p, b, h4, h5, h6⟩ => ⟨p, b, h4, ⟨rfl, h5⟩, h6⟩) h3⟩
    | extension => exact absurd rfl hs.1
end

theorem clear_exactly : (ts : List MTy) → (n : Nat) → (t : MTy) → ts[n]? = some t → (v : (variantFields ts).bare.Val) →
    ∃ x, (variantFields ts).bare.clear (some n) v = some x ∧ ∀ {R : t.bare.Val → Bytes → Prop}, (decodeM M t .decode t.bare.zero).Exactly R →
      (memberM M (variantFields ts) n x).Exactly fun y w => ∃ z, Chosen t z ts n y ∧ R z w
  | [], _, _, h, _ => by simp at h
  | u :: ts, 0, t, h, v => by
    cases h
    obtain ⟨x, xs⟩ : Option u.bare.Val × (variantFields ts).bare.Val := v
    have := clear_variantFields_none ts xs
    refine ⟨((x, noneChosen ts) : Option u.bare.Val × (variantFields ts).bare.Val), ?_, fun {R} hr => ?_⟩
    · change Fields.clear (.cons .exported .none (.ptr u.bare) (variantFields ts).bare) (some 0) ((x, xs) : Option u.bare.Val × (variantFields ts).bare.Val) = _
      simp [Fields.clear, this]
      rfl
    · have h1 : (fieldM M (.ptr u) x).Exactly fun (y : Option u.bare.Val) w => ∃ z, R z w ∧ y = some z := hr.map (g := some) (fun _ => rfl) fun _ _ => ⟨_, _, rfl⟩
      have h2 : (memberM M (variantFields (u :: ts)) 0 ((x, noneChosen ts) : Option u.bare.Val × (variantFields ts).bare.Val)).Exactly _ :=
        h1.map (g := fun y => ((y, noneChosen ts) : Option u.bare.Val × (variantFields ts).bare.Val)) (fun _ => rfl) fun _ _ => ⟨_, _, rfl⟩
      refine h2.iff fun y w => ⟨?_, ?_⟩
      · rintro ⟨_, ⟨z, h, rfl⟩, rfl⟩
        exact ⟨z, .here ts, h⟩
      · rintro ⟨z, hc, h⟩
        cases hc
        exact ⟨_, ⟨z, h, rfl⟩, rfl⟩
  | u :: ts, n + 1, t, h, v => by
    obtain ⟨x, xs⟩ : Option u.bare.Val × (variantFields ts).bare.Val := v
    obtain ⟨ys, h1, h2⟩ := clear_exactly ts n t (by simpa using h) xs
    refine ⟨(((none : Option u.bare.Val), ys) : Option u.bare.Val × (variantFields ts).bare.Val), ?_, fun {R} hr => ?_⟩
    · change Fields.clear (.cons .exported .none (.ptr u.bare) (variantFields ts).bare) (some (n + 1)) ((x, xs) : Option u.bare.Val × (variantFields ts).bare.Val) = _
      cases x <;> simp [Fields.clear, Ty.isNil, h1] <;> rfl
    · have h3 : (memberM M (variantFields (u :: ts)) (n + 1) (((none : Option u.bare.Val), ys) : Option u.bare.Val × (variantFields ts).bare.Val)).Exactly _ :=
        (h2 hr).map (g := fun zs => (((none : Option u.bare.Val), zs) : Option u.bare.Val × (variantFields ts).bare.Val)) (fun _ => rfl) fun _ _ => ⟨_, _, rfl⟩
      refine h3.iff fun y w => ⟨?_, ?_⟩
      · rintro ⟨zs, ⟨z, hc, h⟩, rfl⟩
        exact ⟨z, .there u ts n zs hc, h⟩
      · rintro ⟨z, hc, h⟩
        cases hc with
        | there _ _ _ zs hc => exact ⟨zs, ⟨z, hc, h⟩, rfl⟩

end Verif
