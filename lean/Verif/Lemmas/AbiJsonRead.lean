import Verif.Lemmas.FloatNumber
import Verif.Lemmas.AbiJsonBack
import Verif.Props.JsonSyntax
/-! # Documents read into an interface -/
namespace Verif

theorem mapPut_iff (k : Bytes) (v : AV) : (m : List (Bytes × AV)) → (m.map Prod.fst).Nodup → ∀ k' x, (k', x) ∈ mapPut m k v ↔ (k' = k ∧ x = v) ∨ (k' ≠ k ∧ (k', x) ∈ m)
  | [], _, k', x => by
    simp only [mapPut, List.mem_singleton, Prod.mk.injEq, List.not_mem_nil, and_false, or_false]
  | (k0, v0) :: m, h, k', x => by
    obtain ⟨h1, h2⟩ := List.nodup_cons.1 h
    have hm : ∀ y, (k0, y) ∉ m := fun y hy => h1 (List.mem_map.2 ⟨_, hy, rfl⟩)
    unfold mapPut
    split
    · rename_i e
      subst e
      simp only [List.mem_cons, Prod.mk.injEq]
      constructor
      · rintro (h | h)
        · exact .inl h
        · exact .inr ⟨fun e => hm x (e ▸ h), .inr h⟩
      · rintro (h | ⟨h, h' | h'⟩)
        · exact .inl h
        · exact (h h'.1).elim
        · exact .inr h'
    · rename_i e
      rw [List.mem_cons, mapPut_iff k v m h2 k' x, List.mem_cons]
      constructor
      · rintro (h | h | h)
        · injection h with h3 h4; subst h3; exact .inr ⟨e, .inl (by rw [h4])⟩
        · exact .inl h
        · exact .inr ⟨h.1, .inr h.2⟩
      · rintro (h | ⟨h, h' | h'⟩)
        · exact .inr (.inl h)
        · exact .inl h'
        · exact .inr (.inr ⟨h, h'⟩)

theorem lastMember_cons (k' : Bytes) (x : AV) (k : Bytes) (v : AV) (es : List (Bytes × AV)) : LastMember k' x ((k, v) :: es) ↔ LastMember k' x es ∨ (k' = k ∧ x = v ∧ k' ∉ es.map Prod.fst) := by
  constructor
  · rintro ⟨pre, post, h1, h2⟩
    cases pre with
    | nil =>
      injection h1 with h3 h4
      injection h3 with h5 h6
      exact .inr ⟨h5.symm, h6.symm, h4 ▸ h2⟩
    | cons p pre =>
      injection h1 with h3 h4
      exact .inl ⟨pre, post, h4, h2⟩
  · rintro (⟨pre, post, h1, h2⟩ | ⟨rfl, rfl, h⟩)
    · exact ⟨(k, v) :: pre, post, by rw [h1]; rfl, h2⟩
    · exact ⟨[], es, rfl, h⟩
theorem lastMember_mem {k : Bytes} {x : AV} {es : List (Bytes × AV)} (h : LastMember k x es) : k ∈ es.map Prod.fst := by
  obtain ⟨pre, post, rfl, _⟩ := h
  simp

/-- The map that is built up from the members -/
theorem anyMembers_fold : (ms : List (Bytes × JVal)) → (acc : List (Bytes × AV)) → (acc.map Prod.fst).Nodup →
    ((anyMembers ms acc).map Prod.fst).Nodup ∧ ∀ k x, (k, x) ∈ anyMembers ms acc ↔
      LastMember k x (ms.map fun p => (unquote p.1, AV.ofJson p.2)) ∨ (k ∉ (ms.map fun p => (unquote p.1, AV.ofJson p.2)).map Prod.fst ∧ (k, x) ∈ acc)
  | [], acc, h => by
    refine ⟨h, fun k x => ?_⟩
    rw [anyMembers]
    constructor
    · intro h; exact .inr ⟨by simp, h⟩
    · rintro (⟨pre, post, h, _⟩ | h)
      · simp at h
      · exact h.2
  | (l, j) :: ms, acc, h => by
    obtain ⟨h1, h2⟩ := anyMembers_fold ms (mapPut acc (unquote l) (AV.ofJson j)) (mapPut_nodup _ _ acc h)
    refine ⟨h1, fun k x => ?_⟩
    rw [anyMembers, h2 k x, mapPut_iff _ _ acc h, List.map_cons, lastMember_cons, List.map_cons, List.mem_cons]
    dsimp only
    generalize (ms.map fun p => (unquote p.1, AV.ofJson p.2)) = es
    constructor
    · rintro (h | ⟨h, ⟨h3, h4⟩ | h3⟩)
      · exact .inl (.inl h)
      · exact .inl (.inr ⟨h3, h4, h⟩)
      · exact .inr ⟨fun h' => h'.elim h3.1 h, h3.2⟩
    · rintro ((h | ⟨h3, h4, h⟩) | ⟨h3, h4⟩)
      · exact .inl h
      · exact .inr ⟨h, .inl ⟨h3, h4⟩⟩
      · exact .inr ⟨fun h => h3 (.inr h), .inr ⟨fun h => h3 (.inl h), h4⟩⟩

mutual
theorem read_any : (j : JVal) → (n : Nat) → (t : Bytes) → JText n j t → (∀ l, NumIn l j → l.length ≤ 9000) → j.inRange = true → AnyOf j (AV.ofJson j)
  | .null, _, _, _, _, _ => .null
  | .bool b, _, _, _, _, _ => .bool b
  | .num l, _, _, h, hl, hr => by
    cases h with
    | num _ _ h =>
      obtain ⟨q, hq⟩ := numLit_value h
      obtain ⟨h1, h2⟩ := number_read hq (hl l .here)
      rcases lt_or_ge |q| limit64 with h' | h'
      · obtain ⟨v, e, g1, g2⟩ := h1 h'
        rw [ofJson_num e]
        exact .num l q v hq g1 g2
      · rw [JVal.inRange, h2 h'] at hr
        cases hr
  | .str l, _, _, h, _, _ => by
    cases h with
    | str _ _ h => exact .str l _ ((C74_literal l _ h).1 rfl)
  | .arr js, _, _, h, hl, hr => by
    cases h with
    | empty => exact .arr _ _ .nil
    | arr n _ t h => exact .arr _ _ (read_each js n t h (fun l j hj h => hl l (.elem j js hj h)) hr)
  | .obj ms, _, _, h, hl, hr => by
    have hm : AnyMembers ms (ms.map fun p => (unquote p.1, AV.ofJson p.2)) := by
      cases h with
      | void => exact .nil
      | obj n _ t h => exact read_members ms n t h (fun l p hp h => hl l (.member p.1 p.2 ms hp h)) hr
    obtain ⟨h1, h2⟩ := anyMembers_fold ms [] List.nodup_nil
    refine .obj ms _ _ hm h1 fun k x => ?_
    rw [h2 k x]
    simp
theorem read_each : (js : List JVal) → (n : Nat) → (t : Bytes) → JElems n js t → (∀ l, ∀ j ∈ js, NumIn l j → l.length ≤ 9000) → inRangeAll js = true → AnyEach js (anyElems js)
  | [], _, _, _, _, _ => .nil
  | j :: js, n, t, h, hl, hr => by
    rw [inRangeAll, Bool.and_eq_true] at hr
    cases h with
    | one _ _ a t b _ h _ => exact .cons _ _ _ _ (read_any j n t h (fun l h => hl l j List.mem_cons_self h) hr.1) .nil
    | more _ _ _ a t b ts _ h _ hs =>
      exact .cons _ _ _ _ (read_any j n t h (fun l h => hl l j List.mem_cons_self h) hr.1) (read_each js n ts hs (fun l j hj h => hl l j (List.mem_cons_of_mem _ hj) h) hr.2)
theorem read_members : (ms : List (Bytes × JVal)) → (n : Nat) → (t : Bytes) → JMembers n ms t → (∀ l, ∀ p ∈ ms, NumIn l p.2 → l.length ≤ 9000) → inRangeMembers ms = true →
    AnyMembers ms (ms.map fun p => (unquote p.1, AV.ofJson p.2))
  | [], _, _, _, _, _ => .nil
  | (k, j) :: ms, n, t, h, hl, hr => by
    rw [inRangeMembers, Bool.and_eq_true] at hr
    cases h with
    | one _ _ _ a b c t d _ hk _ _ h _ =>
      exact .cons _ _ _ _ _ _ ((C74_literal k _ hk).1 rfl) (read_any j n t h (fun l h => hl l (k, j) List.mem_cons_self h) hr.1) .nil
    | more _ _ _ _ a b c t d ts _ hk _ _ h _ hs =>
      exact .cons _ _ _ _ _ _ ((C74_literal k _ hk).1 rfl) (read_any j n t h (fun l h => hl l (k, j) List.mem_cons_self h) hr.1)
        (read_members ms n ts hs (fun l p hp h => hl l p (List.mem_cons_of_mem _ hp) h) hr.2)
end

/-! ## Numbers out of range -/

theorem numIn_range {l : Bytes} {j : JVal} (h : NumIn l j) (hr : j.inRange = true) : (parseFloat l).isSome = true := by
  induction h with
  | here => exact hr
  | elem j js hj _ ih => exact ih ((inRangeAll_iff js).1 hr j hj)
  | member k j ms hj _ ih => exact ih ((inRangeMembers_iff ms).1 hr (k, j) hj)
mutual
theorem range_num : (j : JVal) → j.inRange = false → ∃ l, NumIn l j ∧ parseFloat l = none
  | .null, h => by cases h
  | .bool _, h => by cases h
  | .str _, h => by cases h
  | .num l, h => ⟨l, .here, by rwa [JVal.inRange, Option.isSome_eq_false_iff, Option.isNone_iff_eq_none] at h⟩
  | .arr js, h => by
    obtain ⟨l, j, hj, h1, h2⟩ := range_each js h
    exact ⟨l, .elem j js hj h1, h2⟩
  | .obj ms, h => by
    obtain ⟨l, p, hp, h1, h2⟩ := range_members ms h
    exact ⟨l, .member p.1 p.2 ms hp h1, h2⟩
theorem range_each : (js : List JVal) → inRangeAll js = false → ∃ l, ∃ j ∈ js, NumIn l j ∧ parseFloat l = none
  | [], h => by cases h
  | j :: js, h => by
    rw [inRangeAll, Bool.and_eq_false_iff] at h
    rcases h with h | h
    · obtain ⟨l, h1⟩ := range_num j h
      exact ⟨l, j, List.mem_cons_self, h1⟩
    · obtain ⟨l, j', hj, h1⟩ := range_each js h
      exact ⟨l, j', List.mem_cons_of_mem _ hj, h1⟩
theorem range_members : (ms : List (Bytes × JVal)) → inRangeMembers ms = false → ∃ l, ∃ p ∈ ms, NumIn l p.2 ∧ parseFloat l = none
  | [], h => by cases h
  | (k, j) :: ms, h => by
    rw [inRangeMembers, Bool.and_eq_false_iff] at h
    rcases h with h | h
    · obtain ⟨l, h1⟩ := range_num j h
      exact ⟨l, (k, j), List.mem_cons_self, h1⟩
    · obtain ⟨l, p, hj, h1⟩ := range_members ms h
      exact ⟨l, p, List.mem_cons_of_mem _ hj, h1⟩
end

mutual
theorem numIn_lit : (j : JVal) → (n : Nat) → (t l : Bytes) → JText n j t → NumIn l j → NumLit l
  | .null, _, _, _, _, h => by cases h
  | .bool _, _, _, _, _, h => by cases h
  | .str _, _, _, _, _, h => by cases h
  | .num _, _, _, _, ht, h => by cases h; cases ht; assumption
  | .arr js, _, _, l, ht, h => by
    cases h with
    | elem j _ hj h =>
      cases ht with
      | empty => cases hj
      | arr n _ t ht => exact numIn_each js n t l ht j hj h
  | .obj ms, _, _, l, ht, h => by
    cases h with
    | member k j _ hj h =>
      cases ht with
      | void => cases hj
      | obj n _ t ht => exact numIn_members ms n t l ht (k, j) hj h
theorem numIn_each : (js : List JVal) → (n : Nat) → (t l : Bytes) → JElems n js t → ∀ j ∈ js, NumIn l j → NumLit l
  | [], _, _, _, h, _, hj, _ => by cases hj
  | j :: js, n, _, l, h, j', hj, hn => by
    rcases List.mem_cons.1 hj with e | hj
    · rw [e] at hn
      cases h with
      | one _ _ _ t _ _ h _ => exact numIn_lit j n t l h hn
      | more _ _ _ _ t _ _ _ h _ _ => exact numIn_lit j n t l h hn
    · cases h with
      | one => cases hj
      | more _ _ _ _ _ _ ts _ _ _ h => exact numIn_each js n ts l h j' hj hn
theorem numIn_members : (ms : List (Bytes × JVal)) → (n : Nat) → (t l : Bytes) → JMembers n ms t → ∀ p ∈ ms, NumIn l p.2 → NumLit l
  | [], _, _, _, h, _, hj, _ => by cases hj
  | (k, j) :: ms, n, _, l, h, p, hj, hn => by
    rcases List.mem_cons.1 hj with e | hj
    · rw [e] at hn
      cases h with
      | one _ _ _ _ _ _ t _ _ _ _ _ h _ => exact numIn_lit j n t l h hn
      | more _ _ _ _ _ _ _ t _ _ _ _ _ _ h _ _ => exact numIn_lit j n t l h hn
    · cases h with
      | one => cases hj
      | more _ _ _ _ _ _ _ _ _ ts _ _ _ _ _ _ h => exact numIn_members ms n ts l h p hj hn
end

end Verif
