import Verif.Spec.AbiExtend
import Verif.Lemmas.AbiGrow
import Verif.Lemmas.Twin
/-! Lemmas for C105. -/
namespace Verif

theorem agrees_reach {a a' : Abi} {n : Bytes} (h : a.Agrees a' n) {m : Bytes} (hm : Reach a' n m) : Reach a n m := by
  induction hm with
  | refl => exact .refl
  | step _ hr ih =>
    cases hr with
    | base hs h1 h2 => exact .step ih (.base hs (((h _ _ _ _ _ ih hs).1 _).2 h1) h2)
    | field hs h1 h2 => exact .step ih (.field hs (((h _ _ _ _ _ ih hs).1 _).2 h1) h2)
    | member hs h1 h2 => exact .step ih (.member hs (((h _ _ _ _ _ ih hs).2.1 _).2 h1) h2)
    | «alias» hs h1 => exact .step ih (.alias hs (((h _ _ _ _ _ ih hs).2.2 _).2 h1))

theorem agrees_symm {a a' : Abi} {n : Bytes} (h : a.Agrees a' n) : a'.Agrees a n := fun m b arr ext opt hm hs =>
  have := h m b arr ext opt (agrees_reach h hm) hs
  ⟨fun s => (this.1 s).symm, fun v => (this.2.1 v).symm, fun t => (this.2.2 t).symm⟩

theorem notDefined_same {a a' : Abi} {b : Bytes} (h : SameMeaning a a' b) (hd : NotDefined a b) : NotDefined a' b := by
  obtain ⟨e1, e2⟩ := struct_of_describe h
  have n1 := (getStruct_none a b).2 hd.1.1
  obtain ⟨e2, e3⟩ := e2 n1
  have n2 := (getVariant_none a b).2 hd.1.2
  have n3 := (getType_none a b).2 hd.2
  exact ⟨⟨(getStruct_none a' b).1 (e1 ▸ n1), (getVariant_none a' b).1 (e2 ▸ n2)⟩, (getType_none a' b).1 (e3 n2 ▸ n3)⟩

theorem agrees_grows {a a' : Abi} {n : Bytes} (h : a.Agrees a' n) : a.Grows a' n := fun m b arr ext opt hm hs =>
  have hs' := h m b arr ext opt hm hs
  ⟨hs'.1, fun v hv => ⟨v, (hs'.2.1 v).1 hv, List.prefix_refl _⟩, fun t => (hs'.2.2 t).1, notDefined_same hs'⟩

theorem gives_agrees {a a' : Abi} {n : Bytes} (h : a.Agrees a' n) {fin : Err} {s : Bytes} {v : AV} {r : Bytes} : Gives a fin n s v r ↔ Gives a' fin n s v r :=
  ⟨gives_grows (agrees_grows h) .refl, gives_grows (agrees_grows (agrees_symm h)) .refl⟩

theorem wire_agrees {a a' : Abi} {n : Bytes} (h : a.Agrees a' n) {B : Bytes → AV → Bytes → Prop} {exact : Bool} {v : AV} {bs : Bytes} : Wire a B exact n v bs ↔ Wire a' B exact n v bs :=
  ⟨wire_grows (agrees_grows h) .refl, wire_grows (agrees_grows (agrees_symm h)) .refl⟩

section
variable {a a' : Abi} {fin : Err}

theorem givesMembers_agrees {fs : List AbiField} (h : ∀ g ∈ fs, a.Agrees a' g.type) {s : Bytes} {xs : List (Bytes × AV)} {r : Bytes} :
    GivesMembers a fin fs s xs r ↔ GivesMembers a' fin fs s xs r := by
  induction fs generalizing s xs with
  | nil => exact ⟨fun | .nil => .nil, fun | .nil => .nil⟩
  | cons f fs ih =>
    have ih := fun {s xs} => ih (s := s) (xs := xs) fun g hg => h g (List.mem_cons_of_mem _ hg)
    exact ⟨fun | .cons h1 h2 => .cons ((gives_agrees (h f List.mem_cons_self)).1 h1) (ih.1 h2), fun | .cons h1 h2 => .cons ((gives_agrees (h f List.mem_cons_self)).2 h1) (ih.2 h2)⟩

theorem members_agrees {fs : List AbiField} (h : ∀ g ∈ fs, a.Agrees a' g.type) {B : Bytes → AV → Bytes → Prop} {exact : Bool} {m : List (Bytes × AV)} {bs : Bytes} :
    Members a B exact fs m bs ↔ Members a' B exact fs m bs := by
  induction fs generalizing bs with
  | nil => exact ⟨fun | .nil => .nil, fun | .nil => .nil⟩
  | cons f fs ih =>
    have ih := fun {bs} => ih (bs := bs) fun g hg => h g (List.mem_cons_of_mem _ hg)
    exact ⟨fun | .cons h1 h2 h3 => .cons h1 ((wire_agrees (h f List.mem_cons_self)).1 h2) (ih.1 h3),
      fun | .cons h1 h2 h3 => .cons h1 ((wire_agrees (h f List.mem_cons_self)).2 h2) (ih.2 h3)⟩

theorem givesMembers_snoc {fs : List AbiField} {f : AbiField} {s : Bytes} {xs : List (Bytes × AV)} {r : Bytes} :
    GivesMembers a fin (fs ++ [f]) s xs r ↔ ∃ ys x m, GivesMembers a fin fs s ys m ∧ Gives a fin f.type m x r ∧ xs = ys ++ [(f.name, x)] := by
  induction fs generalizing s xs with
  | nil =>
    constructor
    · rintro (_ | ⟨h1, _ | _⟩)
      exact ⟨[], _, s, .nil, h1, rfl⟩
    · rintro ⟨ys, x, m, (_ | _), h, rfl⟩
      exact .cons h .nil
  | cons g fs ih =>
    constructor
    · rintro (_ | ⟨h1, h2⟩)
      obtain ⟨ys, x, m, h3, h4, rfl⟩ := ih.1 h2
      exact ⟨_, x, m, .cons h1 h3, h4, rfl⟩
    · rintro ⟨ys, x, m, (_ | ⟨h1, h2⟩), h4, rfl⟩
      exact .cons h1 (ih.2 ⟨_, x, m, h2, h4, rfl⟩)

theorem members_snoc {B : Bytes → AV → Bytes → Prop} {exact : Bool} {fs : List AbiField} {f : AbiField} {m : List (Bytes × AV)} {bs : Bytes} :
    Members a B exact (fs ++ [f]) m bs ↔ ∃ x b1 b2, Members a B exact fs m b1 ∧ Entry m f.name x ∧ Wire a B exact f.type x b2 ∧ bs = b1 ++ b2 := by
  induction fs generalizing bs with
  | nil =>
    constructor
    · rintro (_ | ⟨h1, h2, _ | _⟩)
      exact ⟨_, [], _, .nil, h1, h2, by simp⟩
    · rintro ⟨x, b1, b2, (_ | _), h1, h2, rfl⟩
      have := Members.cons h1 h2 .nil
      simpa using this
  | cons g fs ih =>
    constructor
    · rintro (_ | ⟨h1, h2, h3⟩)
      obtain ⟨x, b1, b2, h4, h5, h6, rfl⟩ := ih.1 h3
      exact ⟨x, _, b2, .cons h1 h2 h4, h5, h6, by simp⟩
    · rintro ⟨x, b1, b2, (_ | ⟨h1, h2, h3⟩), h5, h6, rfl⟩
      rw [List.append_assoc]
      exact .cons h1 h2 (ih.2 ⟨x, _, b2, h3, h5, h6, rfl⟩)

theorem givesMembers_names {fs : List AbiField} {s : Bytes} {xs : List (Bytes × AV)} {r : Bytes} (h : GivesMembers a fin fs s xs r) : xs.map Prod.fst = fs.map AbiField.name := by
  induction fs generalizing s xs with
  | nil => cases h; rfl
  | cons f fs ih => cases h with | cons h1 h2 => simp [ih h2]

theorem gathers_keys {α β : Type} [DecidableEq α] {ys m : List (α × β)} (h : Gathers ys m) (k : α) : k ∈ m.map Prod.fst ↔ k ∈ ys.map Prod.fst := by
  rw [h.1, List.mem_eraseDups]

theorem mapSet_fresh {m : List (Bytes × AV)} {k : Bytes} (x : AV) (h : k ∉ m.map Prod.fst) : mapSet k x m = m ++ [(k, x)] := by
  induction m with
  | nil => rfl
  | cons e m ih =>
    obtain ⟨k', x'⟩ := e
    simp only [List.map_cons, List.mem_cons, not_or] at h
    rw [mapSet, if_neg fun e => h.1 e.symm, ih h.2, List.cons_append]

theorem gathers_snoc {ys m : List (Bytes × AV)} {k : Bytes} {x : AV} (h : k ∉ ys.map Prod.fst) : Gathers (ys ++ [(k, x)]) m ↔ ∃ m', Gathers ys m' ∧ m = m' ++ [(k, x)] := by
  have e : stores (ys ++ [(k, x)]) [] = stores ys [] ++ [(k, x)] := by
    have : stores (ys ++ [(k, x)]) [] = mapSet k x (stores ys []) := by simp [stores]
    rw [this, mapSet_fresh x]
    rw [gathers_keys (stores_gathers ys).1]
    exact h
  rw [gathers_iff, e]
  exact ⟨fun h => ⟨_, (gathers_iff ..).2 rfl, h⟩, fun ⟨m', h1, h2⟩ => by rw [h2, (gathers_iff ..).1 h1]⟩

theorem gives_struct {n : Bytes} (hn : Spelled n n false false false) {fs : List AbiField} (h0 : fs ≠ []) (hf : FieldsOf a n fs) {s : Bytes} {v : AV} {r : Bytes} :
    Gives a fin n s v r ↔ ∃ xs m, GivesMembers a fin fs s xs r ∧ Gathers xs m ∧ v = .map m := by
  obtain ⟨d, hd⟩ := fieldsOf_struct hf
  obtain ⟨g, gs, rfl⟩ := List.exists_cons_of_ne_nil h0
  constructor
  · rintro (h1 | ⟨h1, _, _⟩ | ⟨h1, h2⟩)
    · exact absurd (spelled_unique hn h1).2.2.2 (by decide)
    · exact absurd (spelled_unique hn h1).2.2.2 (by decide)
    · obtain ⟨rfl, rfl, rfl, -⟩ := spelled_unique hn h1
      cases h2 with
      | one h2 =>
        cases h2 with
        | «alias» h1 _ => exact (noStruct_isStruct h1.1.1 hd).elim
        | struct h1 h2 h3 => rw [fieldsOf_unique hf h1]; exact ⟨_, _, h2, h3, rfl⟩
        | variant h1 _ _ _ => exact (noStruct_isStruct h1.1 hd).elim
        | builtin h1 _ => exact (noStruct_isStruct h1.1.1 hd).elim
        | hollow _ h2 _ => exact absurd (h2 _ hf) (by simp)
  · rintro ⟨xs, m, h1, h2, rfl⟩
    exact .plain hn (.one (.struct hf h1 h2))

theorem wire_struct {B : Bytes → AV → Bytes → Prop} {n : Bytes} (hn : Spelled n n false false false) {fs : List AbiField} (h0 : fs ≠ []) (hf : FieldsOf a n fs) {v : AV} {bs : Bytes} :
    Wire a B false n v bs ↔ ∃ m, Members a B false fs m bs ∧ v = .map m := by
  obtain ⟨d, hd⟩ := fieldsOf_struct hf
  obtain ⟨g, gs, rfl⟩ := List.exists_cons_of_ne_nil h0
  constructor
  · rintro (h1 | ⟨h1, _, _⟩ | ⟨h1, _, h2⟩)
    · exact absurd (spelled_unique hn h1).2.2.2 (by decide)
    · exact absurd (spelled_unique hn h1).2.2.2 (by decide)
    · obtain ⟨rfl, rfl, rfl, -⟩ := spelled_unique hn h1
      cases h2 with
      | one h2 =>
        cases h2 with
        | «alias» h1 _ => exact (noStruct_isStruct h1.1.1 hd).elim
        | struct h1 h2 h3 => rw [fieldsOf_unique hf h1]; exact ⟨_, h2, rfl⟩
        | variant h1 _ _ _ _ => exact (noStruct_isStruct h1.1 hd).elim
        | builtin h1 _ => exact (noStruct_isStruct h1.1.1 hd).elim
        | hollow _ h2 _ => exact absurd (h2 _ hf) (by simp)
  · rintro ⟨m, h1, rfl⟩
    exact .plain hn (by simp) (.one (.struct hf h1 fun h => nomatch h))
end

theorem real_entry {m : List (Bytes × AV)} (h : realEntries m) {k : Bytes} {x : AV} (hx : Entry m k x) : x.Real := by
  rcases hx with hx | ⟨-, rfl⟩
  · have hm := mem_of_first hx
    clear hx
    induction m with
    | nil => cases hm
    | cons e m ih =>
      unfold realEntries at h
      rcases List.mem_cons.1 hm with rfl | hm
      · exact h.1
      · exact ih h.2 hm
  · simp [AV.Real]

end Verif
