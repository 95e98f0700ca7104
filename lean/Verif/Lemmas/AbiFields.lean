import Verif.Props.AbiResolve
/-! # allFields -/
namespace Verif

/-- A table that agrees with the ABI and is closed under references. -/
def Ready (a : Abi) (ts : Types) : Prop := ∀ m t, ts.get m = some t → Describes a m t ∧ ∀ k ∈ t.refs, ∃ u, ts.get k = some u

theorem resolve_ready {a : Abi} {n : Bytes} {ts : Types} (h : resolve a n = .val ts) : Ready a ts ∧ ∃ t, ts.get n = some t := by
  obtain ⟨h1, h2⟩ := C46_describes a n ts h
  refine ⟨fun m t hm => ⟨h2 m t hm, fun k hk => (h1 k).2 ?_⟩, (h1 n).2 .refl⟩
  exact .step ((h1 m).1 ⟨t, hm⟩) ((refs_iff a m k t ((describe_some a m t).2 (h2 m t hm))).1 hk)

theorem isStruct_unique {a : Abi} {b : Bytes} {s s' : AbiStruct} (h : IsStruct a b s) (h' : IsStruct a b s') : s = s' :=
  Option.some.inj (((getStruct_iff a b s).2 h).symm.trans ((getStruct_iff a b s').2 h'))

theorem spelled_unique {n b b' : Bytes} {arr ext opt arr' ext' opt' : Bool} (h : Spelled n b arr ext opt) (h' : Spelled n b' arr' ext' opt') :
    b = b' ∧ arr = arr' ∧ ext = ext' ∧ opt = opt' := by
  have := ((parse_spelled ..).2 h).symm.trans ((parse_spelled ..).2 h')
  cases this
  exact ⟨rfl, rfl, rfl, rfl⟩

/-- `FieldsOf` with the length of the chain. -/
inductive Chain (a : Abi) : Bytes → Nat → List AbiField → Prop
  | root {b : Bytes} {s : AbiStruct} : IsStruct a b s → s.base = [] → Chain a b 0 s.fields
  | derived {b b' : Bytes} {s : AbiStruct} {arr ext opt : Bool} {d : Nat} {fs : List AbiField} : IsStruct a b s → s.base ≠ [] → Spelled s.base b' arr ext opt →
    Chain a b' d fs → Chain a b (d + 1) (fs ++ s.fields)

theorem fieldsOf_chain {a : Abi} {b : Bytes} {fs : List AbiField} (h : FieldsOf a b fs) : ∃ d, Chain a b d fs := by
  induction h with
  | root h1 h2 => exact ⟨0, .root h1 h2⟩
  | derived h1 h2 h3 _ ih =>
    obtain ⟨d, ih⟩ := ih
    exact ⟨d + 1, .derived h1 h2 h3 ih⟩

theorem chain_unique {a : Abi} {b : Bytes} {d d' : Nat} {fs fs' : List AbiField} (h : Chain a b d fs) (h' : Chain a b d' fs') : d = d' ∧ fs = fs' := by
  induction h generalizing d' fs' with
  | root h1 h2 =>
    cases h' with
    | root g1 g2 => rw [isStruct_unique h1 g1]; exact ⟨rfl, rfl⟩
    | derived g1 g2 g3 g4 => rw [isStruct_unique h1 g1] at h2; exact absurd h2 g2
  | derived h1 h2 h3 h4 ih =>
    cases h' with
    | root g1 g2 => rw [isStruct_unique h1 g1] at h2; exact absurd g2 h2
    | derived g1 g2 g3 g4 =>
      cases isStruct_unique h1 g1
      cases (spelled_unique h3 g3).1
      obtain ⟨rfl, rfl⟩ := ih g4
      exact ⟨rfl, rfl⟩

theorem fieldsOf_unique {a : Abi} {b : Bytes} {fs fs' : List AbiField} (h : FieldsOf a b fs) (h' : FieldsOf a b fs') : fs = fs' := by
  obtain ⟨_, h⟩ := fieldsOf_chain h
  obtain ⟨_, h'⟩ := fieldsOf_chain h'
  exact (chain_unique h h').2

def fieldPairs (fs : List AbiField) : List (Bytes × Bytes) := fs.map fun f => (f.name, f.type)

theorem noStruct_isStruct {a : Abi} {b : Bytes} {s : AbiStruct} (h : NoStruct a b) (h' : IsStruct a b s) : False := h s (mem_of_first h') h'.1

theorem describes_struct {a : Abi} {n : Bytes} {t : Resolved} {s : AbiStruct} (h : Describes a n t) (hs : IsStruct a t.baseName s) :
    t.fields = some (fieldPairs s.fields) ∧ t.base = (if s.base = [] then none else some s.base) ∧ t.variant = none ∧ t.ref = none := by
  obtain ⟨_, _, h⟩ := h
  rcases h with ⟨s', h1, h2⟩ | ⟨v, h1, _⟩ | ⟨v, h1, _⟩ | ⟨h1, _⟩
  · rw [isStruct_unique hs h1]; exact h2
  · exact (noStruct_isStruct h1.1 hs).elim
  · exact (noStruct_isStruct h1.1.1 hs).elim
  · exact (noStruct_isStruct h1.1.1 hs).elim

theorem describes_fields {a : Abi} {n : Bytes} {t : Resolved} {fs : List (Bytes × Bytes)} (h : Describes a n t) (hf : t.fields = some fs) :
    ∃ s, IsStruct a t.baseName s ∧ fs = fieldPairs s.fields ∧ t.base = (if s.base = [] then none else some s.base) := by
  obtain ⟨_, _, h⟩ := h
  rcases h with ⟨s', h1, h2, h3, _⟩ | ⟨v, h1, h2, _⟩ | ⟨v, h1, h2, _⟩ | ⟨h1, h2, _⟩
  · rw [hf] at h2; cases h2; exact ⟨s', h1, rfl, h3⟩
  all_goals rw [hf] at h2; cases h2

/-- What the loop returns is nothing or the fields of the whole chain. -/
theorem loop_sound {a : Abi} {ts : Types} (hr : Ready a ts) : ∀ fuel seen cur rv n, ts.get n = some cur →
    allFieldsLoop ts fuel seen cur rv = [] ∨ ∃ fs, FieldsOf a cur.baseName fs ∧ allFieldsLoop ts fuel seen cur rv = fieldPairs fs ++ rv := by
  intro fuel
  induction fuel with
  | zero => intro _ _ _ _ _; exact .inl rfl
  | succ fuel ih =>
    intro seen cur rv n hn
    unfold allFieldsLoop
    cases hf : cur.fields with
    | none => exact .inl rfl
    | some fs =>
      obtain ⟨s, h1, h2, h3⟩ := describes_fields (hr n cur hn).1 hf
      simp only
      by_cases hm : cur.name ∈ seen
      · rw [if_pos hm]; exact .inl rfl
      · rw [if_neg hm]
        by_cases hb : s.base = []
        · rw [if_pos hb] at h3
          rw [h3]
          exact .inr ⟨_, .root h1 hb, by rw [h2]⟩
        · rw [if_neg hb] at h3
          rw [h3]
          simp only
          cases hg : ts.get s.base with
          | none => exact .inl rfl
          | some base =>
            rcases ih (cur.name :: seen) base (fs ++ rv) s.base hg with h | ⟨fs', g1, g2⟩
            · exact .inl h
            · refine .inr ⟨fs' ++ s.fields, .derived h1 hb (hr _ _ hg).1.2.1 g1, ?_⟩
              exact g2.trans (by rw [h2]; simp [fieldPairs])

/-- The number of entries with a key not in `seen` -/
def fresh : Types → (seen : List Bytes) → Nat
  | [], _ => 0
  | e :: ts, seen => (if e.1 ∈ seen then 0 else 1) + fresh ts seen

theorem fresh_le (ts : Types) (seen : List Bytes) : fresh ts seen ≤ ts.length := by
  induction ts with
  | nil => exact Nat.le_refl _
  | cons e ts ih => unfold fresh; split <;> simp <;> omega

theorem fresh_mono (ts : Types) (seen : List Bytes) (n : Bytes) : fresh ts (n :: seen) ≤ fresh ts seen := by
  induction ts with
  | nil => exact Nat.le_refl _
  | cons e ts ih =>
    unfold fresh
    by_cases h : e.1 ∈ seen
    · rw [if_pos h, if_pos (List.mem_cons_of_mem _ h)]; omega
    · rw [if_neg h]; split <;> omega

theorem fresh_cons (ts : Types) (seen : List Bytes) (n : Bytes) (t : Resolved) (h : ts.get n = some t) (hn : n ∉ seen) : fresh ts (n :: seen) < fresh ts seen := by
  induction ts with
  | nil => cases h
  | cons e ts ih =>
    obtain ⟨k, u⟩ := e
    rw [get_cons] at h
    unfold fresh
    by_cases h1 : k = n
    · subst h1
      rw [if_pos (by simp), if_neg hn]
      have := fresh_mono ts seen k
      omega
    · rw [if_neg h1] at h
      have := ih h
      by_cases h2 : k ∈ seen
      · rw [if_pos (List.mem_cons_of_mem _ h2), if_pos h2]; omega
      · rw [if_neg (by simp [h1, h2]), if_neg h2]; omega

theorem loop_complete {a : Abi} {ts : Types} (hr : Ready a ts) {b : Bytes} {d : Nat} {fs : List AbiField} (hc : Chain a b d fs) :
    ∀ fuel seen cur rv n, ts.get n = some cur → cur.baseName = b → fresh ts seen < fuel →
      (∀ m ∈ seen, ∃ b' d' fs' arr ext opt, Spelled m b' arr ext opt ∧ Chain a b' d' fs' ∧ d < d') →
      allFieldsLoop ts fuel seen cur rv = fieldPairs fs ++ rv := by
  induction hc with
  | root h1 h2 =>
    intro fuel seen cur rv n hn hb hf hs
    subst hb
    obtain ⟨e1, e2, _⟩ := describes_struct (hr n cur hn).1 h1
    obtain ⟨fuel, rfl⟩ := Nat.exists_eq_add_one_of_ne_zero (show fuel ≠ 0 by omega)
    unfold allFieldsLoop
    rw [if_pos h2] at e2
    rw [e1]
    simp only
    rw [if_neg, e2]
    intro hm
    obtain ⟨b', d', fs', _, _, _, g1, g2, g3⟩ := hs _ hm
    have hd := (hr n cur hn).1
    rw [hd.1] at g1
    cases (spelled_unique hd.2.1 g1).1
    have := (chain_unique (Chain.root h1 h2) g2).1
    omega
  | @derived b b' s arr ext opt d fs h1 h2 h3 h4 ih =>
    intro fuel seen cur rv n hn hb hf hs
    subst hb
    have hd := (hr n cur hn).1
    obtain ⟨e1, e2, _⟩ := describes_struct hd h1
    obtain ⟨fuel, rfl⟩ := Nat.exists_eq_add_one_of_ne_zero (show fuel ≠ 0 by omega)
    unfold allFieldsLoop
    rw [if_neg h2] at e2
    rw [e1]
    simp only
    have hm : cur.name ∉ seen := by
      intro hm
      obtain ⟨b', d', fs', _, _, _, g1, g2, g3⟩ := hs _ hm
      rw [hd.1] at g1
      cases (spelled_unique hd.2.1 g1).1
      have := (chain_unique (Chain.derived h1 h2 h3 h4) g2).1
      omega
    rw [if_neg hm, e2]
    simp only
    obtain ⟨base, hg⟩ := (hr n cur hn).2 s.base (by unfold Resolved.refs; rw [e2]; simp)
    rw [hg]
    have hdb := (hr _ _ hg).1
    have hnn := hd.1
    refine (ih fuel (cur.name :: seen) base (fieldPairs s.fields ++ rv) s.base hg (spelled_unique hdb.2.1 h3).1 ?_ ?_).trans ?_
    · have := fresh_cons ts seen cur.name cur (by rw [hnn]; exact hn) hm
      omega
    · intro m hm
      rcases List.mem_cons.1 hm with rfl | hm
      · exact ⟨_, _, _, _, _, _, by rw [hnn]; exact hd.2.1, .derived h1 h2 h3 h4, by omega⟩
      · obtain ⟨b', d', fs', a1, a2, a3, g1, g2, g3⟩ := hs _ hm
        exact ⟨b', d', fs', a1, a2, a3, g1, g2, by omega⟩
    · simp [fieldPairs]

theorem allFields_some {a : Abi} {ts : Types} (hr : Ready a ts) {n : Bytes} {t : Resolved} (hn : ts.get n = some t) {fs : List AbiField} (hf : FieldsOf a t.baseName fs) :
    t.allFields ts = fieldPairs fs := by
  obtain ⟨d, hc⟩ := fieldsOf_chain hf
  unfold Resolved.allFields
  rw [loop_complete hr hc _ [] t [] n hn rfl _ (by simp), List.append_nil]
  have := fresh_le ts []
  omega

theorem allFields_none {a : Abi} {ts : Types} (hr : Ready a ts) {n : Bytes} {t : Resolved} (hn : ts.get n = some t) (hf : ∀ fs, ¬ FieldsOf a t.baseName fs) :
    t.allFields ts = [] := by
  rcases loop_sound hr (ts.length + 1) [] t [] n hn with h | ⟨fs, h, _⟩
  · exact h
  · exact absurd h (hf fs)

/-- The fields of a type without FieldsOf are empty; `t.allFields` is decided by the specification. -/
theorem allFields_cases {a : Abi} {ts : Types} (hr : Ready a ts) {n : Bytes} {t : Resolved} (hn : ts.get n = some t) :
    (∃ f fs, FieldsOf a t.baseName (f :: fs) ∧ t.allFields ts = fieldPairs (f :: fs)) ∨ ((∀ fs, FieldsOf a t.baseName fs → fs = []) ∧ t.allFields ts = []) := by
  by_cases h : ∃ fs, FieldsOf a t.baseName fs
  · obtain ⟨fs, h⟩ := h
    have := allFields_some hr hn h
    cases fs with
    | nil => exact .inr ⟨fun fs' h' => fieldsOf_unique h' h, this⟩
    | cons f fs => exact .inl ⟨f, fs, h, this⟩
  · exact .inr ⟨fun fs h' => absurd ⟨fs, h'⟩ h, allFields_none hr hn fun fs h' => h ⟨fs, h'⟩⟩

/-- More fuel than types does not change allFields. -/
theorem loop_fuel (ts : Types) : ∀ fuel seen cur rv n, ts.get n = some cur → cur.name = n → (∀ m t, ts.get m = some t → t.name = m) → fresh ts seen < fuel → ∀ k,
    allFieldsLoop ts (fuel + k) seen cur rv = allFieldsLoop ts fuel seen cur rv := by
  intro fuel
  induction fuel with
  | zero => intro _ _ _ _ _ _ _ h; omega
  | succ fuel ih =>
    intro seen cur rv n hn hc hN hf k
    rw [show fuel + 1 + k = (fuel + k) + 1 by omega]
    unfold allFieldsLoop
    cases cur.fields with
    | none => rfl
    | some fs =>
      simp only
      by_cases hm : cur.name ∈ seen
      · rw [if_pos hm, if_pos hm]
      · rw [if_neg hm, if_neg hm]
        cases cur.base with
        | none => rfl
        | some b =>
          simp only
          cases hg : ts.get b with
          | none => rfl
          | some base =>
            have := fresh_cons ts seen cur.name cur (by rw [hc]; exact hn) hm
            exact ih _ base _ b hg (hN b base hg) hN (by omega) k

end Verif
