import Verif.Lemmas.AbiFields
import Verif.Spec.AbiWire
import Verif.Lemmas.Reflect
/-! # Encode and Decode against the wire form -/
namespace Verif

theorem isAlias_unique {a : Abi} {b : Bytes} {t t' : AbiType} (h : IsAlias a b t) (h' : IsAlias a b t') : t = t' :=
  Option.some.inj (((find_decide a.types (fun t : AbiType => t.newTypeName = b) t).2 h.2).symm.trans ((find_decide a.types (fun t : AbiType => t.newTypeName = b) t').2 h'.2))
theorem isVariant_unique {a : Abi} {b : Bytes} {t t' : AbiVariant} (h : IsVariant a b t) (h' : IsVariant a b t') : t = t' :=
  Option.some.inj (((find_decide a.variants (fun t : AbiVariant => t.name = b) t).2 h.2).symm.trans ((find_decide a.variants (fun t : AbiVariant => t.name = b) t').2 h'.2))

theorem fieldsOf_struct {a : Abi} {b : Bytes} {fs : List AbiField} (h : FieldsOf a b fs) : ∃ s, IsStruct a b s := by
  cases h with
  | root h _ => exact ⟨_, h⟩
  | derived h _ _ _ => exact ⟨_, h⟩

/-! ### What the table says about a type -/

section
variable {a : Abi} {ts : Types} (hr : Ready a ts) {n : Bytes} {t : Resolved} (hn : ts.get n = some t)
include hr hn

theorem table_alias {ty : AbiType} (h : IsAlias a t.baseName ty) : t.ref = some ty.type ∧ ∃ u, ts.get ty.type = some u := by
  obtain ⟨⟨_, _, hd⟩, hk⟩ := hr n t hn
  have : t.ref = some ty.type := by
    rcases hd with ⟨s', h1, _⟩ | ⟨v, h1, _⟩ | ⟨v, h1, _, _, _, h5⟩ | ⟨h1, _⟩
    · exact (noStruct_isStruct h.1.1 h1).elim
    · exact absurd h1.2.1 (h.1.2 v (mem_of_first h1.2))
    · rw [isAlias_unique h h1]; exact h5
    · exact absurd h.2.1 (h1.2 ty (mem_of_first h.2))
  exact ⟨this, hk _ (by unfold Resolved.refs; rw [this]; simp)⟩

theorem table_variant {v : AbiVariant} (h : IsVariant a t.baseName v) :
    t.ref = none ∧ t.allFields ts = [] ∧ t.variant = some v.types ∧ ∀ k ∈ v.types, ∃ u, ts.get k = some u := by
  obtain ⟨⟨_, _, hd⟩, hk⟩ := hr n t hn
  have : t.variant = some v.types ∧ t.ref = none := by
    rcases hd with ⟨s', h1, _⟩ | ⟨v, h1, _, _, h4, h5⟩ | ⟨v', h1, _⟩ | ⟨h1, _⟩
    · exact (noStruct_isStruct h.1 h1).elim
    · rw [isVariant_unique h h1]; exact ⟨h4, h5⟩
    · exact absurd h.2.1 (h1.1.2 v (mem_of_first h.2))
    · exact absurd h.2.1 (h1.1.2 v (mem_of_first h.2))
  refine ⟨this.2, allFields_none hr hn fun fs hf => ?_, this.1, fun k hk' => hk _ (by unfold Resolved.refs; rw [this.1]; simp [hk'])⟩
  obtain ⟨s, hs⟩ := fieldsOf_struct hf
  exact noStruct_isStruct h.1 hs

theorem table_notDefined (h : NotDefined a t.baseName) : t.ref = none ∧ t.allFields ts = [] ∧ t.variant = none := by
  obtain ⟨⟨_, _, hd⟩, _⟩ := hr n t hn
  have : t.variant = none ∧ t.ref = none := by
    rcases hd with ⟨s', h1, _⟩ | ⟨v, h1, _⟩ | ⟨v, h1, _⟩ | ⟨_, _, _, h4, h5⟩
    · exact (noStruct_isStruct h.1.1 h1).elim
    · exact absurd h1.2.1 (h.1.2 v (mem_of_first h1.2))
    · exact absurd h1.2.1 (h.2 v (mem_of_first h1.2))
    · exact ⟨h4, h5⟩
  refine ⟨this.2, allFields_none hr hn fun fs hf => ?_, this.1⟩
  obtain ⟨s, hs⟩ := fieldsOf_struct hf
  exact noStruct_isStruct h.1.1 hs

theorem table_hollow {s : AbiStruct} (h : IsStruct a t.baseName s) (h' : ∀ fs, FieldsOf a t.baseName fs → fs = []) :
    t.ref = none ∧ t.allFields ts = [] ∧ t.variant = none := by
  obtain ⟨_, _, h3, h4⟩ := describes_struct (hr n t hn).1 h
  refine ⟨h4, ?_, h3⟩
  rcases allFields_cases hr hn with ⟨f, fs, h, _⟩ | ⟨_, h⟩
  · cases h' _ h
  · exact h

omit hn in
theorem fields_known {b : Bytes} {fs : List AbiField} (h : FieldsOf a b fs) : ∀ n t, ts.get n = some t → t.baseName = b → ∀ f ∈ fs, ∃ u, ts.get f.type = some u := by
  induction h with
  | root h1 h2 =>
    intro n t hn hb f hf
    subst hb
    refine (hr n t hn).2 _ ?_
    unfold Resolved.refs
    rw [(describes_struct (hr n t hn).1 h1).1]
    simp only [List.mem_append, Option.getD_some, List.mem_map]
    exact .inl (.inl (.inr ⟨(f.name, f.type), List.mem_map.2 ⟨f, hf, rfl⟩, rfl⟩))
  | @derived b b' s arr ext opt fs h1 h2 h3 h4 ih =>
    intro n t hn hb f hf
    subst hb
    obtain ⟨e1, e2, _⟩ := describes_struct (hr n t hn).1 h1
    rw [if_neg h2] at e2
    rcases List.mem_append.1 hf with hf | hf
    · obtain ⟨u, hu⟩ := (hr n t hn).2 s.base (by unfold Resolved.refs; rw [e2]; simp)
      exact ih s.base u hu (spelled_unique (hr _ _ hu).1.2.1 h3).1 f hf
    · refine (hr n t hn).2 _ ?_
      unfold Resolved.refs
      rw [e1]
      simp only [List.mem_append, Option.getD_some, List.mem_map]
      exact .inl (.inl (.inr ⟨(f.name, f.type), List.mem_map.2 ⟨f, hf, rfl⟩, rfl⟩))

theorem table_struct {fs : List AbiField} (h : FieldsOf a t.baseName fs) :
    t.ref = none ∧ t.allFields ts = fieldPairs fs ∧ ∀ f ∈ fs, ∃ u, ts.get f.type = some u := by
  obtain ⟨s, hs⟩ := fieldsOf_struct h
  exact ⟨(describes_struct (hr n t hn).1 hs).2.2.2, allFields_some hr hn h, fields_known hr h n t hn rfl⟩

theorem table_cases :
    (∃ ty, IsAlias a t.baseName ty) ∨ (∃ f fs, FieldsOf a t.baseName (f :: fs)) ∨ (∃ v, IsVariant a t.baseName v) ∨ NotDefined a t.baseName ∨
    (∃ s, IsStruct a t.baseName s ∧ ∀ fs, FieldsOf a t.baseName fs → fs = []) := by
  obtain ⟨_, _, hd⟩ := (hr n t hn).1
  rcases hd with ⟨s, h1, _⟩ | ⟨v, h1, _⟩ | ⟨v, h1, _⟩ | ⟨h1, _⟩
  · rcases allFields_cases hr hn with ⟨f, fs, h, _⟩ | ⟨h, _⟩
    · exact .inr (.inl ⟨f, fs, h⟩)
    · exact .inr (.inr (.inr (.inr ⟨s, h1, h⟩)))
  · exact .inr (.inr (.inl ⟨v, h1⟩))
  · exact .inl ⟨v, h1⟩
  · exact .inr (.inr (.inr (.inl h1)))
end

/-! ### Encoding -/

theorem entry_mapGet (m : List (Bytes × AV)) (k : Bytes) (v : AV) : Entry m k v ↔ mapGet m k = v := by
  unfold Entry mapGet
  cases h : m.find? fun e => e.1 = k with
  | none =>
    have h' := (find_decide_none m (fun e : Bytes × AV => e.1 = k)).1 h
    constructor
    · rintro (h1 | h1)
      · exact absurd h1.1 (h' _ (mem_of_first h1))
      · exact h1.2.symm
    · intro h1
      exact .inr ⟨h', h1.symm⟩
  | some e =>
    have h' := (find_decide m (fun e : Bytes × AV => e.1 = k) e).1 h
    constructor
    · rintro (h1 | h1)
      · have := (find_decide m (fun e : Bytes × AV => e.1 = k) _).2 h1
        rw [h] at this
        cases this
        rfl
      · exact absurd h'.1 (h1.1 _ (mem_of_first h'))
    · intro h1
      obtain ⟨k', x⟩ := e
      cases h1
      cases h'.1
      exact .inl h'

/-- Writes with all large enough depths -/
def WritesEv (p : Nat → Enc (Option Err)) (bs : Bytes) : Prop := ∃ N, ∀ fuel, N ≤ fuel → (p fuel).Writes bs

theorem WritesEv.const {p : Enc (Option Err)} {bs : Bytes} (h : p.Writes bs) : WritesEv (fun _ => p) bs := ⟨0, fun _ _ => h⟩

theorem WritesEv.bind {p q : Nat → Enc (Option Err)} {b1 b2 : Bytes} (h1 : WritesEv p b1) (h2 : WritesEv q b2) :
    WritesEv (fun fuel => (p fuel).bind fun e => match e with | some e => pure (some e) | none => q fuel) (b1 ++ b2) := by
  obtain ⟨N, h1⟩ := h1
  obtain ⟨M, h2⟩ := h2
  exact ⟨N + M, fun fuel hf => Enc.Writes.bind (h1 fuel (by omega)) (h2 fuel (by omega))⟩

theorem WritesEv.congr {p q : Nat → Enc (Option Err)} {bs : Bytes} (h : WritesEv p bs) (e : ∀ fuel, q fuel = p fuel) : WritesEv q bs := by
  obtain ⟨N, h⟩ := h
  exact ⟨N, fun fuel hf => by rw [e]; exact h fuel hf⟩

theorem isNil_false {v : AV} (h : v ≠ .nil) : v.isNil = false := by cases v <;> first | rfl | exact absurd rfl h
theorem isNil_true {v : AV} (h : v.isNil = true) : v = .nil := by cases v <;> first | rfl | cases h

theorem count_writes {p : Bytes} {n : Nat} (h : Count p n) : (writeVaruint n.toUInt64).Writes p := by
  rw [minLeb_unique _ _ _ h.1 (varuintBytes_minLeb n h.2)]
  exact writeVaruint_writes n h.2

theorem findVariant_split (t : Bytes) (post : List Bytes) : ∀ (pre : List Bytes) (i : Nat), t ∉ pre → findVariant t i (pre ++ t :: post) = some (i + pre.length, t) := by
  intro pre
  induction pre with
  | nil => intro i _; simp [findVariant]
  | cons u pre ih =>
    intro i h
    have h1 : u ≠ t := fun e => h (by simp [e])
    show (if u = t then some (i, u) else findVariant t (i + 1) (pre ++ t :: post)) = _
    rw [if_neg h1, ih (i + 1) (fun hm => h (by simp [hm]))]
    simp; omega

theorem findVariant_some {vn t : Bytes} {j : Nat} : ∀ (types : List Bytes) (i : Nat), findVariant vn i types = some (j, t) →
    t = vn ∧ ∃ pre post, types = pre ++ vn :: post ∧ vn ∉ pre ∧ j = i + pre.length := by
  intro types
  induction types with
  | nil => intro i h; cases h
  | cons u us ih =>
    intro i h
    change (if u = vn then _ else _) = _ at h
    by_cases hu : u = vn
    · rw [if_pos hu] at h
      cases h
      subst hu
      exact ⟨rfl, [], us, rfl, by simp, by simp⟩
    · rw [if_neg hu] at h
      obtain ⟨h1, pre, post, h2, h3, h4⟩ := ih _ h
      exact ⟨h1, u :: pre, post, by rw [h2]; rfl, by simp [h3]; exact fun e => hu e.symm, by simp; omega⟩

section
variable {a : Abi} {ts : Types} (hr : Ready a ts) {B : Bytes → AV → Bytes → Prop} {exact : Bool}
  (hB : ∀ b v bs, B b v bs → (encodeBuiltin b v).Writes bs)
include hr hB

mutual
theorem wire_encode {n : Bytes} {v : AV} {bs : Bytes} (h : Wire a B exact n v bs) (t : Resolved) (hn : ts.get n = some t) : WritesEv (fun fuel => encodeTypeF ts fuel n v) bs := by
  match h with
  | .absent hs =>
    have ho := (spelled_unique hs (hr n t hn).1.2.1).2.2.2
    refine ⟨1, fun fuel hf => ?_⟩
    obtain ⟨fuel, rfl⟩ := Nat.exists_eq_add_one_of_ne_zero (show fuel ≠ 0 by omega)
    unfold encodeTypeF
    simp only [hn, ← ho, if_true]
    exact Enc.Writes.bind (b1 := [0]) (b2 := []) (writeBool_writes false) Enc.Writes.pure
  | .present (v := v) hs hv hb =>
    obtain ⟨h1, h2, _, ho⟩ := spelled_unique hs (hr n t hn).1.2.1
    obtain ⟨N, ih⟩ := body_encode hb n t hn h1 h2
    refine ⟨N + 1, fun fuel hf => ?_⟩
    obtain ⟨fuel, rfl⟩ := Nat.exists_eq_add_one_of_ne_zero (show fuel ≠ 0 by omega)
    unfold encodeTypeF
    simp only [hn, ← ho, if_true, isNil_false hv, Bool.not_false]
    exact Enc.Writes.bind (b1 := [1]) (writeBool_writes true) (ih fuel (by omega))
  | .plain (v := v) hs hv hb =>
    obtain ⟨h1, h2, _, ho⟩ := spelled_unique hs (hr n t hn).1.2.1
    obtain ⟨N, ih⟩ := body_encode hb n t hn h1 h2
    refine ⟨N + 1, fun fuel hf => ?_⟩
    obtain ⟨fuel, rfl⟩ := Nat.exists_eq_add_one_of_ne_zero (show fuel ≠ 0 by omega)
    unfold encodeTypeF
    simp only [hn, ← ho, Bool.false_eq_true, if_false, isNil_false hv]
    exact ih fuel (by omega)
theorem body_encode {b : Bytes} {arr : Bool} {v : AV} {bs : Bytes} (h : Body a B exact b arr v bs) (n : Bytes) (t : Resolved) (hn : ts.get n = some t) (hb : b = t.baseName)
    (ha : arr = t.isArray) : WritesEv (fun fuel => encodeBody ts (encodeTypeF ts fuel) t v) bs := by
  match h with
  | .one hi =>
    refine (inner_encode hi n t hn hb).congr fun fuel => ?_
    unfold encodeBody
    rw [← ha]
    rfl
  | .many (xs := xs) hc hi =>
    refine ((WritesEv.const (count_writes hc)).bind (items_encode hi n t hn hb)).congr fun fuel => ?_
    unfold encodeBody
    rw [← ha]
    rfl
theorem items_encode {b : Bytes} {xs : List AV} {bs : Bytes} (h : Items a B exact b xs bs) (n : Bytes) (t : Resolved) (hn : ts.get n = some t) (hb : b = t.baseName) :
    WritesEv (fun fuel => encEach (encodeInner ts (encodeTypeF ts fuel) t) (pure none) xs) bs := by
  match h with
  | .nil => exact .const .pure
  | .cons hx hxs => exact (inner_encode hx n t hn hb).bind (items_encode hxs n t hn hb)
theorem inner_encode {b : Bytes} {v : AV} {bs : Bytes} (h : Inner a B exact b v bs) (n : Bytes) (t : Resolved) (hn : ts.get n = some t) (hb : b = t.baseName) :
    WritesEv (fun fuel => encodeInner ts (encodeTypeF ts fuel) t v) bs := by
  match h with
  | .alias hi hw =>
    have ih := wire_encode hw
    subst hb
    obtain ⟨h1, u, hu⟩ := table_alias hr hn hi
    refine (ih u hu).congr fun fuel => ?_
    unfold encodeInner
    rw [h1]
  | .struct (m := m) (f := f) (fs := fs) hf hm _ =>
    have ih := members_encode hm
    subst hb
    obtain ⟨h1, h2, h3⟩ := table_struct hr hn hf
    refine (ih h3).congr fun fuel => ?_
    unfold encodeInner
    rw [h1, h2]
    simp only
    rw [if_pos (by simp [fieldPairs])]
  | .variant (v := v) (x := x) (pre := pre) (t := k) hi hv ht hc hw =>
    have ih := wire_encode hw
    subst hb
    obtain ⟨h1, h2, h3, h4⟩ := table_variant hr hn hi
    obtain ⟨u, hu⟩ := h4 k (by rw [hv]; simp)
    refine ((WritesEv.const (count_writes hc)).bind (ih u hu)).congr fun fuel => ?_
    unfold encodeInner
    rw [h1, h2, h3, hv]
    simp only [ne_eq, not_true_eq_false, if_false]
    show (match findVariant k 0 _ with | none => _ | some (i, tv) => _) = _
    rw [findVariant_split _ _ _ _ ht, Nat.zero_add]
    rfl
  | .builtin hd hb' =>
    subst hb
    obtain ⟨h1, h2, h3⟩ := table_notDefined hr hn hd
    refine (WritesEv.const (hB _ _ _ hb')).congr fun fuel => ?_
    unfold encodeInner
    rw [h1, h2, h3]
    rfl
  | .hollow hs hf hb' =>
    subst hb
    obtain ⟨h1, h2, h3⟩ := table_hollow hr hn hs hf
    refine (WritesEv.const (hB _ _ _ hb')).congr fun fuel => ?_
    unfold encodeInner
    rw [h1, h2, h3]
    rfl
theorem members_encode {fs : List AbiField} {m : List (Bytes × AV)} {bs : Bytes} (h : Members a B exact fs m bs) (hk : ∀ f ∈ fs, ∃ u, ts.get f.type = some u) :
    WritesEv (fun fuel => encEach (fun f : Bytes × Bytes => encodeTypeF ts fuel f.2 (mapGet m f.1)) (pure none) (fieldPairs fs)) bs := by
  match h with
  | .nil => exact .const .pure
  | .cons (f := f) he hw hm =>
    obtain ⟨u, hu⟩ := hk f (by simp)
    have h1 := wire_encode hw u hu
    rw [← (entry_mapGet _ _ _).1 he] at h1
    exact h1.bind (members_encode hm fun g hg => hk g (by simp [hg]))
end
end

/-! ### What Encode accepts -/

theorem writes_inv {p q : Enc (Option Err)} {bs : Bytes} (h : (p.bind fun e => match e with | some e => pure (some e) | none => q).Writes bs) :
    ∃ b1 b2, p.Writes b1 ∧ q.Writes b2 ∧ bs = b1 ++ b2 := by
  unfold Enc.Writes at h ⊢
  rw [Enc.run_bind'] at h
  cases hp : p.run with
  | panic w => rw [hp] at h; cases h
  | diverge => rw [hp] at h; cases h
  | ok e o =>
    rw [hp] at h
    cases e with
    | some e => cases h
    | none =>
      simp only [EOut.bind_ok] at h
      cases hq : q.run with
      | panic w => rw [hq] at h; cases h
      | diverge => rw [hq] at h; cases h
      | ok e o' =>
        rw [hq] at h
        cases h
        exact ⟨o, o', rfl, rfl, rfl⟩

theorem count_inv {p : Bytes} {n : Nat} (hn : n < 2 ^ 63) (h : (writeVaruint n.toUInt64).Writes p) : Count p n := by
  have h1 := (C03_varuint_iff_partial n.toUInt64).1.1 ⟨p, h⟩
  rw [show n.toUInt64.toNat = n from by simp [Nat.toUInt64, UInt64.toNat_ofNat']; omega] at h1
  have := h.det (writeVaruint_writes n h1)
  subst this
  exact ⟨varuintBytes_minLeb n h1, h1⟩

theorem mapGet_real {m : List (Bytes × AV)} (h : realEntries m) (k : Bytes) : (mapGet m k).Real := by
  unfold mapGet
  cases hf : m.find? fun e => e.1 = k with
  | none => simp [AV.Real]
  | some e =>
    have hm := List.mem_of_find?_eq_some hf
    clear hf
    induction m with
    | nil => cases hm
    | cons x m ih =>
      rcases List.mem_cons.1 hm with rfl | hm
      · exact h.1
      · exact ih h.2 hm

section
variable {a : Abi} {ts : Types} (hr : Ready a ts) (ha : a.Real) {B : Bytes → AV → Bytes → Prop} (hB : ∀ b v bs, v.Real → (encodeBuiltin b v).Writes bs → B b v bs)
  (rec : Bytes → AV → Enc (Option Err)) (ih : ∀ n t v bs, ts.get n = some t → v.Real → (rec n v).Writes bs → Wire a B false n v bs)
include ih

theorem members_sound (m : List (Bytes × AV)) (hm : realEntries m) : ∀ (fs : List AbiField) (bs : Bytes), (∀ f ∈ fs, ∃ u, ts.get f.type = some u) →
    (encEach (fun f : Bytes × Bytes => rec f.2 (mapGet m f.1)) (pure none) (fieldPairs fs)).Writes bs → Members a B false fs m bs := by
  intro fs
  induction fs with
  | nil => intro bs _ h; cases h.det Enc.Writes.pure; exact .nil
  | cons f fs ihf =>
    intro bs hk h
    obtain ⟨b1, b2, h1, h2, rfl⟩ := writes_inv h
    obtain ⟨u, hu⟩ := hk f (by simp)
    exact .cons ((entry_mapGet _ _ _).2 rfl) (ih _ _ _ _ hu (mapGet_real hm _) h1) (ihf _ (fun g hg => hk g (by simp [hg])) h2)

include hr ha hB

theorem inner_sound (n : Bytes) (t : Resolved) (hn : ts.get n = some t) (v : AV) (hv : v.Real) (bs : Bytes) (h : (encodeInner ts rec t v).Writes bs) :
    Inner a B false t.baseName v bs := by
  unfold encodeInner at h
  rcases table_cases hr hn with ⟨ty, hi⟩ | ⟨f, fs, hi⟩ | ⟨va, hi⟩ | hi | ⟨s, hi, hf⟩
  · obtain ⟨h1, u, hu⟩ := table_alias hr hn hi
    rw [h1] at h
    exact .alias hi (ih _ _ _ _ hu hv h)
  · obtain ⟨h1, h2, h3⟩ := table_struct hr hn hi
    rw [h1, h2] at h
    simp only at h
    rw [if_pos (by simp [fieldPairs])] at h
    cases v with
    | map m => exact .struct hi (members_sound rec ih m hv _ _ h3 h) (fun e => nomatch e)
    | _ => cases h
  · obtain ⟨h1, h2, h3, h4⟩ := table_variant hr hn hi
    rw [h1, h2, h3] at h
    simp only [ne_eq, not_true_eq_false, if_false] at h
    cases v with
    | slice xs =>
      match xs, hv, h with
      | [v0, v1], hv, h =>
        cases v0 with
        | basic b0 x0 =>
          unfold AV.asBasic at h
          by_cases hb : b0 = .string
          · subst hb
            simp only [dite_true] at h
            cases hfv : findVariant x0 0 va.types with
            | none => rw [hfv] at h; cases h
            | some r =>
              obtain ⟨j, tv⟩ := r
              rw [hfv] at h
              obtain ⟨rfl, pre, post, e1, e2, e3⟩ := findVariant_some _ _ hfv
              obtain ⟨b1, b2, g1, g2, rfl⟩ := writes_inv h
              obtain ⟨u, hu⟩ := h4 tv (by rw [e1]; simp)
              rw [Nat.zero_add] at e3
              subst e3
              refine .variant hi e1 e2 (count_inv ?_ g1) (ih _ _ _ _ hu hv.2.2.1 g2)
              have := ha va (mem_of_first hi.2)
              rw [e1] at this
              simp at this
              omega
          · simp only [dif_neg hb] at h
            cases h
        | _ => cases h
      | [], _, h => cases h
      | [_], _, h => cases h
      | _ :: _ :: _ :: _, _, h => cases h
    | _ => cases h
  · obtain ⟨h1, h2, h3⟩ := table_notDefined hr hn hi
    rw [h1, h2, h3] at h
    exact .builtin hi (hB _ _ _ hv h)
  · obtain ⟨h1, h2, h3⟩ := table_hollow hr hn hi hf
    rw [h1, h2, h3] at h
    exact .hollow hi hf (hB _ _ _ hv h)

theorem items_sound (n : Bytes) (t : Resolved) (hn : ts.get n = some t) : ∀ (xs : List AV) (bs : Bytes), realAll xs →
    (encEach (encodeInner ts rec t) (pure none) xs).Writes bs → Items a B false t.baseName xs bs := by
  intro xs
  induction xs with
  | nil => intro bs _ h; cases h.det Enc.Writes.pure; exact .nil
  | cons x xs ihx =>
    intro bs hv h
    obtain ⟨b1, b2, h1, h2, rfl⟩ := writes_inv h
    exact .cons (inner_sound hr ha hB rec ih n t hn x hv.1 _ h1) (ihx _ hv.2 h2)

theorem body_sound (n : Bytes) (t : Resolved) (hn : ts.get n = some t) (v : AV) (hv : v.Real) (bs : Bytes) (h : (encodeBody ts rec t v).Writes bs) :
    Body a B false t.baseName t.isArray v bs := by
  unfold encodeBody at h
  cases ht : t.isArray with
  | false =>
    rw [ht] at h
    exact .one (inner_sound hr ha hB rec ih n t hn v hv bs h)
  | true =>
    rw [ht] at h
    simp only [if_true] at h
    cases v with
    | slice xs =>
      obtain ⟨b1, b2, h1, h2, rfl⟩ := writes_inv h
      exact .many (count_inv hv.1 h1) (items_sound hr ha hB rec ih n t hn xs _ hv.2 h2)
    | _ => cases h
end

theorem encode_sound {a : Abi} {ts : Types} (hr : Ready a ts) (ha : a.Real) {B : Bytes → AV → Bytes → Prop} (hB : ∀ b v bs, v.Real → (encodeBuiltin b v).Writes bs → B b v bs) :
    ∀ fuel n t v bs, ts.get n = some t → v.Real → (encodeTypeF ts fuel n v).Writes bs → Wire a B false n v bs := by
  intro fuel
  induction fuel with
  | zero => intro n t v bs _ _ h; cases h
  | succ fuel ih =>
    intro n t v bs hn hv h
    have hd := (hr n t hn).1.2.1
    unfold encodeTypeF at h
    rw [hn] at h
    simp only at h
    cases ho : t.isOptional with
    | true =>
      rw [ho] at h hd
      simp only [if_true] at h
      cases hi : v.isNil with
      | true =>
        cases isNil_true hi
        have := Enc.Writes.det h (Enc.Writes.bind (b1 := [0]) (b2 := []) (writeBool_writes false) Enc.Writes.pure)
        subst this
        exact .absent hd
      | false =>
        rw [hi] at h
        change Enc.Writes (Enc.bind (writeBool true) _) bs at h
        have hw : (writeBool true).run = .ok none [1] := writeBool_writes true
        unfold Enc.Writes at h
        rw [Enc.run_bind', hw, EOut.bind_ok] at h
        simp only [Option.isSome_none, Bool.or_false, Bool.false_eq_true, if_false] at h
        cases hb : (encodeBody ts (encodeTypeF ts fuel) t v).run with
        | panic w => rw [hb] at h; cases h
        | diverge => rw [hb] at h; cases h
        | ok e o =>
          rw [hb] at h
          cases h
          exact .present hd (fun e => by rw [e] at hi; cases hi) (body_sound hr ha hB _ ih n t hn v hv o hb)
    | false =>
      rw [ho] at h hd
      simp only [Bool.false_eq_true, if_false] at h
      cases hi : v.isNil with
      | true => rw [hi] at h; cases h
      | false =>
        rw [hi] at h
        simp only [Bool.false_eq_true, if_false] at h
        exact .plain hd (fun e => by rw [e] at hi; cases hi) (body_sound hr ha hB _ ih n t hn v hv bs h)

/-! ### Decoding -/

/-- Reads with all large enough depths -/
def ReadsEv {α : Type} (p : Nat → Dec (α × Option Err)) (bs : Bytes) (v : α) : Prop := ∃ N, ∀ fuel, N ≤ fuel → (p fuel).Reads bs v

theorem ReadsEv.const {α : Type} {p : Dec (α × Option Err)} {bs : Bytes} {v : α} (h : p.Reads bs v) : ReadsEv (fun _ => p) bs v := ⟨0, fun _ _ => h⟩

theorem ReadsEv.congr {α : Type} {p q : Nat → Dec (α × Option Err)} {bs : Bytes} {v : α} (h : ReadsEv p bs v) (e : ∀ fuel, q fuel = p fuel) : ReadsEv q bs v := by
  obtain ⟨N, h⟩ := h
  exact ⟨N, fun fuel hf => by rw [e]; exact h fuel hf⟩

theorem count_reads {p : Bytes} {n : Nat} (h : Count p n) : readVaruint.Reads p n.toUInt64 := by
  rw [minLeb_unique _ _ _ h.1 (varuintBytes_minLeb n h.2)]
  exact readVaruint_reads n h.2

theorem count_goInt {p : Bytes} {n : Nat} (h : Count p n) : n.toUInt64.toNat = n ∧ goInt n.toUInt64 = n :=
  ⟨toUInt64_toNat n h.2, goInt_toUInt64 n (by have := h.2; omega)⟩

theorem mapPut_new (m : List (Bytes × AV)) (k : Bytes) (v : AV) (h : k ∉ m.map Prod.fst) : mapPut m k v = m ++ [(k, v)] := by
  induction m with
  | nil => rfl
  | cons e m ih =>
    obtain ⟨k', v'⟩ := e
    show (if k' = k then _ else _) = _
    rw [if_neg (fun e => h (by simp [e])), ih (fun hm => h (by simp only [List.map_cons, List.mem_cons]; exact .inr hm))]
    rfl

theorem entry_unique (pre post : List (Bytes × AV)) (k : Bytes) (x y : AV) (hk : k ∉ pre.map Prod.fst) (h : Entry (pre ++ (k, y) :: post) k x) : x = y := by
  rw [entry_mapGet] at h
  rw [← h]
  unfold mapGet
  have : (pre ++ (k, y) :: post).find? (fun e => decide (e.1 = k)) = some (k, y) := by
    refine (find_decide (pre ++ (k, y) :: post) (fun e : Bytes × AV => e.1 = k) (k, y)).2 ⟨rfl, pre, post, rfl, fun e he e' => hk ?_⟩
    exact List.mem_map.2 ⟨e, he, e'⟩
  rw [this]

section
variable {a : Abi} {ts : Types} (hr : Ready a ts) {B : Bytes → AV → Bytes → Prop} (hB : ∀ b v bs, B b v bs → (decodeBuiltin b).Reads bs v)
include hr hB

theorem decodeBody_plain {rec : Bytes → Dec (AV × Option Err)} {t : Resolved} {bs : Bytes} {v : AV} (ht : t.isArray = false) (h : (decodeInner ts rec t).Reads bs v) :
    (decodeBody ts rec t).Reads bs v := by
  unfold decodeBody
  simp only [ht, Bool.false_eq_true, if_false]
  refine h.last ?_
  simp

mutual
theorem wire_decode {n : Bytes} {v : AV} {bs : Bytes} (h : Wire a B true n v bs) (t : Resolved) (hn : ts.get n = some t) : ReadsEv (fun fuel => decodeTypeF ts fuel n) bs v := by
  match h with
  | .absent hs =>
    have ho := (spelled_unique hs (hr n t hn).1.2.1).2.2.2
    refine ⟨1, fun fuel hf => ?_⟩
    obtain ⟨fuel, rfl⟩ := Nat.exists_eq_add_one_of_ne_zero (show fuel ≠ 0 by omega)
    unfold decodeTypeF
    simp only [hn, ← ho, if_true]
    exact (readBool_reads false).last rfl
  | .present (v := v) hs hv hb =>
    obtain ⟨h1, h2, _, ho⟩ := spelled_unique hs (hr n t hn).1.2.1
    obtain ⟨N, ih⟩ := body_decode hb n t hn h1 h2
    refine ⟨N + 1, fun fuel hf => ?_⟩
    obtain ⟨fuel, rfl⟩ := Nat.exists_eq_add_one_of_ne_zero (show fuel ≠ 0 by omega)
    unfold decodeTypeF
    simp only [hn, ← ho, if_true]
    exact Dec.Reads.bind (b1 := [1]) (readBool_reads true) (ih fuel (by omega))
  | .plain (v := v) hs hv hb =>
    obtain ⟨h1, h2, _, ho⟩ := spelled_unique hs (hr n t hn).1.2.1
    obtain ⟨N, ih⟩ := body_decode hb n t hn h1 h2
    refine ⟨N + 1, fun fuel hf => ?_⟩
    obtain ⟨fuel, rfl⟩ := Nat.exists_eq_add_one_of_ne_zero (show fuel ≠ 0 by omega)
    unfold decodeTypeF
    simp only [hn, ← ho, Bool.false_eq_true, if_false]
    exact ih fuel (by omega)
theorem body_decode {b : Bytes} {arr : Bool} {v : AV} {bs : Bytes} (h : Body a B true b arr v bs) (n : Bytes) (t : Resolved) (hn : ts.get n = some t) (hb : b = t.baseName)
    (ha : arr = t.isArray) : ReadsEv (fun fuel => decodeBody ts (decodeTypeF ts fuel) t) bs v := by
  match h with
  | .one hi =>
    obtain ⟨N, ih⟩ := inner_decode hi n t hn hb
    exact ⟨N, fun fuel hf => decodeBody_plain hr hB ha.symm (ih fuel hf)⟩
  | .many (xs := xs) hc hi =>
    obtain ⟨N, ih⟩ := items_decode hi n t hn hb
    refine ⟨N, fun fuel hf => ?_⟩
    unfold decodeBody
    rw [← ha]
    simp only [if_true]
    refine Dec.Reads.bind (count_reads hc) ?_
    unfold makeSlice
    obtain ⟨e1, e2⟩ := count_goInt hc
    have hl := hc.2
    simp only
    rw [e1, e2, if_neg (by omega), if_neg (by unfold maxAlloc; omega)]
    refine (ih fuel hf).last ?_
    simp
theorem items_decode {b : Bytes} {xs : List AV} {bs : Bytes} (h : Items a B true b xs bs) (n : Bytes) (t : Resolved) (hn : ts.get n = some t) (hb : b = t.baseName) :
    ReadsEv (fun fuel => decEach (fun _ => decodeInner ts (decodeTypeF ts fuel) t) (List.replicate xs.length AV.nil)) bs xs := by
  match h with
  | .nil => exact .const (.pure [])
  | .cons hx hxs =>
    obtain ⟨N, h1⟩ := inner_decode hx n t hn hb
    obtain ⟨M, h2⟩ := items_decode hxs n t hn hb
    exact ⟨N + M, fun fuel hf => Dec.Reads.bind (h1 fuel (by omega)) ((h2 fuel (by omega)).last rfl)⟩
theorem inner_decode {b : Bytes} {v : AV} {bs : Bytes} (h : Inner a B true b v bs) (n : Bytes) (t : Resolved) (hn : ts.get n = some t) (hb : b = t.baseName) :
    ReadsEv (fun fuel => decodeInner ts (decodeTypeF ts fuel) t) bs v := by
  match h with
  | .alias hi hw =>
    have ih := wire_decode hw
    subst hb
    obtain ⟨h1, u, hu⟩ := table_alias hr hn hi
    refine (ih u hu).congr fun fuel => ?_
    unfold decodeInner
    rw [h1]
  | .struct (m := m) (f := f) (fs := fs) hf hm he =>
    have ih := members_decode hm
    subst hb
    obtain ⟨h1, h2, h3⟩ := table_struct hr hn hf
    refine (ih h3 [] m rfl (he rfl).1 (he rfl).2).congr fun fuel => ?_
    unfold decodeInner
    rw [h1, h2]
    simp only
    rw [if_pos (by simp [fieldPairs])]
  | .variant (v := v) (x := x) (pre := pre) (post := post) (t := k) hi hv ht hc hw =>
    have ih := wire_decode hw
    subst hb
    obtain ⟨h1, h2, h3, h4⟩ := table_variant hr hn hi
    obtain ⟨u, hu⟩ := h4 k (by rw [hv]; simp)
    obtain ⟨N, ih⟩ := ih u hu
    refine ⟨N, fun fuel hf => ?_⟩
    unfold decodeInner
    rw [h1, h2, h3, hv]
    simp only [ne_eq, not_true_eq_false, if_false]
    refine Dec.Reads.bind (count_reads hc) ?_
    obtain ⟨e1, e2⟩ := count_goInt hc
    simp only
    rw [e1, e2, if_neg (by simp), List.getElem?_append_right (by omega), Nat.sub_self]
    exact (ih fuel hf).last rfl
  | .builtin hd hb' =>
    subst hb
    obtain ⟨h1, h2, h3⟩ := table_notDefined hr hn hd
    refine (ReadsEv.const (hB _ _ _ hb')).congr fun fuel => ?_
    unfold decodeInner
    rw [h1, h2, h3]
    rfl
  | .hollow hs hf hb' =>
    subst hb
    obtain ⟨h1, h2, h3⟩ := table_hollow hr hn hs hf
    refine (ReadsEv.const (hB _ _ _ hb')).congr fun fuel => ?_
    unfold decodeInner
    rw [h1, h2, h3]
    rfl
theorem members_decode {fs : List AbiField} {m : List (Bytes × AV)} {bs : Bytes} (h : Members a B true fs m bs) (hk : ∀ f ∈ fs, ∃ u, ts.get f.type = some u)
    (pre post : List (Bytes × AV)) (hm : m = pre ++ post) (hp : post.map Prod.fst = fs.map AbiField.name) (hd : (m.map Prod.fst).Nodup) :
    ReadsEv (fun fuel => decodeStruct (decodeTypeF ts fuel) (fieldPairs fs) pre) bs (.map m) := by
  match h with
  | .nil =>
    have : post = [] := List.map_eq_nil_iff.1 hp
    subst this
    rw [List.append_nil] at hm
    subst hm
    exact .const (.pure _)
  | .cons (f := f) (fs := fs) (x := x) he hw hms =>
    obtain ⟨u, hu⟩ := hk f (by simp)
    obtain ⟨N, h1⟩ := wire_decode hw u hu
    match post, hp with
    | (k, y) :: post, hp =>
      have e1 : k = f.name := (List.cons.inj hp).1
      have e2 := (List.cons.inj hp).2
      have hd' := hd
      rw [hm, List.map_append, List.nodup_append] at hd'
      have hnew : f.name ∉ pre.map Prod.fst := fun hc => hd'.2.2 f.name hc f.name (by simp [e1]) rfl
      have ex : x = y := by
        subst e1
        refine entry_unique pre post _ x y hnew ?_
        rw [← hm]
        exact he
      obtain ⟨M, h2⟩ := members_decode hms (fun g hg => hk g (by simp [hg])) (pre ++ [(f.name, x)]) post (by rw [hm, e1, ex]; simp) e2 hd
      refine ⟨N + M, fun fuel hf => Dec.Reads.bind (h1 fuel (by omega)) ?_⟩
      show (decodeStruct (decodeTypeF ts fuel) (fieldPairs fs) (mapPut pre f.name x)).Reads _ _
      rw [mapPut_new _ _ _ hnew]
      exact h2 fuel (by omega)
end
end

end Verif
