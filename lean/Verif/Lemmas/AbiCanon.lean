import Verif.Spec.AbiCanon
import Verif.Lemmas.Canon
import Verif.Lemmas.AbiTakes
import Verif.Props.Fault
/-! # Abi.Encode of decoded values -/
namespace Verif

theorem taken_real {b : Bytes} {v : AV} {w : Bytes} (h : TakenAs b v w) : v.Real := by
  cases h with
  | @basic _ ty x _ h1 h2 =>
    cases ty
    case string =>
      obtain ⟨_, _, h, _⟩ := h2
      have : maxAlloc < 2 ^ 63 := by decide
      simp only [AV.Real]
      exact Nat.lt_of_le_of_lt h this
    all_goals trivial
  | chain => trivial
  | bytes => trivial

theorem realEntries_of {m : List (Bytes × AV)} (h : ∀ e ∈ m, e.2.Real) : realEntries m := by
  induction m with
  | nil => trivial
  | cons e m ih => exact ⟨h e List.mem_cons_self, ih fun e' he => h e' (List.mem_cons_of_mem _ he)⟩

variable {a : Abi}

section
variable (ha : a.RealNames)
include ha
mutual
theorem accepts_real {n : Bytes} {v : AV} {w : Bytes} : Accepts a n v w → v.Real
  | .absent _ => trivial
  | .present _ _ hb => acceptsBody_real hb
  | .plain _ hb => acceptsBody_real hb
theorem acceptsBody_real {b : Bytes} {arr : Bool} {v : AV} {w : Bytes} : AcceptsBody a b arr v w → v.Real
  | .one hi => acceptsInner_real hi
  | .many _ h2 _ hi => ⟨h2, acceptsItems_real hi⟩
theorem acceptsItems_real {b : Bytes} {xs : List AV} {w : Bytes} : AcceptsItems a b xs w → realAll xs
  | .nil => trivial
  | .cons hi his => ⟨acceptsInner_real hi, acceptsItems_real his⟩
theorem acceptsInner_real {b : Bytes} {v : AV} {w : Bytes} : AcceptsInner a b v w → v.Real
  | .alias _ h => accepts_real h
  | .struct _ h hg => realEntries_of fun e he => by
      have := (gathers_self _ _ hg).2.2 e he
      exact acceptsMembers_real h e this
  | .variant hv hi _ h => ⟨show 2 < 2 ^ 63 by decide, ha _ (mem_of_first hv.2) _ (List.mem_of_getElem? hi), accepts_real h, trivial⟩
  | .builtin _ h => taken_real h
  | .hollow _ _ h => taken_real h
theorem acceptsMembers_real {fs : List AbiField} {xs : List (Bytes × AV)} {w : Bytes} : AcceptsMembers a fs xs w → ∀ e ∈ xs, e.2.Real
  | .nil => fun _ h => nomatch h
  | .cons h hs => fun e he => by
      rcases List.mem_cons.1 he with rfl | he
      · exact accepts_real h
      · exact acceptsMembers_real hs e he
end

end

/-! ## What is written again -/

theorem basic_only {b : Bytes} {ty : Basic} {x : ty.Val} {out : Bytes} (h1 : (b, ty) ∈ abiBasics) (h : SendsAs b (.basic ty x) out) : ty.Wf x ∧ ty.Layout x out := by
  cases h with
  | basic _ h2 h3 => exact ⟨h2, h3⟩
  | uint64 => simp [abiBasics] at h1

theorem basic_faultless {ty : Basic} {x : ty.Val} (h : ty.Wf x) : ty.fault x = none := by
  cases ty
  case string => exact if_pos h
  case int => exact if_pos h
  case uint => exact if_pos h
  all_goals rfl

theorem taken_again {b : Bytes} {v : AV} {w out : Bytes} (h : TakenAs b v w) (hs : SendsAs b v out) : TakenAs b v out ∧ out.length ≤ w.length := by
  cases h with
  | @basic _ ty x _ h1 h2 =>
    obtain ⟨h3, h4⟩ := basic_only h1 hs
    obtain ⟨o, g1, g2, g3⟩ := canon_basic ty x w (basic_faultless h3) h2
    rw [ty.layout_unique x o out g1 h4] at g2 g3
    exact ⟨.basic h1 g2, g3⟩
  | @chain _ c x _ h1 h2 =>
    have h4 : c.Layout x out := by
      cases hs with
      | chain _ h => exact h
      | eosioName => exact absurd h1 (by simp only [abiChains]; decide +kernel)
    obtain ⟨o, g1, g2, g3⟩ := canon_chain c x w (abiChains_free h1 x).2 h2
    rw [c.layout_unique x o out g1 h4] at g2 g3
    exact ⟨.chain h1 g2, g3⟩
  | bytes =>
    cases hs with
    | chain h => simp [abiChains] at h

theorem entry_of_gathers {xs m : List (Bytes × AV)} (hn : (xs.map Prod.fst).Nodup) (hg : Gathers xs m) {e : Bytes × AV} (he : e ∈ xs) : ∀ x, Entry m e.1 x ↔ x = e.2 := by
  have key : ∀ x, (e.1, x) ∈ m ↔ x = e.2 := fun x => by
    rw [hg.2]
    constructor
    · rintro ⟨pre, post, rfl, _⟩
      rcases List.mem_append.1 he with h | h
      · rw [List.map_append, List.nodup_append] at hn
        exact (hn.2.2 e.1 (List.mem_map_of_mem h) e.1 (by simp) rfl).elim
      · rcases List.mem_cons.1 h with h | h
        · rw [h]
        · rw [List.map_append, List.nodup_append] at hn
          exact ((List.nodup_cons.1 hn.2.1).1 (List.mem_map.2 ⟨e, h, rfl⟩)).elim
    · rintro rfl
      obtain ⟨pre, post, rfl⟩ := List.append_of_mem he
      refine ⟨pre, post, rfl, fun y hy hk => ?_⟩
      rw [List.map_append, List.nodup_append] at hn
      exact (List.nodup_cons.1 hn.2.1).1 (List.mem_map.2 ⟨y, hy, hk⟩)
  intro x
  constructor
  · rintro (h | ⟨h, _⟩)
    · exact (key x).1 (mem_of_first h)
    · exact (h _ ((key e.2).2 rfl) rfl).elim
  · rintro rfl
    have hm := (key e.2).2 rfl
    have hm' := (gathers_self _ _ hg).2.1
    obtain ⟨pre, post, rfl⟩ := List.append_of_mem hm
    refine .inl ⟨rfl, pre, post, rfl, fun y hy hk => ?_⟩
    rw [List.map_append, List.nodup_append] at hm'
    exact hm'.2.2 y.1 (List.mem_map_of_mem hy) e.1 (by simp) hk

theorem acceptsMembers_names {fs : List AbiField} {xs : List (Bytes × AV)} {w : Bytes} (h : AcceptsMembers a fs xs w) : xs.map Prod.fst = fs.map AbiField.name := by
  induction fs generalizing xs w with
  | nil => cases h; rfl
  | cons f fs ih => cases h with
    | cons _ h => simp [ih h]

section
variable (hd : a.DistinctFields)
include hd

mutual
theorem accepts_again {n : Bytes} {v : AV} {w : Bytes} : Accepts a n v w → ∀ out, Wire a SendsAs false n v out → Accepts a n v out ∧ out.length ≤ w.length
  | .absent hs => fun out ho => by
      cases ho with
      | absent h => exact ⟨.absent h, Nat.le_refl _⟩
      | present _ h => exact absurd rfl h
      | plain _ h => exact absurd rfl h
  | .present hs hp hb => fun out ho => by
      have ih1 := acceptsBody_again hb
      cases ho with
      | absent h => exact ⟨.absent h, by simp⟩
      | present h _ ho =>
        obtain ⟨rfl, rfl, _⟩ := spelled_unique h hs
        obtain ⟨h1, h2⟩ := ih1 _ ho
        exact ⟨.present h (by decide) h1, by simpa using h2⟩
      | plain h => exact nomatch (spelled_unique h hs).2.2.2
  | .plain hs hb => fun out ho => by
      have ih1 := acceptsBody_again hb
      cases ho with
      | absent h => exact nomatch (spelled_unique h hs).2.2.2
      | present h => exact nomatch (spelled_unique h hs).2.2.2
      | plain h _ ho =>
        obtain ⟨rfl, rfl, _⟩ := spelled_unique h hs
        obtain ⟨h1, h2⟩ := ih1 _ ho
        exact ⟨.plain h h1, h2⟩
theorem acceptsBody_again {b : Bytes} {arr : Bool} {v : AV} {w : Bytes} : AcceptsBody a b arr v w → ∀ out, Body a SendsAs false b arr v out → AcceptsBody a b arr v out ∧ out.length ≤ w.length
  | .one hi => fun out ho => by
      have ih1 := acceptsInner_again hi
      cases ho with
      | one ho =>
        obtain ⟨h1, h2⟩ := ih1 _ ho
        exact ⟨.one h1, h2⟩
  | .many h1 h2 h3 hi => fun out ho => by
      have ih1 := acceptsItems_again hi
      cases ho with
      | many hc ho =>
        obtain ⟨g1, g2⟩ := ih1 _ ho
        have := minLeb_short hc.1 h1 (Nat.le_refl _)
        exact ⟨.many (minLeb_any hc.1 (by omega)) h2 h3 g1, by simp; omega⟩
theorem acceptsItems_again {b : Bytes} {xs : List AV} {w : Bytes} : AcceptsItems a b xs w → ∀ out, Items a SendsAs false b xs out → AcceptsItems a b xs out ∧ out.length ≤ w.length
  | .nil => fun out ho => by
      cases ho
      exact ⟨.nil, Nat.le_refl _⟩
  | .cons hi his => fun out ho => by
      have ih1 := acceptsInner_again hi
      have ih2 := acceptsItems_again his
      cases ho with
      | cons o1 o2 =>
        obtain ⟨h1, h2⟩ := ih1 _ o1
        obtain ⟨g1, g2⟩ := ih2 _ o2
        exact ⟨.cons h1 g1, by simp; omega⟩
theorem acceptsInner_again {b : Bytes} {v : AV} {w : Bytes} : AcceptsInner a b v w → ∀ out, Inner a SendsAs false b v out → AcceptsInner a b v out ∧ out.length ≤ w.length
  | .alias ha h => fun out ho => by
      have ih1 := accepts_again h
      cases ho with
      | «alias» ha' ho =>
        obtain rfl := isAlias_unique ha ha'
        obtain ⟨h1, h2⟩ := ih1 _ ho
        exact ⟨.alias ha h1, h2⟩
      | struct hf => exact (noStruct_isStruct ha.1.1 (fieldsOf_struct hf).choose_spec).elim
      | variant hv => exact (ha.1.2 _ (mem_of_first hv.2) hv.2.1).elim
      | builtin hn => exact (hn.2 _ (mem_of_first ha.2) ha.2.1).elim
      | hollow hs => exact (noStruct_isStruct ha.1.1 hs).elim
  | .struct hf h hg => fun out ho => by
      have ih1 := acceptsMembers_again h
      cases ho with
      | «alias» ha' => exact (noStruct_isStruct ha'.1.1 (fieldsOf_struct hf).choose_spec).elim
      | struct hf' ho =>
        have e := fieldsOf_unique hf hf'
        rw [← e] at ho
        obtain ⟨h1, h2⟩ := ih1 _ (fun e he x hx => (entry_of_gathers (by rw [acceptsMembers_names h]; exact hd _ _ hf) hg he x).1 hx) _ ho
        exact ⟨.struct hf h1 hg, h2⟩
      | builtin hn => exact (noStruct_isStruct hn.1.1 (fieldsOf_struct hf).choose_spec).elim
      | hollow _ hn => exact nomatch hn _ hf
  | .variant (i := i) hv hi hp h => fun out ho => by
      have ih1 := accepts_again h
      cases ho with
      | «alias» ha' => exact (ha'.1.2 _ (mem_of_first hv.2) hv.2.1).elim
      | variant hv' e hn hc ho =>
        obtain rfl := isVariant_unique hv hv'
        obtain ⟨h1, h2⟩ := ih1 _ ho
        rename_i pre post _ _
        have hle : pre.length ≤ i := by
          refine Nat.le_of_not_lt fun hlt => hn ?_
          rw [e, List.getElem?_append_left hlt] at hi
          exact List.mem_of_getElem? hi
        have := minLeb_short hc.1 hp hle
        exact ⟨.variant hv (by rw [e]; simp) (minLeb_any hc.1 (by have := hc.2; omega)) h1, by simp; omega⟩
      | builtin hn => exact (hn.1.2 _ (mem_of_first hv.2) hv.2.1).elim
      | hollow hs => exact (noStruct_isStruct hv.1 hs).elim
  | .builtin hn h => fun out ho => by
      cases ho with
      | «alias» ha' => exact (hn.2 _ (mem_of_first ha'.2) ha'.2.1).elim
      | struct hf => exact (noStruct_isStruct hn.1.1 (fieldsOf_struct hf).choose_spec).elim
      | variant hv => exact (hn.1.2 _ (mem_of_first hv.2) hv.2.1).elim
      | builtin _ ho =>
        obtain ⟨h1, h2⟩ := taken_again h ho
        exact ⟨.builtin hn h1, h2⟩
      | hollow hs => exact (noStruct_isStruct hn.1.1 hs).elim
  | .hollow hs hf h => fun out ho => by
      cases ho with
      | «alias» ha' => exact (noStruct_isStruct ha'.1.1 hs).elim
      | struct hf' => exact nomatch hf _ hf'
      | variant hv => exact (noStruct_isStruct hv.1 hs).elim
      | builtin hn => exact (noStruct_isStruct hn.1.1 hs).elim
      | hollow _ _ ho =>
        obtain ⟨h1, h2⟩ := taken_again h ho
        exact ⟨.hollow hs hf h1, h2⟩
theorem acceptsMembers_again {fs : List AbiField} {xs : List (Bytes × AV)} {w : Bytes} : AcceptsMembers a fs xs w → ∀ m, (∀ e ∈ xs, ∀ x, Entry m e.1 x → x = e.2) →
    ∀ out, Members a SendsAs false fs m out → AcceptsMembers a fs xs out ∧ out.length ≤ w.length
  | .nil => fun m _ out ho => by
      cases ho
      exact ⟨.nil, Nat.le_refl _⟩
  | .cons h hs => fun m hm out ho => by
      have ih1 := accepts_again h
      have ih2 := acceptsMembers_again hs
      cases ho with
      | cons he o1 o2 =>
        obtain rfl := hm _ List.mem_cons_self _ he
        obtain ⟨h1, h2⟩ := ih1 _ o1
        obtain ⟨g1, g2⟩ := ih2 m (fun e he => hm e (List.mem_cons_of_mem _ he)) _ o2
        exact ⟨.cons h1 g1, by simp; omega⟩
end
end

/-! ## When something is written -/

theorem fieldsOf_reach {n b : Bytes} {fs : List AbiField} (h : FieldsOf a b fs) : ∀ {m : Bytes} {arr ext opt : Bool}, Reach a n m → Spelled m b arr ext opt → ∀ f ∈ fs, Reach a n f.type := by
  induction h with
  | root hs _ => exact fun hr hm f hf => .step hr (.field hm hs hf)
  | derived hs he hb _ ih =>
    intro m arr ext opt hr hm f hf
    rcases List.mem_append.1 hf with hf | hf
    · exact ih (.step hr (.base hm hs he)) hb f hf
    · exact .step hr (.field hm hs hf)

theorem taken_sent {b : Bytes} {v : AV} {w : Bytes} (h : TakenAs b v w) (hv : v.Small) (hb : b ≠ asc "bytes") : (∃ out, SendsAs b v out) ∧ v ≠ .nil := by
  refine ⟨?_, ?_⟩
  · cases h with
    | @basic _ ty x _ h1 h2 =>
      obtain ⟨o, g1, _⟩ := canon_basic ty x w (basic_faultless hv) h2
      exact ⟨o, .basic h1 hv g1⟩
    | @chain _ c x _ h1 h2 =>
      obtain ⟨o, g1, _⟩ := canon_chain c x w (abiChains_free h1 x).2 h2
      exact ⟨o, .chain h1 g1⟩
    | bytes => exact absurd rfl hb
  · rintro rfl
    cases h

theorem small_entry {m : List (Bytes × AV)} (h : smallEntries m) {e : Bytes × AV} (he : e ∈ m) : e.2.Small := by
  induction m with
  | nil => exact nomatch he
  | cons e' m ih =>
    rcases List.mem_cons.1 he with rfl | he
    · exact h.1
    · exact ih h.2 he

theorem first_split {l : List Bytes} {t : Bytes} : ∀ {i : Nat}, l[i]? = some t → ∃ pre post, l = pre ++ t :: post ∧ t ∉ pre := by
  induction l with
  | nil => intro i h; cases h
  | cons x l ih =>
    intro i h
    by_cases hx : x = t
    · exact ⟨[], l, by rw [hx]; rfl, by simp⟩
    · match i, h with
      | 0, h => exact (hx (Option.some.inj h)).elim
      | i + 1, h =>
        obtain ⟨pre, post, e, hn⟩ := ih (i := i) h
        exact ⟨x :: pre, post, by rw [e]; rfl, by simp [hn, Ne.symm hx]⟩

theorem count_exists {n : Nat} (h : n < 2 ^ 28) : ∃ p, Count p n := ⟨_, varuintBytes_minLeb n h, h⟩

section
variable {root : Bytes} (hd : a.DistinctFields) (hb : a.NoBytes root) (ho : a.NoOptionalAlias root) (hf : a.FewTypes)
include hd hb ho hf

mutual
theorem accepts_sent {n : Bytes} {v : AV} {w : Bytes} : Accepts a n v w → Reach a root n → v.Small → (∃ out, Wire a SendsAs false n v out) ∧ ((∀ b arr ext, ¬ Spelled n b arr ext true) → v ≠ .nil)
  | .absent hs => fun _ _ => ⟨⟨_, .absent hs⟩, fun h => (h _ _ _ hs).elim⟩
  | .present hs hp hb => fun hr hv => by
      obtain ⟨⟨out, h1⟩, h2⟩ := acceptsBody_sent hb hr hs hv
      exact ⟨⟨_, .present hs h2 h1⟩, fun h => (h _ _ _ hs).elim⟩
  | .plain hs hb => fun hr hv => by
      obtain ⟨⟨out, h1⟩, h2⟩ := acceptsBody_sent hb hr hs hv
      exact ⟨⟨_, .plain hs h2 h1⟩, fun _ => h2⟩
theorem acceptsBody_sent {b : Bytes} {arr : Bool} {v : AV} {w : Bytes} : AcceptsBody a b arr v w → ∀ {n : Bytes} {ext opt : Bool}, Reach a root n → Spelled n b arr ext opt → v.Small →
    (∃ out, Body a SendsAs false b arr v out) ∧ v ≠ .nil
  | .one hi => fun hr hs hv => by
      obtain ⟨⟨out, h1⟩, h2⟩ := acceptsInner_sent hi hr hs hv
      exact ⟨⟨_, .one h1⟩, h2⟩
  | .many _ _ _ hi => fun hr hs hv => by
      obtain ⟨out, h1⟩ := acceptsItems_sent hi hr hs hv.2
      obtain ⟨p, hc⟩ := count_exists hv.1
      exact ⟨⟨_, .many hc h1⟩, fun h => nomatch h⟩
theorem acceptsItems_sent {b : Bytes} {xs : List AV} {w : Bytes} : AcceptsItems a b xs w → ∀ {n : Bytes} {arr ext opt : Bool}, Reach a root n → Spelled n b arr ext opt → smallAll xs →
    ∃ out, Items a SendsAs false b xs out
  | .nil => fun _ _ _ => ⟨_, .nil⟩
  | .cons hi his => fun hr hs hv => by
      obtain ⟨⟨_, h1⟩, _⟩ := acceptsInner_sent hi hr hs hv.1
      obtain ⟨_, h2⟩ := acceptsItems_sent his hr hs hv.2
      exact ⟨_, .cons h1 h2⟩
theorem acceptsInner_sent {b : Bytes} {v : AV} {w : Bytes} : AcceptsInner a b v w → ∀ {n : Bytes} {arr ext opt : Bool}, Reach a root n → Spelled n b arr ext opt → v.Small →
    (∃ out, Inner a SendsAs false b v out) ∧ v ≠ .nil
  | .alias ha h => fun hr hs hv => by
      obtain ⟨⟨_, h1⟩, h2⟩ := accepts_sent h (.step hr (.alias hs ha)) hv
      exact ⟨⟨_, .alias ha h1⟩, h2 (ho _ _ _ _ _ _ hr hs ha)⟩
  | .struct hfs h hg => fun hr hs hv => by
      obtain ⟨_, h1⟩ := acceptsMembers_sent h (fieldsOf_reach hfs hr hs) _ (fun e he => (entry_of_gathers (by rw [acceptsMembers_names h]; exact hd _ _ hfs) hg he e.2).2 rfl) hv
      exact ⟨⟨_, .struct hfs h1 (fun h => nomatch h)⟩, fun h => nomatch h⟩
  | .variant hv hi hp h => fun hr hs hx => by
      obtain ⟨⟨_, h1⟩, _⟩ := accepts_sent h (.step hr (.member hs hv (List.mem_of_getElem? hi))) hx.2.2.1
      obtain ⟨pre, post, e, hn⟩ := first_split hi
      have hl := hf _ (mem_of_first hv.2)
      rw [e] at hl
      obtain ⟨p, hc⟩ := count_exists (n := pre.length) (by simp at hl; omega)
      exact ⟨⟨_, .variant hv e hn hc h1⟩, fun h => nomatch h⟩
  | .builtin hn h => fun hr hs hv => by
      obtain ⟨⟨_, h1⟩, h2⟩ := taken_sent h hv (hb _ _ _ _ _ hr hs)
      exact ⟨⟨_, .builtin hn h1⟩, h2⟩
  | .hollow hst hfs h => fun hr hs hv => by
      obtain ⟨⟨_, h1⟩, h2⟩ := taken_sent h hv (hb _ _ _ _ _ hr hs)
      exact ⟨⟨_, .hollow hst hfs h1⟩, h2⟩
theorem acceptsMembers_sent {fs : List AbiField} {xs : List (Bytes × AV)} {w : Bytes} : AcceptsMembers a fs xs w → (∀ f ∈ fs, Reach a root f.type) → ∀ m, (∀ e ∈ xs, Entry m e.1 e.2) →
    smallEntries m → ∃ out, Members a SendsAs false fs m out
  | .nil => fun _ _ _ _ => ⟨_, .nil⟩
  | .cons (x := x) h hs => fun hr m hm hv => by
      have he := hm _ List.mem_cons_self
      have hx : x.Small := by
        rcases he with he | ⟨_, he⟩
        · exact small_entry hv (mem_of_first he)
        · exact (show x = .nil from he) ▸ trivial
      obtain ⟨⟨_, h1⟩, _⟩ := accepts_sent h (hr _ List.mem_cons_self) hx
      obtain ⟨_, h2⟩ := acceptsMembers_sent hs (fun f hf => hr f (List.mem_cons_of_mem _ hf)) m (fun e he => hm e (List.mem_cons_of_mem _ he)) hv
      exact ⟨_, .cons he h1 h2⟩
end
end

end Verif
