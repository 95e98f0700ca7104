import Verif.Spec.AbiGrow
import Verif.Props.AbiEnds
import Verif.Props.AbiCanon
/-! Lemmas for C103. -/
set_option linter.unusedSectionVars false
namespace Verif

theorem struct_of_describe {a a' : Abi} {b : Bytes} (h : SameMeaning a a' b) :
    a.getStruct b = a'.getStruct b ∧ (a.getStruct b = none → a.getVariant b = a'.getVariant b ∧ (a.getVariant b = none → a.getType b = a'.getType b)) := by
  have e1 : a.getStruct b = a'.getStruct b := Option.ext fun s => by rw [getStruct_iff, getStruct_iff, h.1]
  refine ⟨e1, fun n1 => ?_⟩
  have n1' : a'.getStruct b = none := e1 ▸ n1
  have e2 : a.getVariant b = a'.getVariant b := Option.ext fun v => by
    rw [getVariant_iff, getVariant_iff]
    have := h.2.1 v
    simp only [IsVariant, (getStruct_none a b).1 n1, (getStruct_none a' b).1 n1', true_and] at this
    exact this
  refine ⟨e2, fun n2 => ?_⟩
  have n2' : a'.getVariant b = none := e2 ▸ n2
  exact Option.ext fun t => by
    rw [getType_iff, getType_iff]
    have := h.2.2 t
    rw [IsAlias, IsAlias] at this
    have c : NoVariant a b := ⟨(getStruct_none a b).1 n1, (getVariant_none a b).1 n2⟩
    have c' : NoVariant a' b := ⟨(getStruct_none a' b).1 n1', (getVariant_none a' b).1 n2'⟩
    exact ⟨fun x => (this.1 ⟨c, x⟩).2, fun x => (this.2 ⟨c', x⟩).2⟩

theorem describe_agrees {a a' : Abi} {m : Bytes} (h : ∀ b arr ext opt, Spelled m b arr ext opt → SameMeaning a a' b) : a.describe m = a'.describe m := by
  unfold Abi.describe
  cases hp : parseTypeName m with
  | none => rfl
  | some p =>
    obtain ⟨b, arr, opt, ext⟩ := p
    obtain ⟨e1, e2⟩ := struct_of_describe (h b arr ext opt ((parse_spelled ..).1 hp))
    dsimp only
    rw [← e1]
    cases h1 : a.getStruct b with
    | some s => rfl
    | none =>
      obtain ⟨e2, e3⟩ := e2 h1
      dsimp only
      rw [← e2]
      cases h2 : a.getVariant b with
      | some v => rfl
      | none =>
        dsimp only
        rw [← e3 h2]

theorem resolveEach_congr {r r' : Types → Bytes → Res} {ns : List Bytes} (h : ∀ ts, ∀ n ∈ ns, r ts n = r' ts n) : ∀ ts, resolveEach r ts ns = resolveEach r' ts ns := by
  induction ns with
  | nil => intro ts; rfl
  | cons n ns ih =>
    intro ts
    unfold resolveEach
    rw [h ts n List.mem_cons_self]
    cases r' ts n with
    | val ts' => exact ih (fun ts n hn => h ts n (List.mem_cons_of_mem _ hn)) ts'
    | panic => rfl
    | diverge => rfl

theorem resolveF_agrees {a a' : Abi} : ∀ fuel ts n, a.Agrees a' n → resolveF a fuel ts n = resolveF a' fuel ts n
  | 0, _, _, _ => rfl
  | fuel + 1, ts, n, h => by
    unfold resolveF
    have hd := describe_agrees (m := n) fun b arr ext opt hs => h n b arr ext opt .refl hs
    rw [← hd]
    cases ht : a.describe n with
    | none => rfl
    | some t =>
      dsimp only
      rw [resolveEach_congr fun ts m hm => resolveF_agrees fuel ts m fun k b arr ext opt hk => h k b arr ext opt (Reach.cons ((refs_iff a n m t ht).1 hm) hk)]

theorem resolve_agrees {a a' : Abi} {n : Bytes} (h : a.Agrees a' n) : resolve a n = resolve a' n := by
  rw [← (C46_terminates a n).2 (a.names.length + 2 + (a'.names.length + 2)) (by omega), ← (C46_terminates a' n).2 (a.names.length + 2 + (a'.names.length + 2)) (by omega)]
  exact resolveF_agrees _ _ _ h

/-! ## First entries -/

theorem first_append_left {α : Type} {l k : List α} {p : α → Prop} {x : α} (h : First l p x) : First (l ++ k) p x := by
  obtain ⟨h, pre, post, rfl, h'⟩ := h
  exact ⟨h, pre, post ++ k, by simp, h'⟩

theorem first_unique {α : Type} {l : List α} {p : α → Prop} {x y : α} (h : First l p x) (h' : First l p y) : x = y := by
  classical
  have := ((find_decide l p x).2 h).symm.trans ((find_decide l p y).2 h')
  exact Option.some.inj this

theorem first_append_iff {α : Type} {l k : List α} {p : α → Prop} (hk : ∀ y ∈ k, ¬ p y) (x : α) : First (l ++ k) p x ↔ First l p x := by
  classical
  rw [← find_decide, ← find_decide, List.find?_append, (find_decide_none k p).2 hk, Option.or_none]

theorem first_perm {α : Type} {l k : List α} {p : α → Prop} (hp : l.Perm k) (hu : ∀ x ∈ l, ∀ y ∈ l, p x → p y → x = y) (x : α) : First l p x ↔ First k p x := by
  have key : ∀ {l k : List α}, l.Perm k → (∀ x ∈ l, ∀ y ∈ l, p x → p y → x = y) → First l p x → First k p x := by
    intro l k hp hu h
    classical
    cases hf : k.find? (fun y => decide (p y)) with
    | none => exact absurd h.1 ((find_decide_none k p).1 hf x (hp.mem_iff.1 (mem_of_first h)))
    | some y =>
      have hy := (find_decide k p y).1 hf
      rw [hu x (mem_of_first h) y (hp.mem_iff.2 (mem_of_first hy)) h.1 hy.1]
      exact hy
  exact ⟨key hp hu, key hp.symm fun x hx y hy => hu x (hp.mem_iff.2 hx) y (hp.mem_iff.2 hy)⟩

theorem nodup_unique {α : Type} {l : List α} {f : α → Bytes} (h : (l.map f).Nodup) {x y : α} (hx : x ∈ l) (hy : y ∈ l) (e : f x = f y) : x = y := by
  induction l with
  | nil => cases hx
  | cons z l ih =>
    rw [List.map_cons, List.nodup_cons] at h
    rcases List.mem_cons.1 hx with rfl | hx' <;> rcases List.mem_cons.1 hy with rfl | hy'
    · rfl
    · exact absurd (e ▸ List.mem_map_of_mem hy') h.1
    · exact absurd (e ▸ List.mem_map_of_mem hx') h.1
    · exact ih h.2 hx' hy'

/-! ## Variants with more alternatives -/

section
variable {a a' : Abi} {n : Bytes} (hg : a.Grows a' n)
include hg

theorem grown_fields {b : Bytes} {fs : List AbiField} (h : FieldsOf a b fs) : ∀ {m arr ext opt}, Reach a n m → Spelled m b arr ext opt → FieldsOf a' b fs := by
  induction h with
  | root hs he => intro m arr ext opt hm hb; exact .root (((hg _ _ _ _ _ hm hb).1 _).1 hs) he
  | derived hs he hb' hf ih =>
    intro m arr ext opt hm hb
    exact .derived (((hg _ _ _ _ _ hm hb).1 _).1 hs) he hb' (ih (.step hm (.base hb hs he)) hb')

theorem grown_fields_back {b : Bytes} {fs : List AbiField} (h : FieldsOf a' b fs) : ∀ {m arr ext opt}, Reach a n m → Spelled m b arr ext opt → FieldsOf a b fs := by
  induction h with
  | root hs he => intro m arr ext opt hm hb; exact .root (((hg _ _ _ _ _ hm hb).1 _).2 hs) he
  | derived hs he hb' hf ih =>
    intro m arr ext opt hm hb
    have hs' := ((hg _ _ _ _ _ hm hb).1 _).2 hs
    exact .derived hs' he hb' (ih (.step hm (.base hb hs' he)) hb')

omit hg in
theorem reach_fields {a : Abi} {n b : Bytes} {fs : List AbiField} (h : FieldsOf a b fs) : ∀ {m arr ext opt}, Reach a n m → Spelled m b arr ext opt → ∀ f ∈ fs, Reach a n f.type := by
  induction h with
  | root hs he => intro m arr ext opt hm hb f hf; exact .step hm (.field hb hs hf)
  | derived hs he hb' _ ih =>
    intro m arr ext opt hm hb f hf
    rcases List.mem_append.1 hf with hf | hf
    · exact ih (.step hm (.base hb hs he)) hb' f hf
    · exact .step hm (.field hb hs hf)

/-- A base name that occurs -/
abbrev Occurs (a : Abi) (n b : Bytes) : Prop := ∃ m arr ext opt, Reach a n m ∧ Spelled m b arr ext opt

variable {B : Bytes → AV → Bytes → Prop} {exact : Bool}

mutual
theorem wire_grows {m : Bytes} {v : AV} {bs : Bytes} (hm : Reach a n m) : Wire a B exact m v bs → Wire a' B exact m v bs
  | .absent hs => .absent hs
  | .present hs hv hb => .present hs hv (wireBody_grows ⟨_, _, _, _, hm, hs⟩ hb)
  | .plain hs hv hb => .plain hs hv (wireBody_grows ⟨_, _, _, _, hm, hs⟩ hb)
theorem wireBody_grows {b : Bytes} {arr : Bool} {v : AV} {bs : Bytes} (ho : Occurs a n b) : Body a B exact b arr v bs → Body a' B exact b arr v bs
  | .one hi => .one (wireInner_grows ho hi)
  | .many hc hi => .many hc (wireItems_grows ho hi)
theorem wireItems_grows {b : Bytes} {xs : List AV} {bs : Bytes} (ho : Occurs a n b) : Items a B exact b xs bs → Items a' B exact b xs bs
  | .nil => .nil
  | .cons hx hxs => .cons (wireInner_grows ho hx) (wireItems_grows ho hxs)
theorem wireInner_grows {b : Bytes} {v : AV} {bs : Bytes} (ho : Occurs a n b) (h : Inner a B exact b v bs) : Inner a' B exact b v bs := by
  obtain ⟨m, arr, ext, opt, hm, hb⟩ := ho
  have hgr := hg m b arr ext opt hm hb
  match h with
  | .alias hi hw => exact .alias (hgr.2.2.1 _ hi) (wire_grows (.step hm (.alias hb hi)) hw)
  | .struct hf hms he => exact .struct (grown_fields hg hf hm hb) (wireMembers_grows (reach_fields hf hm hb) hms) he
  | .variant hi hv ht hc hw =>
    obtain ⟨v', hi', q, hq⟩ := hgr.2.1 _ hi
    exact .variant hi' (by rw [← hq, hv, List.append_assoc, List.cons_append]) ht hc (wire_grows (.step hm (.member hb hi (by rw [hv]; simp))) hw)
  | .builtin hi hw => exact .builtin (hgr.2.2.2 hi) hw
  | .hollow hs hf hw => exact .hollow ((hgr.1 _).1 hs) (fun fs h => hf fs (grown_fields_back hg h hm hb)) hw
theorem wireMembers_grows {fs : List AbiField} {x : List (Bytes × AV)} {bs : Bytes} (hr : ∀ f ∈ fs, Reach a n f.type) : Members a B exact fs x bs → Members a' B exact fs x bs
  | .nil => .nil
  | .cons he hw hms => .cons he (wire_grows (hr _ List.mem_cons_self) hw) (wireMembers_grows (fun f hf => hr f (List.mem_cons_of_mem _ hf)) hms)
end

omit hg in
theorem prefix_get {v v' : List Bytes} (h : v <+: v') {i : Nat} {t : Bytes} (hi : v[i]? = some t) : v'[i]? = some t := by
  obtain ⟨q, rfl⟩ := h
  obtain ⟨hl, _⟩ := List.getElem?_eq_some_iff.1 hi
  rw [List.getElem?_append_left hl, hi]

variable {fin : Err}

mutual
theorem gives_grows {m : Bytes} {s : Bytes} {v : AV} {r : Bytes} (hm : Reach a n m) : Gives a fin m s v r → Gives a' fin m s v r
  | .absent hs => .absent hs
  | .present hs hv hb => .present hs hv (givesBody_grows ⟨_, _, _, _, hm, hs⟩ hb)
  | .plain hs hb => .plain hs (givesBody_grows ⟨_, _, _, _, hm, hs⟩ hb)
theorem givesBody_grows {b : Bytes} {arr ext : Bool} {s : Bytes} {v : AV} {r : Bytes} (ho : Occurs a n b) : GivesBody a fin b arr ext s v r → GivesBody a' fin b arr ext s v r
  | .one hi => .one (givesInner_grows ho hi)
  | .many hc h1 h2 hi => .many hc h1 h2 (givesItems_grows ho hi)
  | .goneOne hi => .goneOne (stopsInner_grows ho hi)
  | .goneMany h hc => .goneMany h hc
theorem givesItems_grows {b : Bytes} {s : Bytes} {xs : List AV} {r : Bytes} (ho : Occurs a n b) : GivesItems a fin b s xs r → GivesItems a' fin b s xs r
  | .nil => .nil
  | .cons hx hxs => .cons (givesInner_grows ho hx) (givesItems_grows ho hxs)
theorem givesInner_grows {b : Bytes} {s : Bytes} {v : AV} {r : Bytes} (ho : Occurs a n b) (h : GivesInner a fin b s v r) : GivesInner a' fin b s v r := by
  obtain ⟨m, arr, ext, opt, hm, hb⟩ := ho
  have hgr := hg m b arr ext opt hm hb
  match h with
  | .alias hi hw => exact .alias (hgr.2.2.1 _ hi) (gives_grows (.step hm (.alias hb hi)) hw)
  | .struct hf hms he => exact .struct (grown_fields hg hf hm hb) (givesMembers_grows (reach_fields hf hm hb) hms) he
  | .variant hi hv ht hw =>
    obtain ⟨v', hi', hq⟩ := hgr.2.1 _ hi
    exact .variant hi' (prefix_get hq hv) ht (gives_grows (.step hm (.member hb hi (List.mem_of_getElem? hv))) hw)
  | .builtin hi hw => exact .builtin (hgr.2.2.2 hi) hw
  | .hollow hs hf hw => exact .hollow ((hgr.1 _).1 hs) (fun fs h => hf fs (grown_fields_back hg h hm hb)) hw
theorem givesMembers_grows {fs : List AbiField} {s : Bytes} {x : List (Bytes × AV)} {r : Bytes} (hr : ∀ f ∈ fs, Reach a n f.type) : GivesMembers a fin fs s x r → GivesMembers a' fin fs s x r
  | .nil => .nil
  | .cons hw hms => .cons (gives_grows (hr _ List.mem_cons_self) hw) (givesMembers_grows (fun f hf => hr f (List.mem_cons_of_mem _ hf)) hms)
theorem stopsIn_grows {m : Bytes} {s : Bytes} {v : AV} (hm : Reach a n m) : StopsIn a fin m s v → StopsIn a' fin m s v
  | .mark h hs => .mark h hs
  | .present hs hv hb => .present hs hv (stopsBody_grows ⟨_, _, _, _, hm, hs⟩ hb)
  | .plain hs hb => .plain hs (stopsBody_grows ⟨_, _, _, _, hm, hs⟩ hb)
theorem stopsBody_grows {b : Bytes} {arr ext : Bool} {s : Bytes} {v : AV} (ho : Occurs a n b) : StopsBody a fin b arr ext s v → StopsBody a' fin b arr ext s v
  | .one hi => .one (stopsInner_grows ho hi)
  | .count h hc => .count h hc
  | .element hc h1 h2 hi => .element hc h1 h2 (stopsItems_grows ho hi)
theorem stopsItems_grows {b : Bytes} {k : Nat} {s : Bytes} (ho : Occurs a n b) : StopsItems a fin b k s → StopsItems a' fin b k s
  | .here hi => .here (stopsInner_grows ho hi)
  | .later hx hi => .later (givesInner_grows ho hx) (stopsItems_grows ho hi)
theorem stopsInner_grows {b : Bytes} {s : Bytes} {v : AV} (ho : Occurs a n b) (h : StopsInner a fin b s v) : StopsInner a' fin b s v := by
  obtain ⟨m, arr, ext, opt, hm, hb⟩ := ho
  have hgr := hg m b arr ext opt hm hb
  match h with
  | .alias hi hw => exact .alias (hgr.2.2.1 _ hi) (stopsIn_grows (.step hm (.alias hb hi)) hw)
  | .struct hf hms => exact .struct (grown_fields hg hf hm hb) (stopsMembers_grows (reach_fields hf hm hb) hms)
  | .index h hi hc =>
    obtain ⟨v', hi', _⟩ := hgr.2.1 _ hi
    exact .index h hi' hc
  | .chosen hi hv ht hw =>
    obtain ⟨v', hi', hq⟩ := hgr.2.1 _ hi
    exact .chosen hi' (prefix_get hq hv) ht (stopsIn_grows (.step hm (.member hb hi (List.mem_of_getElem? hv))) hw)
  | .builtin h hi hw => exact .builtin h (hgr.2.2.2 hi) hw
  | .hollow h hs hf hw => exact .hollow h ((hgr.1 _).1 hs) (fun fs h => hf fs (grown_fields_back hg h hm hb)) hw
theorem stopsMembers_grows {fs : List AbiField} {s : Bytes} (hr : ∀ f ∈ fs, Reach a n f.type) : StopsMembers a fin fs s → StopsMembers a' fin fs s
  | .here hw => .here (stopsIn_grows (hr _ List.mem_cons_self) hw)
  | .later hx hms => .later (gives_grows (hr _ List.mem_cons_self) hx) (stopsMembers_grows (fun f hf => hr f (List.mem_cons_of_mem _ hf)) hms)
end
end

end Verif
