import Verif.Lemmas.AbiEnds
import Verif.Lemmas.AbiTerm
import Verif.Lemmas.FailsKnown
import Verif.Spec.AbiFails
/-! Abi.Decode on inputs that it refuses: the decoder and `FailsIn`. -/
namespace Verif
open Dec

/-! ### Builtin types -/

theorem decCases_faults : ∀ c ∈ decCases, c.2.Faults fun fin s x => FailsAs fin c.1 s x := by
  have basic : ∀ (b : Bytes) (ty : Basic) (r : Dec (ty.Val × Option Err)), r = ty.read → ((b, ty) ∈ abiBasics ∧ (∀ e ∈ abiBasics, e.1 = b → e.2 = ty) ∧ (∀ e ∈ abiChains, e.1 ≠ b) ∧ b ≠ asc "bytes") →
      (decBasic ty r).Faults fun fin s x => FailsAs fin b s x := by
    intro b ty r e ⟨h1, h2, h3, h4⟩
    subst e
    apply Faults.iff
    case h => unfold decBasic; exact (basic_faults ty).map (fun _ => ⟨_, rfl⟩) fun _ _ => ⟨_, rfl⟩
    · intro fin s x
      refine ⟨fun h => .basic h1 h, fun h => ?_⟩
      cases h with
      | basic h5 h6 => cases h2 _ h5 rfl; exact h6
      | chain h5 _ => exact (h3 _ h5 rfl).elim
      | bytes _ => exact (h4 rfl).elim
      | unknown h5 _ _ => exact (h5 _ h1).elim
  have chain : ∀ (b : Bytes) (c : ChainTy) (p : Dec (AV × Option Err)), p.Faults c.Failure → ((b, c) ∈ abiChains ∧ (∀ e ∈ abiChains, e.1 = b → e.2 = c) ∧ (∀ e ∈ abiBasics, e.1 ≠ b) ∧ b ≠ asc "bytes") →
      p.Faults fun fin s x => FailsAs fin b s x := by
    intro b c p hp ⟨h1, h2, h3, h4⟩
    refine hp.iff fun fin s x => ⟨fun h => .chain h1 h, fun h => ?_⟩
    cases h with
    | basic h5 _ => exact (h3 _ h5 rfl).elim
    | chain h5 h6 => cases h2 _ h5 rfl; exact h6
    | bytes _ => exact (h4 rfl).elim
    | unknown _ h5 _ => exact (h5 _ h1).elim
  have chain' : ∀ c : ChainTy, (decChain c).Faults c.Failure := by
    intro c
    unfold decChain
    exact (chain_faults c).map (fun _ => ⟨_, rfl⟩) fun _ _ => ⟨_, rfl⟩
  intro c hc
  simp only [decCases, List.mem_cons, List.not_mem_nil, or_false] at hc
  rcases hc with rfl | rfl | rfl | rfl | rfl | rfl | rfl | rfl | rfl | rfl | rfl | rfl | rfl | rfl | rfl | rfl | rfl | rfl | rfl | rfl | rfl | rfl | rfl | rfl | rfl | rfl | rfl | rfl | rfl | rfl | rfl
  case inr.inr.inr.inr.inr.inr.inr.inr.inr.inl =>
    refine chain _ .uint64 _ ?_ (by decide +kernel)
    exact readUint64_faults.map (fun _ => ⟨_, rfl⟩) fun _ _ => ⟨_, rfl⟩
  all_goals dsimp only
  all_goals first
    | (refine basic _ _ _ ?_ ?_; rfl; decide +kernel)
    | (refine chain _ _ _ (chain' _) ?_; decide +kernel)
    | skip
  refine (chain' .bytes).iff fun fin s x => ⟨fun h => .bytes h, fun h => ?_⟩
  have h1 : ∀ e ∈ abiBasics, e.1 ≠ asc "bytes" := by decide +kernel
  have h2 : ∀ e ∈ abiChains, e.1 ≠ asc "bytes" := by decide +kernel
  generalize hb : asc "bytes" = b at h
  cases h with
  | basic h5 _ => exact (h1 _ h5 hb.symm).elim
  | chain h5 _ => exact (h2 _ h5 hb.symm).elim
  | bytes h => exact h
  | unknown _ _ h => exact (h hb.symm).elim

theorem builtin_faults (b : Bytes) : (decodeBuiltin b).Faults fun fin s x => FailsAs fin b s x := by
  unfold decodeBuiltin
  split
  · rename_i h
    have h' : ∀ c ∈ decCases.map Prod.fst, c ≠ b := by
      intro c hc
      obtain ⟨d, hd, rfl⟩ := List.mem_map.1 hc
      simpa using List.find?_eq_none.1 h d hd
    have h1 : ∀ e ∈ abiBasics, e.1 ∈ decCases.map Prod.fst := by decide +kernel
    have h2 : ∀ e ∈ abiChains, e.1 ∈ decCases.map Prod.fst := by decide +kernel
    have h3 : asc "bytes" ∈ decCases.map Prod.fst := by decide +kernel
    refine (faults_fail _ _).iff fun fin s x => ⟨?_, fun hv => ?_⟩
    · rintro rfl
      exact .unknown (fun ty h => h' _ (h1 _ h) rfl) (fun ty h => h' _ (h2 _ h) rfl) fun h => h' _ h3 h.symm
    · cases hv with
      | basic h _ => exact (h' _ (h1 _ h) rfl).elim
      | chain h _ => exact (h' _ (h2 _ h) rfl).elim
      | bytes h => exact (h' _ h3 rfl).elim
      | unknown _ _ _ => rfl
  · rename_i c h
    have h1 := List.find?_some h
    have h2 := decCases_faults c (List.mem_of_find?_eq_some h)
    rw [show c.1 = b by simpa using h1] at h2
    exact h2

/-! ### One step -/

variable {α β : Type} {fin : Err} {s : Bytes} {x : Failure}

/-- A call, and what is done after it has succeeded -/
theorem faults_step {p : Dec (β × Option Err)} {f : β × Option Err → Dec (α × Option Err)} (he : ∀ b e, ∃ a, f (b, some e) = pure (a, some e)) :
    ((p >>= f).runE fin s).Faults x ↔ (p.runE fin s).Faults x ∨ ∃ v m, p.runE fin s = .ok (v, none) m ∧ ((f (v, none)).runE fin m).Faults x :=
  Faults.bind (p := p) (f := f) (G := fun fin v s r => p.runE fin s = .ok (v, none) r) (F := fun fin s x => (p.runE fin s).Faults x) (K := fun v fin m x => ((f (v, none)).runE fin m).Faults x)
    (fun _ _ _ => Iff.rfl) (fun _ _ _ _ => Iff.rfl) (fun _ _ _ _ => Iff.rfl) he fin s x

theorem faults_step_map {p : Dec (β × Option Err)} {f : β × Option Err → Dec (α × Option Err)} (hf : ∀ b, ∃ a, f (b, none) = pure (a, none)) (he : ∀ b e, ∃ a, f (b, some e) = pure (a, some e)) :
    ((p >>= f).runE fin s).Faults x ↔ (p.runE fin s).Faults x :=
  Faults.map (p := p) (f := f) (F := fun fin s x => (p.runE fin s).Faults x) (fun _ _ _ => Iff.rfl) hf he fin s x

theorem varuint_ok {l : UInt64} {m : Bytes} : readVaruint.runE fin s = .ok (l, none) m ↔ ∃ p, s = p ++ m ∧ AnyLeb p l.toNat := readVaruint_exactly fin s l m

section
variable {ts : Types} {rec : Bytes → Dec (AV × Option Err)}

theorem struct_step {f : AbiField} {fs : List AbiField} {m : List (Bytes × AV)} : ((decodeStruct rec (fieldPairs (f :: fs)) m).runE fin s).Faults x ↔
    ((rec f.type).runE fin s).Faults x ∨ ∃ v q, (rec f.type).runE fin s = .ok (v, none) q ∧ ((decodeStruct rec (fieldPairs fs) (mapPut m f.name v)).runE fin q).Faults x :=
  faults_step (p := rec f.type) (f := fun z => match z.2 with
    | some e => pure (.nil, some e)
    | none => decodeStruct rec (fieldPairs fs) (mapPut m f.name z.1)) fun _ _ => ⟨_, rfl⟩

theorem each_step {d : Dec (AV × Option Err)} {k : Nat} : ((decEach (fun _ => d) (List.replicate (k + 1) AV.nil)).runE fin s).Faults x ↔
    (d.runE fin s).Faults x ∨ ∃ v q, d.runE fin s = .ok (v, none) q ∧ ((decEach (fun _ => d) (List.replicate k AV.nil)).runE fin q).Faults x := by
  rw [List.replicate_succ]
  rw [show decEach (fun _ => d) (AV.nil :: List.replicate k AV.nil) = d >>= fun z => match z.2 with
    | some e => pure (z.1 :: List.replicate k AV.nil, some e)
    | none => decEach (fun _ => d) (List.replicate k AV.nil) >>= fun y => pure (z.1 :: y.1, y.2) from rfl]
  refine Iff.trans (faults_step ?he) ?_
  case he => exact fun _ _ => ⟨_, rfl⟩
  refine or_congr Iff.rfl (exists_congr fun v => exists_congr fun q => and_congr Iff.rfl ?_)
  refine faults_step_map ?_ ?_
  · exact fun _ => ⟨_, rfl⟩
  · exact fun _ _ => ⟨_, rfl⟩

theorem choose_step {types : List Bytes} {l : UInt64} : ((choose rec types l).runE fin s).Faults x ↔
    (types.length ≤ l.toNat ∧ (l.toNat < 2 ^ 63 ∧ x = .err errAbiVariantIndex ∨ 2 ^ 63 ≤ l.toNat ∧ x = .panic)) ∨ ∃ t, types[l.toNat]? = some t ∧ ((rec t).runE fin s).Faults x := by
  cases hq : types[l.toNat]? with
  | some t =>
    rw [choose_run rfl hq]
    refine Iff.trans (faults_step_map ?h1 ?h2) ?_
    case h1 => exact fun _ => ⟨_, rfl⟩
    case h2 => exact fun _ _ => ⟨_, rfl⟩
    have := (List.getElem?_eq_some_iff.1 hq).1
    constructor
    · exact fun h => .inr ⟨t, rfl, h⟩
    · rintro (⟨h, _⟩ | ⟨_, ⟨⟩, h⟩)
      · omega
      · exact h
  | none =>
    have h1 := List.getElem?_eq_none_iff.1 hq
    unfold choose
    by_cases h2 : l.toNat < 2 ^ 63
    · have := (goInt_eq l l.toNat).2 ⟨rfl, h2⟩
      rw [if_pos (by omega)]
      refine (Out.faults_err _ x).trans ⟨fun h => .inl ⟨h1, .inl ⟨h2, h⟩⟩, ?_⟩
      rintro (⟨_, h | h⟩ | ⟨_, h, _⟩)
      · exact h.2
      · omega
      · cases h
    · rw [if_neg (fun h => by
        have := (goInt_eq l (goInt l).toNat).1 (by omega)
        omega), hq]
      refine (Out.faults_panic x).trans ⟨fun h => .inl ⟨h1, .inr ⟨by omega, h⟩⟩, ?_⟩
      rintro (⟨_, h | h⟩ | ⟨_, h, _⟩)
      · omega
      · exact h.2
      · cases h

theorem leb_error (h : LebFault fin s x) : ∃ e, x = .err e := by
  rcases h with ⟨_, _, h⟩ | ⟨_, _, _, _, h⟩
  · exact ⟨_, h⟩
  · exact ⟨_, h⟩

/-- What becomes of an error that an extension may be excused for -/
theorem faults_finish {d : Dec (AV × Option Err)} {ext : Bool} : ((d >>= fun z => pure (z.1, if z.2 = some Err.eof ∧ ext = true then none else z.2)).runE fin s).Faults x ↔
    (d.runE fin s).Faults x ∧ ¬ Excused ext x := by
  rw [Dec.runE_bind]
  cases h : d.runE fin s with
  | ok z m =>
    obtain ⟨v, e⟩ := z
    show (Out.ok (v, if e = some Err.eof ∧ ext = true then none else e) m).Faults x ↔ _
    cases e with
    | none =>
      rw [if_neg (by simp)]
      exact ⟨fun h => (Out.faults_ok x h).elim, fun h => (Out.faults_ok x h.1).elim⟩
    | some e =>
      rw [Out.faults_err]
      split
      · rename_i h1
        refine ⟨fun h => (Out.faults_ok x h).elim, fun h => (h.2 ⟨h1.2, by rw [h.1, Option.some.inj h1.1]⟩).elim⟩
      · rename_i h1
        rw [Out.faults_err]
        exact ⟨fun h => ⟨h, fun h2 => h1 ⟨by have := h.symm.trans h2.2; cases this; rfl, h2.1⟩⟩, fun h => h.1⟩
  | panic w =>
    show (Out.panic w : Out (AV × Option Err)).Faults x ↔ _
    simp only [Out.faults_panic]
    exact ⟨fun h => ⟨h, fun h2 => nomatch h.symm.trans h2.2⟩, fun h => h.1⟩
  | diverge =>
    show (Out.diverge : Out (AV × Option Err)).Faults x ↔ _
    simp only [Out.faults_diverge]
    exact ⟨fun h => ⟨h, fun h2 => nomatch h.symm.trans h2.2⟩, fun h => h.1⟩

theorem one_step {t : Resolved} (ha : t.isArray = false) : ((decodeBody ts rec t).runE fin s).Faults x ↔ ((decodeInner ts rec t).runE fin s).Faults x ∧ ¬ Excused t.isExtension x := by
  unfold decodeBody
  dsimp only
  rw [if_neg (by simp [ha])]
  exact faults_finish

theorem many_step {t : Resolved} (ha : t.isArray = true) : ((decodeBody ts rec t).runE fin s).Faults x ↔
    (LebFault fin s x ∧ ¬ Excused t.isExtension x) ∨ ∃ n p q, AnyLeb p n ∧ s = p ++ q ∧ ((2 ^ 63 ≤ n ∨ maxAlloc < n * 16) ∧ x = .panic ∨
      n < 2 ^ 63 ∧ n * 16 ≤ maxAlloc ∧ ((decEach (fun _ => decodeInner ts rec t) (List.replicate n AV.nil)).runE fin q).Faults x) := by
  unfold decodeBody
  dsimp only
  rw [if_pos ha]
  have hl : ∀ (l : UInt64) q, ((makeSlice AV.nil 16 l fun va => do
        let (va, err) ← decEach (fun _ => decodeInner ts rec t) va
        match err with
        | some e => pure (AV.nil, some e)
        | none => pure (AV.slice va, if (none : Option Err) = some .eof ∧ t.isExtension = true then none else none)).runE fin q).Faults x ↔
      (2 ^ 63 ≤ l.toNat ∨ maxAlloc < l.toNat * 16) ∧ x = .panic ∨ l.toNat < 2 ^ 63 ∧ l.toNat * 16 ≤ maxAlloc ∧ ((decEach (fun _ => decodeInner ts rec t) (List.replicate l.toNat AV.nil)).runE fin q).Faults x := by
    intro l q
    refine Iff.trans (makeSlice_faults (fun _ _ _ => Iff.rfl) fin q x) (or_congr Iff.rfl (and_congr Iff.rfl (and_congr Iff.rfl ?_)))
    refine faults_step_map ?_ ?_
    · exact fun b => ⟨.slice b, by simp⟩
    · exact fun _ _ => ⟨_, rfl⟩
  rw [Dec.runE_bind]
  have h0 := readVaruint_faults fin s x
  cases h : readVaruint.runE fin s with
  | ok z q =>
    obtain ⟨l, e⟩ := z
    rw [h] at h0
    cases e with
    | none =>
      obtain ⟨p, rfl, hp⟩ := varuint_ok.1 h
      refine (hl l q).trans ⟨fun h1 => .inr ⟨_, p, q, hp, rfl, h1⟩, ?_⟩
      rintro (h1 | ⟨n, p', q', hp', e, h1⟩)
      · exact (Out.faults_ok x (h0.2 h1.1)).elim
      · obtain ⟨l', hl', e'⟩ := varuint_run (fin := fin) hp' q'
        rw [← e, h] at e'
        cases e'
        rw [hl']
        exact h1
    | some e =>
      have h1 := (faults_finish (d := pure (AV.nil, some e)) (ext := t.isExtension) (fin := fin) (s := q) (x := x)).trans (and_congr_left fun _ => (Out.faults_err e x).trans ((Out.faults_err e x).symm.trans h0))
      refine h1.trans ⟨.inl, ?_⟩
      rintro (h1 | ⟨n, p', q', hp', e, h1⟩)
      · exact h1
      · obtain ⟨l', hl', e'⟩ := varuint_run (fin := fin) hp' q'
        rw [← e, h] at e'
        cases e'
  | panic w => exact (leb_error ((readVaruint_faults fin s .panic).1 (by rw [h]; exact ⟨w, rfl⟩))).elim fun _ h => nomatch h
  | diverge => exact (leb_error ((readVaruint_faults fin s .endless).1 h)).elim fun _ h => nomatch h
end

/-! ### What the decoder does is in the relations -/

variable {a : Abi} {ts : Types} (hr : Ready a ts)

section
variable {rec : Bytes → Dec (AV × Option Err)} (hrec : ∀ n t, ts.get n = some t → ∀ s v r, ((rec n).runE fin s = .ok (v, none) r → Gives a fin n s v r) ∧
  ((rec n).runE fin s = .ok (v, some .eof) r → StopsIn a fin n s v ∧ r = []))
  (hbad : ∀ n t, ts.get n = some t → ∀ s x, x ≠ .endless → ((rec n).runE fin s).Faults x → FailsIn a fin n s x)
include hrec hbad

theorem struct_fails (fs : List AbiField) (hf : ∀ f ∈ fs, ∃ u, ts.get f.type = some u) (m : List (Bytes × AV)) (s : Bytes) (x : Failure) (hx : x ≠ .endless)
    (h : ((decodeStruct rec (fieldPairs fs) m).runE fin s).Faults x) : FailsMembers a fin fs s x := by
  induction fs generalizing m s with
  | nil => exact (Out.faults_ok x h).elim
  | cons f fs ih =>
    obtain ⟨u, hu⟩ := hf f List.mem_cons_self
    rcases struct_step.1 h with h | ⟨v, q, h1, h2⟩
    · exact .here (hbad _ u hu _ _ hx h)
    · exact .later ((hrec _ u hu _ _ _).1 h1) (ih (fun g hg => hf g (List.mem_cons_of_mem _ hg)) _ _ h2)

include hr
theorem inner_fails {n : Bytes} {t : Resolved} (hn : ts.get n = some t) (s : Bytes) (x : Failure) (hx : x ≠ .endless) (h : ((decodeInner ts rec t).runE fin s).Faults x) :
    FailsInner a fin t.baseName s x := by
  rcases table_cases hr hn with ⟨ty, hd⟩ | ⟨f, fs, hd⟩ | ⟨vr, hd⟩ | hd | ⟨d, hd, hd'⟩
  · obtain ⟨_, u, hu⟩ := table_alias hr hn hd
    rw [inner_alias hr hn hd] at h
    exact .alias hd (hbad _ u hu _ _ hx h)
  · have h3 := (table_struct hr hn hd).2.2
    rw [inner_struct hr hn hd] at h
    exact .struct hd (struct_fails hrec hbad (f :: fs) h3 [] s x hx h)
  · have h4 := (table_variant hr hn hd).2.2.2
    rw [inner_variant hr hn hd] at h
    rcases (faults_step (p := readVaruint) (f := fun z => match z.2 with
      | some e => pure (.nil, some e)
      | none => choose rec vr.types z.1) (fun _ _ => ⟨_, rfl⟩)).1 h with h | ⟨l, q, h1, h2⟩
    · exact .index hd ((readVaruint_faults _ _ _).1 h)
    · obtain ⟨p, rfl, hp⟩ := varuint_ok.1 h1
      rcases choose_step.1 h2 with ⟨h3, ⟨h5, rfl⟩ | ⟨h5, rfl⟩⟩ | ⟨t', ht', h5⟩
      · exact .noMember hd hp h3 h5
      · exact .negative hd hp h3 h5
      · obtain ⟨u, hu⟩ := h4 t' (List.mem_of_getElem? ht')
        exact .chosen hd ht' hp (hbad _ u hu _ _ hx h5)
  · rw [inner_builtin hr hn hd] at h
    exact .builtin hd ((builtin_faults _ _ _ _).1 h)
  · rw [inner_hollow hr hn hd hd'] at h
    exact .hollow hd hd' ((builtin_faults _ _ _ _).1 h)

theorem items_fails {n : Bytes} {t : Resolved} (hn : ts.get n = some t) (k : Nat) (s : Bytes) (x : Failure) (hx : x ≠ .endless)
    (h : ((decEach (fun _ => decodeInner ts rec t) (List.replicate k AV.nil)).runE fin s).Faults x) : FailsItems a fin t.baseName k s x := by
  induction k generalizing s with
  | zero => exact (Out.faults_ok x h).elim
  | succ k ih =>
    rcases each_step.1 h with h | ⟨v, q, h1, h2⟩
    · exact .here (inner_fails hr hrec hbad hn _ _ hx h)
    · exact .later ((inner_ends hr hrec hn _ _ _).1 h1) (ih _ h2)

theorem body_fails {n : Bytes} {t : Resolved} (hn : ts.get n = some t) (s : Bytes) (x : Failure) (hx : x ≠ .endless) (h : ((decodeBody ts rec t).runE fin s).Faults x) :
    FailsBody a fin t.baseName t.isArray t.isExtension s x := by
  cases ha : t.isArray with
  | true =>
    rcases (many_step ha).1 h with h | ⟨k, p, q, hp, rfl, ⟨h', rfl⟩ | ⟨h1, h2, h3⟩⟩
    · exact .count h.1 h.2
    · exact .large hp h'
    · exact .element hp h1 h2 (items_fails hr hrec hbad hn k q x hx h3)
  | false =>
    have h := (one_step ha).1 h
    exact .one (inner_fails hr hrec hbad hn s x hx h.1) h.2
end

include hr in
theorem type_step {n : Bytes} {t : Resolved} (hn : ts.get n = some t) (k : Nat) : ((decodeTypeF ts (k + 1) n).runE fin s).Faults x ↔
    (t.isOptional = true ∧ (Torn 1 fin s x ∨ ∃ p q, s = p :: q ∧ p ≠ 0 ∧ ((decodeBody ts (decodeTypeF ts k) t).runE fin q).Faults x)) ∨
    (t.isOptional = false ∧ ((decodeBody ts (decodeTypeF ts k) t).runE fin s).Faults x) := by
  have hs := (hr n t hn).1.2.1
  cases ho : t.isOptional with
  | false =>
    rw [ho] at hs
    rw [plain_run hr hs hn]
    simp
  | true =>
    simp only [true_and, Bool.true_eq_false, false_and, or_false]
    unfold decodeTypeF
    rw [hn]
    show ((if t.isOptional = true then _ else _ : Dec (AV × Option Err)).runE fin s).Faults x ↔ _
    rw [if_pos ho]
    refine Iff.trans (faults_step ?he) ?_
    case he => exact fun _ _ => ⟨_, rfl⟩
    refine or_congr (readBool_faults _ _ _) ⟨?_, ?_⟩
    · rintro ⟨v, q, h1, h2⟩
      obtain ⟨w, rfl, c, rfl, rfl⟩ := (readBool_exactly _ _ _ _).1 h1
      dsimp only at h2
      split at h2
      · rename_i hc
        exact ⟨c, q, rfl, by simpa using hc, h2⟩
      · exact (Out.faults_ok x h2).elim
    · rintro ⟨p, q, rfl, hp, h⟩
      exact ⟨true, q, (readBool_exactly fin (p :: q) true q).2 ⟨[p], rfl, p, rfl, by simp [hp]⟩, h⟩

include hr in
theorem type_fails : ∀ (k : Nat) (n : Bytes) (t : Resolved), ts.get n = some t → ∀ s x, x ≠ .endless → ((decodeTypeF ts k n).runE fin s).Faults x → FailsIn a fin n s x := by
  intro k
  induction k with
  | zero => exact fun n t _ s x hx h => (hx ((Out.faults_diverge x).1 h)).elim
  | succ k ih =>
    intro n t hn s x hx h
    have hs := (hr n t hn).1.2.1
    rcases (type_step hr hn k).1 h with ⟨ho, h | ⟨p, q, rfl, hp, h⟩⟩ | ⟨ho, h⟩
    · rw [ho] at hs
      exact .mark hs h
    · rw [ho] at hs
      exact .present hs hp (body_fails hr (type_ends hr k) ih hn _ _ hx h)
    · rw [ho] at hs
      exact .plain hs (body_fails hr (type_ends hr k) ih hn _ _ hx h)

/-! ### What is in the relations the decoder does -/

/-- A failure with enough stack -/
abbrev Falls {α : Type} (fin : Err) (p : Nat → Dec (α × Option Err)) (s : Bytes) (x : Failure) : Prop := ∃ N, ∀ k, N ≤ k → ((p k).runE fin s).Faults x

section
include hr

mutual
theorem fails_run {n s : Bytes} {x : Failure} : (h : FailsIn a fin n s x) → (t : Resolved) → ts.get n = some t → Falls fin (fun k => decodeTypeF ts k n) s x
  | .mark hs h, t, ht => ⟨1, fun k hk => match k, hk with
      | k + 1, _ => (type_step hr ht k).2 (.inl ⟨(spelled_unique hs (hr n t ht).1.2.1).2.2.2.symm, .inl h⟩)⟩
  | .present hs hp hb, t, ht =>
    have ⟨N, h⟩ := failsBody_run hb n t ht (spelled_unique hs (hr n t ht).1.2.1)
    ⟨N + 1, fun k hk => match k, hk with
      | k + 1, hk => (type_step hr ht k).2 (.inl ⟨(spelled_unique hs (hr n t ht).1.2.1).2.2.2.symm, .inr ⟨_, _, rfl, hp, h k (by omega)⟩⟩)⟩
  | .plain hs hb, t, ht =>
    have ⟨N, h⟩ := failsBody_run hb n t ht (spelled_unique hs (hr n t ht).1.2.1)
    ⟨N + 1, fun k hk => match k, hk with
      | k + 1, hk => (type_step hr ht k).2 (.inr ⟨(spelled_unique hs (hr n t ht).1.2.1).2.2.2.symm, h k (by omega)⟩)⟩
theorem failsBody_run {b : Bytes} {arr ext opt : Bool} {s : Bytes} {x : Failure} : (h : FailsBody a fin b arr ext s x) → (n : Bytes) → (t : Resolved) → ts.get n = some t →
    (b = t.baseName ∧ arr = t.isArray ∧ ext = t.isExtension ∧ opt = t.isOptional) → Falls fin (fun k => decodeBody ts (decodeTypeF ts k) t) s x
  | .one hi hx, n, t, ht, hb =>
    have ⟨N, h⟩ := failsInner_run hi n t ht hb.1
    ⟨N, fun k hk => (one_step hb.2.1.symm).2 ⟨h k hk, hb.2.2.1 ▸ hx⟩⟩
  | .count h hx, n, t, ht, hb => ⟨0, fun k _ => (many_step hb.2.1.symm).2 (.inl ⟨h, hb.2.2.1 ▸ hx⟩)⟩
  | .large hp h, n, t, ht, hb => ⟨0, fun k _ => (many_step hb.2.1.symm).2 (.inr ⟨_, _, _, hp, rfl, .inl ⟨h, rfl⟩⟩)⟩
  | .element h1 h2 h3 hi, n, t, ht, hb =>
    have ⟨N, h⟩ := failsItems_run hi n t ht hb.1
    ⟨N, fun k hk => (many_step hb.2.1.symm).2 (.inr ⟨_, _, _, h1, rfl, .inr ⟨h2, h3, h k hk⟩⟩)⟩
theorem failsItems_run {b : Bytes} {m : Nat} {s : Bytes} {x : Failure} : (h : FailsItems a fin b m s x) → (n : Bytes) → (t : Resolved) → ts.get n = some t → b = t.baseName →
    Falls fin (fun k => decEach (fun _ => decodeInner ts (decodeTypeF ts k) t) (List.replicate m AV.nil)) s x
  | .here hi, n, t, ht, hb =>
    have ⟨N, h⟩ := failsInner_run hi n t ht hb
    ⟨N, fun k hk => each_step.2 (.inl (h k hk))⟩
  | .later hi his, n, t, ht, hb =>
    have ⟨N, h⟩ := givesInner_run hr hi n t ht hb
    have ⟨M, h'⟩ := failsItems_run his n t ht hb
    ⟨N + M, fun k hk => each_step.2 (.inr ⟨_, _, h k (by omega), h' k (by omega)⟩)⟩
theorem failsInner_run {b s : Bytes} {x : Failure} : (h : FailsInner a fin b s x) → (n : Bytes) → (t : Resolved) → ts.get n = some t → b = t.baseName →
    Falls fin (fun k => decodeInner ts (decodeTypeF ts k) t) s x
  | .alias ha h, n, t, ht, hb =>
    have ⟨_, hu⟩ := (table_alias hr ht (hb ▸ ha)).2
    have ⟨N, h⟩ := fails_run h _ hu
    ⟨N, fun k hk => by dsimp only; rw [inner_alias hr ht (hb ▸ ha)]; exact h k hk⟩
  | .struct hf h, n, t, ht, hb =>
    have hk := (table_struct hr ht (hb ▸ hf)).2.2
    have ⟨N, h⟩ := failsMembers_run h hk
    ⟨N, fun k hk => by dsimp only; rw [inner_struct hr ht (hb ▸ hf)]; exact h k hk _⟩
  | .index hv h, n, t, ht, hb => ⟨0, fun k _ => by
      dsimp only
      rw [inner_variant hr ht (hb ▸ hv)]
      refine (faults_step ?he).2 (.inl ((readVaruint_faults _ _ _).2 h))
      exact fun _ _ => ⟨_, rfl⟩⟩
  | .noMember (s := s) hv hp h1 h2, n, t, ht, hb => ⟨0, fun k _ => by
      dsimp only
      obtain ⟨l, hl, hl'⟩ := varuint_run (fin := fin) hp s
      subst hl
      rw [inner_variant hr ht (hb ▸ hv), ends_bind hl']
      exact choose_step.2 (.inl ⟨h1, .inl ⟨h2, rfl⟩⟩)⟩
  | .negative (s := s) hv hp h1 h2, n, t, ht, hb => ⟨0, fun k _ => by
      dsimp only
      obtain ⟨l, hl, hl'⟩ := varuint_run (fin := fin) hp s
      subst hl
      rw [inner_variant hr ht (hb ▸ hv), ends_bind hl']
      exact choose_step.2 (.inl ⟨h1, .inr ⟨h2, rfl⟩⟩)⟩
  | .chosen (s := s) hv hi hp h, n, t, ht, hb =>
    have ⟨_, hu⟩ := (table_variant hr ht (hb ▸ hv)).2.2.2 _ (List.mem_of_getElem? hi)
    have ⟨N, h⟩ := fails_run h _ hu
    ⟨N, fun k hk => by
      dsimp only
      obtain ⟨l, hl, hl'⟩ := varuint_run (fin := fin) hp s
      subst hl
      rw [inner_variant hr ht (hb ▸ hv), ends_bind hl']
      exact choose_step.2 (.inr ⟨_, hi, h k hk⟩)⟩
  | .builtin hd h, n, t, ht, hb => ⟨0, fun k _ => by
      dsimp only
      rw [inner_builtin hr ht (hb ▸ hd)]
      exact (builtin_faults _ _ _ _).2 (hb ▸ h)⟩
  | .hollow hs hf' h, n, t, ht, hb => ⟨0, fun k _ => by
      dsimp only
      rw [inner_hollow hr ht (hb ▸ hs) (hb ▸ hf')]
      exact (builtin_faults _ _ _ _).2 (hb ▸ h)⟩
theorem failsMembers_run {fs : List AbiField} {s : Bytes} {x : Failure} : (h : FailsMembers a fin fs s x) → (∀ f ∈ fs, ∃ u, ts.get f.type = some u) →
    ∃ N, ∀ k, N ≤ k → ∀ m, ((decodeStruct (decodeTypeF ts k) (fieldPairs fs) m).runE fin s).Faults x
  | .here h, hf =>
    have ⟨_, hu⟩ := hf _ List.mem_cons_self
    have ⟨N, h⟩ := fails_run h _ hu
    ⟨N, fun k hk m => struct_step.2 (.inl (h k hk))⟩
  | .later h hs, hf =>
    have ⟨_, hu⟩ := hf _ List.mem_cons_self
    have ⟨N, h⟩ := gives_run hr h _ hu
    have ⟨M, h'⟩ := failsMembers_run hs fun g hg => hf g (List.mem_cons_of_mem _ hg)
    ⟨N + M, fun k hk m => struct_step.2 (.inr ⟨_, _, h k (by omega), h' k (by omega) _⟩)⟩
end
end

/-! ### More stack -/

/-- The second does what the first does, unless that does not end. -/
def Rises {α : Type} (p p' : Dec α) : Prop := ∀ fin s, p.runE fin s = .diverge ∨ p'.runE fin s = p.runE fin s

theorem Rises.refl {α : Type} (p : Dec α) : Rises p p := fun _ _ => .inr rfl
theorem Rises.bind {α β : Type} {p p' : Dec β} {f f' : β → Dec α} (hp : Rises p p') (hf : ∀ b, Rises (f b) (f' b)) : Rises (p >>= f) (p' >>= f') := by
  intro fin s
  rw [Dec.runE_bind, Dec.runE_bind]
  rcases hp fin s with h | h
  · rw [h]; exact .inl rfl
  · rw [h]
    cases p.runE fin s with
    | ok b m => exact hf b fin m
    | panic w => exact .inr rfl
    | diverge => exact .inl rfl

section
variable {rec rec' : Bytes → Dec (AV × Option Err)} (hrec : ∀ n, Rises (rec n) (rec' n))
include hrec

theorem struct_rises : ∀ (fs : List (Bytes × Bytes)) (m : List (Bytes × AV)), Rises (decodeStruct rec fs m) (decodeStruct rec' fs m)
  | [], _ => .refl _
  | f :: fs, m => (hrec f.2).bind fun z => match z with
    | (_, some _) => .refl _
    | (_, none) => struct_rises fs _

theorem inner_rises (t : Resolved) : Rises (decodeInner ts rec t) (decodeInner ts rec' t) := by
  unfold decodeInner
  split
  · exact hrec _
  · dsimp only
    split
    · exact struct_rises hrec _ _
    · split
      · refine (Rises.refl _).bind fun z => ?_
        obtain ⟨l, e⟩ := z
        cases e with
        | some e => exact .refl _
        | none =>
          dsimp only
          split
          · exact .refl _
          · split
            · exact .refl _
            · exact (hrec _).bind fun z => .refl _
      · exact .refl _

omit hrec in
theorem each_rises {d d' : Dec (AV × Option Err)} (h : Rises d d') : ∀ xs : List AV, Rises (decEach (fun _ => d) xs) (decEach (fun _ => d') xs)
  | [] => .refl _
  | _ :: xs => h.bind fun z => match z with
    | (_, some _) => .refl _
    | (_, none) => (each_rises h xs).bind fun _ => .refl _

theorem body_rises (t : Resolved) : Rises (decodeBody ts rec t) (decodeBody ts rec' t) := by
  unfold decodeBody
  dsimp only
  split
  · refine (Rises.refl _).bind fun z => ?_
    obtain ⟨l, e⟩ := z
    cases e with
    | some e => exact .refl _
    | none =>
      dsimp only
      unfold makeSlice
      split
      · exact .refl _
      · split
        · exact .refl _
        · exact (each_rises (inner_rises hrec t) _).bind fun _ => .refl _
  · exact (inner_rises hrec t).bind fun _ => .refl _
end

theorem type_rises : ∀ (k : Nat) (n : Bytes), Rises (decodeTypeF ts k n) (decodeTypeF ts (k + 1) n)
  | 0, _ => fun _ _ => .inl rfl
  | k + 1, n => by
    rw [decodeTypeF, decodeTypeF]
    split
    · exact .refl _
    · split
      · refine (Rises.refl _).bind fun z => ?_
        obtain ⟨l, e⟩ := z
        cases e with
        | some e => exact .refl _
        | none =>
          dsimp only
          split
          · exact body_rises (type_rises k) _
          · exact .refl _
      · exact body_rises (type_rises k) _

/-- Each does what the one before does. -/
def Rising {α : Type} (p : Nat → Dec α) : Prop := ∀ k, Rises (p k) (p (k + 1))

theorem Rising.le {α : Type} {p : Nat → Dec α} (h : Rising p) {k k' : Nat} (hk : k ≤ k') : Rises (p k) (p k') := by
  induction hk with
  | refl => exact .refl _
  | step _ ih =>
    intro fin s
    rcases ih fin s with h1 | h1
    · exact .inl h1
    · rcases h _ fin s with h2 | h2
      · exact .inl (h1.symm.trans h2)
      · exact .inr (h2.trans h1)

/-- A result with enough stack is the result with any stack, unless the stack overflows. -/
theorem Rising.or {α : Type} {p : Nat → Dec α} (h : Rising p) {o : Out α} (ho : ∃ N, ∀ k, N ≤ k → (p k).runE fin s = o) (k : Nat) : (p k).runE fin s = .diverge ∨ (p k).runE fin s = o := by
  obtain ⟨N, ho⟩ := ho
  refine (h.le (Nat.le_add_right k N) fin s).imp_right fun h => ?_
  rw [← h]
  exact ho _ (by omega)

/-! ### Recursion -/

section
include hr

theorem member_goes {k : Nat} {m q : Bytes} {fs : List AbiField} (h : CallsMember a fin fs s m q) (hf : ∀ f ∈ fs, ∃ u, ts.get f.type = some u) :
    (∃ u, ts.get m = some u) ∧ ((decodeTypeF ts k m).runE fin q = .diverge → ∀ vs, (decodeStruct (decodeTypeF ts k) (fieldPairs fs) vs).runE fin s = .diverge) := by
  induction h with
  | here => exact ⟨hf _ List.mem_cons_self, fun hd vs => (struct_step (x := .endless)).2 (.inl hd)⟩
  | later h _ ih =>
    obtain ⟨u, hu⟩ := hf _ List.mem_cons_self
    obtain ⟨h1, h2⟩ := ih fun g hg => hf g (List.mem_cons_of_mem _ hg)
    refine ⟨h1, fun hd vs => ?_⟩
    rcases Rising.or (fun k => type_rises k _) (gives_run hr h u hu) k with h3 | h3
    · exact (struct_step (x := .endless)).2 (.inl h3)
    · exact (struct_step (x := .endless)).2 (.inr ⟨_, _, h3, h2 hd _⟩)

theorem inner_goes {k : Nat} {n m q : Bytes} {t : Resolved} (hn : ts.get n = some t) (h : CallsInner a fin t.baseName s m q) :
    (∃ u, ts.get m = some u) ∧ ((decodeTypeF ts k m).runE fin q = .diverge → (decodeInner ts (decodeTypeF ts k) t).runE fin s = .diverge) := by
  cases h with
  | «alias» h =>
    rw [inner_alias hr hn h]
    exact ⟨(table_alias hr hn h).2, id⟩
  | struct h h' =>
    rw [inner_struct hr hn h]
    obtain ⟨h1, h2⟩ := member_goes hr (k := k) h' (table_struct hr hn h).2.2
    exact ⟨h1, fun hd => h2 hd _⟩
  | variant h hi hp =>
    refine ⟨(table_variant hr hn h).2.2.2 _ (List.mem_of_getElem? hi), fun hd => ?_⟩
    obtain ⟨l, hl, hl'⟩ := varuint_run (fin := fin) hp q
    subst hl
    rw [inner_variant hr hn h, ends_bind hl']
    exact (choose_step (x := .endless)).2 (.inr ⟨_, hi, hd⟩)

theorem item_goes {k i : Nat} {n m q b : Bytes} {t : Resolved} (hn : ts.get n = some t) (hb : b = t.baseName) (h : CallsItem a fin b i s m q) :
    (∃ u, ts.get m = some u) ∧ ((decodeTypeF ts k m).runE fin q = .diverge → (decEach (fun _ => decodeInner ts (decodeTypeF ts k) t) (List.replicate i AV.nil)).runE fin s = .diverge) := by
  induction h with
  | here h =>
    subst hb
    obtain ⟨h1, h2⟩ := inner_goes hr (k := k) hn h
    exact ⟨h1, fun hd => (each_step (x := .endless)).2 (.inl (h2 hd))⟩
  | later h _ ih =>
    obtain ⟨h1, h2⟩ := ih
    refine ⟨h1, fun hd => ?_⟩
    rcases Rising.or (fun k => inner_rises (type_rises k) t) (givesInner_run hr h n t hn hb) k with h3 | h3
    · exact (each_step (x := .endless)).2 (.inl h3)
    · exact (each_step (x := .endless)).2 (.inr ⟨_, _, h3, h2 hd⟩)

theorem body_goes {k : Nat} {n m q : Bytes} {t : Resolved} (hn : ts.get n = some t) {arr : Bool} (ha : arr = t.isArray) (h : CallsBody a fin t.baseName arr s m q) :
    (∃ u, ts.get m = some u) ∧ ((decodeTypeF ts k m).runE fin q = .diverge → (decodeBody ts (decodeTypeF ts k) t).runE fin s = .diverge) := by
  cases h with
  | one h =>
    obtain ⟨h1, h2⟩ := inner_goes hr (k := k) hn h
    exact ⟨h1, fun hd => (one_step (x := .endless) ha.symm).2 ⟨h2 hd, fun h => nomatch h.2⟩⟩
  | many hp h1 h2 h =>
    obtain ⟨h3, h4⟩ := item_goes hr (k := k) hn rfl h
    exact ⟨h3, fun hd => (many_step (x := .endless) ha.symm).2 (.inr ⟨_, _, _, hp, rfl, .inr ⟨h1, h2, h4 hd⟩⟩)⟩

theorem type_goes {k : Nat} {n m q : Bytes} {t : Resolved} (hn : ts.get n = some t) (h : CallsIn a fin n s m q) :
    (∃ u, ts.get m = some u) ∧ ((decodeTypeF ts k m).runE fin q = .diverge → (decodeTypeF ts (k + 1) n).runE fin s = .diverge) := by
  cases h with
  | present hs hp h =>
    obtain ⟨rfl, ha, _, ho⟩ := spelled_unique hs (hr n t hn).1.2.1
    obtain ⟨h1, h2⟩ := body_goes hr (k := k) hn ha h
    exact ⟨h1, fun hd => (type_step (x := .endless) hr hn k).2 (.inl ⟨ho.symm, .inr ⟨_, _, rfl, hp, h2 hd⟩⟩)⟩
  | plain hs h =>
    obtain ⟨rfl, ha, _, ho⟩ := spelled_unique hs (hr n t hn).1.2.1
    obtain ⟨h1, h2⟩ := body_goes hr (k := k) hn ha h
    exact ⟨h1, fun hd => (type_step (x := .endless) hr hn k).2 (.inr ⟨ho.symm, h2 hd⟩)⟩

/-- Recursion without end does not end. -/
theorem endless_diverges {n : Bytes} {t : Resolved} (hn : ts.get n = some t) (h : Endless a fin n s) (k : Nat) : (decodeTypeF ts k n).runE fin s = .diverge := by
  obtain ⟨S, h0, hS⟩ := h
  suffices ∀ k n s, S n s → (∃ t, ts.get n = some t) → (decodeTypeF ts k n).runE fin s = .diverge from this k n s h0 ⟨t, hn⟩
  intro k
  induction k with
  | zero => exact fun _ _ _ _ => rfl
  | succ k ih =>
    rintro n s h ⟨t, hn⟩
    obtain ⟨m, q, hc, hm⟩ := hS n s h
    obtain ⟨h1, h2⟩ := type_goes hr (k := k) hn hc
    exact h2 (ih m q hm h1)
end

/-- What does not end has a first part that does not end. -/
theorem endless_step {p : Nat → Dec (β × Option Err)} {f : Nat → β × Option Err → Dec (α × Option Err)} (hp : Rising p) (hf : ∀ v, Rising fun k => f k (v, none))
    (he : ∀ k b e, ∃ a, f k (b, some e) = pure (a, some e)) (h : ∀ k, (p k >>= f k).runE fin s = .diverge) :
    (∀ k, (p k).runE fin s = .diverge) ∨ ∃ v m, (∃ N, (p N).runE fin s = .ok (v, none) m) ∧ ∀ k, (f k (v, none)).runE fin m = .diverge := by
  by_cases hd : ∀ k, (p k).runE fin s = .diverge
  · exact .inl hd
  · obtain ⟨N, hN⟩ := not_forall.1 hd
    have hge : ∀ k, N ≤ k → (p k).runE fin s = (p N).runE fin s := fun k hk => (hp.le hk fin s).resolve_left hN
    rcases (faults_step (x := .endless) (he N)).1 (h N) with h1 | ⟨v, m, h1, h2⟩
    · exact (hN h1).elim
    · refine .inr ⟨v, m, ⟨N, h1⟩, fun k => ?_⟩
      rcases (hf v).le (Nat.le_add_right k N) fin m with h3 | h3
      · exact h3
      · have h4 := h (k + N)
        rw [ends_bind ((hge (k + N) (by omega)).trans h1)] at h4
        exact h3.symm.trans h4

section
include hr

theorem member_calls {fs : List AbiField} (hf : ∀ f ∈ fs, ∃ u, ts.get f.type = some u) (vs : List (Bytes × AV)) (s : Bytes)
    (h : ∀ k, (decodeStruct (decodeTypeF ts k) (fieldPairs fs) vs).runE fin s = .diverge) : ∃ m q, CallsMember a fin fs s m q ∧ (∃ u, ts.get m = some u) ∧ ∀ k, (decodeTypeF ts k m).runE fin q = .diverge := by
  induction fs generalizing vs s with
  | nil => exact nomatch h 0
  | cons f fs ih =>
    obtain ⟨u, hu⟩ := hf f List.mem_cons_self
    rcases endless_step (p := fun k => decodeTypeF ts k f.type) (f := fun k z => match z.2 with
      | some e => pure (.nil, some e)
      | none => decodeStruct (decodeTypeF ts k) (fieldPairs fs) (mapPut vs f.name z.1)) (fun k => type_rises k _) (fun _ k => struct_rises (type_rises k) _ _) (fun _ _ _ => ⟨_, rfl⟩) h with h | ⟨v, q, ⟨N, h1⟩, h2⟩
    · exact ⟨_, _, .here, ⟨u, hu⟩, h⟩
    · obtain ⟨m, q', h3, h4⟩ := ih (fun g hg => hf g (List.mem_cons_of_mem _ hg)) _ _ h2
      exact ⟨m, q', .later ((type_ends hr N _ u hu _ _ _).1 h1) h3, h4⟩

theorem inner_calls {n : Bytes} {t : Resolved} (hn : ts.get n = some t) (h : ∀ k, (decodeInner ts (decodeTypeF ts k) t).runE fin s = .diverge) :
    ∃ m q, CallsInner a fin t.baseName s m q ∧ (∃ u, ts.get m = some u) ∧ ∀ k, (decodeTypeF ts k m).runE fin q = .diverge := by
  rcases table_cases hr hn with ⟨ty, hd⟩ | ⟨f, fs, hd⟩ | ⟨vr, hd⟩ | hd | ⟨d, hd, hd'⟩
  · simp only [inner_alias hr hn hd] at h
    exact ⟨_, _, .alias hd, (table_alias hr hn hd).2, h⟩
  · simp only [inner_struct hr hn hd] at h
    obtain ⟨m, q, h1, h2⟩ := member_calls hr (table_struct hr hn hd).2.2 _ _ h
    exact ⟨m, q, .struct hd h1, h2⟩
  · simp only [inner_variant hr hn hd] at h
    have hc : ∀ l, Rising fun k => choose (decodeTypeF ts k) vr.types l := by
      intro l k
      unfold choose
      dsimp only
      split
      · exact .refl _
      · split
        · exact .refl _
        · exact (type_rises k _).bind fun _ => .refl _
    rcases endless_step (p := fun _ => readVaruint) (f := fun k z => match z.2 with
      | some e => pure (.nil, some e)
      | none => choose (decodeTypeF ts k) vr.types z.1) (fun _ => .refl _) hc (fun _ _ _ => ⟨_, rfl⟩) h with h1 | ⟨l, q, ⟨N, h1⟩, h2⟩
    · exact (leb_error ((readVaruint_faults fin s .endless).1 (h1 0))).elim fun _ h => nomatch h
    · obtain ⟨p, rfl, hp⟩ := varuint_ok.1 h1
      rcases (choose_step (x := .endless)).1 (h2 0) with ⟨_, ⟨_, h3⟩ | ⟨_, h3⟩⟩ | ⟨t', ht', _⟩
      · cases h3
      · cases h3
      · refine ⟨_, _, .variant hd ht' hp, (table_variant hr hn hd).2.2.2 _ (List.mem_of_getElem? ht'), fun k => ?_⟩
        rcases (choose_step (x := .endless)).1 (h2 k) with ⟨_, ⟨_, h3⟩ | ⟨_, h3⟩⟩ | ⟨t'', ht'', h3⟩
        · cases h3
        · cases h3
        · cases ht'.symm.trans ht''
          exact h3
  · simp only [inner_builtin hr hn hd] at h
    exact (((decodeBuiltin_safe t.baseName).run fin s).1 (h 0)).elim
  · simp only [inner_hollow hr hn hd hd'] at h
    exact (((decodeBuiltin_safe t.baseName).run fin s).1 (h 0)).elim

theorem item_calls {n : Bytes} {t : Resolved} (hn : ts.get n = some t) (i : Nat) (s : Bytes) (h : ∀ k, (decEach (fun _ => decodeInner ts (decodeTypeF ts k) t) (List.replicate i AV.nil)).runE fin s = .diverge) :
    ∃ m q, CallsItem a fin t.baseName i s m q ∧ (∃ u, ts.get m = some u) ∧ ∀ k, (decodeTypeF ts k m).runE fin q = .diverge := by
  induction i generalizing s with
  | zero => exact nomatch h 0
  | succ i ih =>
    rcases endless_step (p := fun k => decodeInner ts (decodeTypeF ts k) t) (f := fun k z => match z.2 with
      | some e => pure (z.1 :: List.replicate i AV.nil, some e)
      | none => decEach (fun _ => decodeInner ts (decodeTypeF ts k) t) (List.replicate i AV.nil) >>= fun y => pure (z.1 :: y.1, y.2)) (fun k => inner_rises (type_rises k) _)
      (fun _ k => (each_rises (inner_rises (type_rises k) _) _).bind fun _ => .refl _) (fun _ _ _ => ⟨_, rfl⟩) h with h | ⟨v, q, ⟨N, h1⟩, h2⟩
    · obtain ⟨m, q, h1, h2⟩ := inner_calls hr hn h
      exact ⟨m, q, .here h1, h2⟩
    · obtain ⟨m, q', h3, h4⟩ := ih q fun k => (faults_step_map (x := .endless) (f := fun y => pure (v :: y.1, y.2)) (fun _ => ⟨_, rfl⟩) (fun _ _ => ⟨_, rfl⟩)).1 (h2 k)
      exact ⟨m, q', .later ((inner_ends hr (type_ends hr N) hn _ _ _).1 h1) h3, h4⟩

theorem body_calls {n : Bytes} {t : Resolved} (hn : ts.get n = some t) (h : ∀ k, (decodeBody ts (decodeTypeF ts k) t).runE fin s = .diverge) :
    ∃ m q, CallsBody a fin t.baseName t.isArray s m q ∧ (∃ u, ts.get m = some u) ∧ ∀ k, (decodeTypeF ts k m).runE fin q = .diverge := by
  cases ha : t.isArray with
  | false =>
    obtain ⟨m, q, h1, h2⟩ := inner_calls hr hn fun k => ((one_step (x := .endless) ha).1 (h k)).1
    exact ⟨m, q, .one h1, h2⟩
  | true =>
    rcases (many_step (x := .endless) ha).1 (h 0) with ⟨h1, _⟩ | ⟨i, p, q, hp, rfl, ⟨_, h1⟩ | ⟨h1, h2, _⟩⟩
    · exact (leb_error h1).elim fun _ h => nomatch h
    · cases h1
    · obtain ⟨m, q', h3, h4⟩ := item_calls hr hn i q fun k => by
        rcases (many_step (x := .endless) ha).1 (h k) with ⟨h1, _⟩ | ⟨i', p', q', hp', e, ⟨_, h1⟩ | ⟨_, _, h3⟩⟩
        · exact (leb_error h1).elim fun _ h => nomatch h
        · cases h1
        · obtain ⟨l, hl, hl'⟩ := varuint_run (fin := fin) hp q
          obtain ⟨l', hm, hm'⟩ := varuint_run (fin := fin) hp' q'
          rw [e] at hl'
          cases hl'.symm.trans hm'
          cases hl.symm.trans hm
          exact h3
      exact ⟨m, q', .many hp h1 h2 h3, h4⟩

theorem type_calls {n : Bytes} {t : Resolved} (hn : ts.get n = some t) (h : ∀ k, (decodeTypeF ts k n).runE fin s = .diverge) :
    ∃ m q, CallsIn a fin n s m q ∧ (∃ u, ts.get m = some u) ∧ ∀ k, (decodeTypeF ts k m).runE fin q = .diverge := by
  have hs := (hr n t hn).1.2.1
  rcases (type_step (x := .endless) hr hn 0).1 (h 1) with ⟨ho, h1 | ⟨p, q, rfl, hp, h1⟩⟩ | ⟨ho, h1⟩
  · cases h1.2
  · rw [ho] at hs
    obtain ⟨m, q', h2, h3⟩ := body_calls hr (fin := fin) (s := q) hn fun k => by
      rw [← opt_run hr hs hn hp]
      exact h (k + 1)
    exact ⟨m, q', .present hs hp h2, h3⟩
  · rw [ho] at hs
    obtain ⟨m, q', h2, h3⟩ := body_calls hr (fin := fin) (s := s) hn fun k => by
      rw [← plain_run hr hs hn]
      exact h (k + 1)
    exact ⟨m, q', .plain hs h2, h3⟩

theorem diverges_endless {n : Bytes} {t : Resolved} (hn : ts.get n = some t) (h : ∀ k, (decodeTypeF ts k n).runE fin s = .diverge) : Endless a fin n s := by
  refine ⟨fun n s => (∃ t, ts.get n = some t) ∧ ∀ k, (decodeTypeF ts k n).runE fin s = .diverge, ⟨⟨t, hn⟩, h⟩, ?_⟩
  rintro n s ⟨⟨t, hn⟩, h⟩
  obtain ⟨m, q, h1, h2⟩ := type_calls hr hn h
  exact ⟨m, q, h1, h2⟩
end

/-! ### Messages -/

/-- The error is one of those of the reader and of `Abi.Decode`. -/
def Tells (F : Err → Bytes → Failure → Prop) : Prop := ∀ (fin : Err) (s : Bytes) (x : Failure), F fin s x → x.Told fin

theorem told_msg {msg : String} (h : msg ∈ abiDecodeMessages) : Failure.Told fin (.err (.msg msg)) := .inr (.inr ⟨msg, h, rfl⟩)

theorem torn_told (n : Nat) : Tells (Torn n) := by
  rintro fin s _ ⟨_, rfl⟩
  split
  · rename_i h
    exact .inr (.inl ⟨h.2, rfl⟩)
  · exact .inl rfl

theorem leb_told : Tells LebFault := by
  rintro fin s x (⟨_, _, rfl⟩ | ⟨_, _, _, _, rfl⟩)
  · split
    · rename_i h
      exact .inr (.inl ⟨h.2.1, rfl⟩)
    · exact .inl rfl
  · exact told_msg (by decide)

theorem Tells.after {F : Err → Bytes → Failure → Prop} (h : Tells F) (n : Nat) : Tells (After n F) := by
  rintro fin _ x ⟨_, s, _, rfl, h1⟩
  exact h _ _ _ h1

theorem Tells.or {F K : Err → Bytes → Failure → Prop} (h : Tells F) (h' : Tells K) : Tells fun fin s x => F fin s x ∨ K fin s x := fun fin s x h1 => h1.elim (h fin s x) (h' fin s x)

theorem sized_told : Tells SizedFault := by
  rintro fin s x (h | ⟨n, _, s', _, rfl, ⟨_, rfl⟩ | ⟨_, _, rfl⟩ | ⟨_, h⟩⟩)
  · exact leb_told _ _ _ h
  · exact told_msg (by decide)
  · exact trivial
  · exact torn_told n _ _ _ h

theorem basic_told (b : Basic) : Tells b.Failure := by
  cases b
  case string => exact sized_told
  case int => exact leb_told
  case uint => exact leb_told
  all_goals exact torn_told _

theorem key_told : Tells KeyFault := by
  rintro fin s x (h | ⟨_, _, _, ⟨_, h⟩ | ⟨_, rfl⟩ | ⟨_, h | h | ⟨rfl, _⟩⟩⟩)
  · exact torn_told _ _ _ _ h
  · exact torn_told _ _ _ _ h
  · exact told_msg (by decide)
  · exact torn_told _ _ _ _ h
  · exact sized_told.after _ _ _ _ h
  · exact trivial

theorem sig_told : Tells SigFault := by
  rintro fin s x (h | ⟨_, _, _, ⟨_, h⟩ | ⟨_, rfl⟩ | ⟨_, h | h | ⟨_, _, _, _, _, _, _, h | ⟨rfl, _⟩⟩⟩⟩)
  · exact torn_told _ _ _ _ h
  · exact torn_told _ _ _ _ h
  · exact told_msg (by decide)
  · exact torn_told _ _ _ _ h
  · exact sized_told.after _ _ _ _ h
  · exact sized_told _ _ _ h
  · exact trivial

theorem chain_told {b : Bytes} {c : ChainTy} (h : (b, c) ∈ abiChains) : Tells c.Failure := by
  have h0 : ∀ e ∈ abiChains, e.2 ≠ .action ∧ e.2 ≠ .permissionLevel ∧ e.2 ≠ .transaction ∧ e.2 ≠ .transactionExtension ∧ e.2 ≠ .transactionHeader := by decide +kernel
  obtain ⟨h1, h2, h3, h4, h5⟩ := h0 _ h
  cases c
  case action => exact (h1 rfl).elim
  case permissionLevel => exact (h2 rfl).elim
  case transaction => exact (h3 rfl).elim
  case transactionExtension => exact (h4 rfl).elim
  case transactionHeader => exact (h5 rfl).elim
  case blob => exact sized_told
  case bytes => exact sized_told
  case publicKey => exact key_told
  case signature => exact sig_told
  case asset => exact (torn_told 8).or ((torn_told 8).after 8)
  case int128 => exact (torn_told 8).or ((torn_told 8).after 8)
  case uint128 => exact (torn_told 8).or ((torn_told 8).after 8)
  case extendedAsset => exact (torn_told 8).or (((torn_told 8).after 8).or ((torn_told 8).after 16))
  all_goals exact torn_told _

theorem as_told {b : Bytes} (h : FailsAs fin b s x) : x.Told fin := by
  cases h with
  | basic _ h => exact basic_told _ _ _ _ h
  | chain h' h => exact chain_told h' _ _ _ h
  | bytes h => exact sized_told _ _ _ h
  | unknown _ _ _ => exact told_msg (by decide)

mutual
theorem fails_told {n s : Bytes} {x : Failure} : FailsIn a fin n s x → x.Told fin
  | .mark _ h => torn_told 1 _ _ _ h
  | .present _ _ hb => failsBody_told hb
  | .plain _ hb => failsBody_told hb
theorem failsBody_told {b : Bytes} {arr ext : Bool} {s : Bytes} {x : Failure} : FailsBody a fin b arr ext s x → x.Told fin
  | .one hi _ => failsInner_told hi
  | .count h _ => leb_told _ _ _ h
  | .large _ _ => trivial
  | .element _ _ _ hi => failsItems_told hi
theorem failsItems_told {b : Bytes} {m : Nat} {s : Bytes} {x : Failure} : FailsItems a fin b m s x → x.Told fin
  | .here hi => failsInner_told hi
  | .later _ his => failsItems_told his
theorem failsInner_told {b s : Bytes} {x : Failure} : FailsInner a fin b s x → x.Told fin
  | .alias _ h => fails_told h
  | .struct _ h => failsMembers_told h
  | .index _ h => leb_told _ _ _ h
  | .noMember _ _ _ _ => told_msg (by decide)
  | .negative _ _ _ _ => trivial
  | .chosen _ _ _ h => fails_told h
  | .builtin _ h => as_told h
  | .hollow _ _ h => as_told h
theorem failsMembers_told {fs : List AbiField} {s : Bytes} {x : Failure} : FailsMembers a fin fs s x → x.Told fin
  | .here h => fails_told h
  | .later _ hs => failsMembers_told hs
end

end Verif
