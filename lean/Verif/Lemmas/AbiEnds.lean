import Verif.Lemmas.Cuts
/-! Abi.Decode on inputs that may end early: the decoder and `Gives`, `StopsIn`. -/
namespace Verif
open Dec

variable {a : Abi} {ts : Types} (hr : Ready a ts) {fin : Err}

section
variable {rec : Bytes → Dec (AV × Option Err)} {n : Bytes} {t : Resolved} (hn : ts.get n = some t)
include hr hn

theorem inner_alias {ty : AbiType} (h : IsAlias a t.baseName ty) : decodeInner ts rec t = rec ty.type := by
  unfold decodeInner
  rw [(table_alias hr hn h).1]

theorem inner_struct {f : AbiField} {fs : List AbiField} (h : FieldsOf a t.baseName (f :: fs)) : decodeInner ts rec t = decodeStruct rec (fieldPairs (f :: fs)) [] := by
  obtain ⟨h1, h2, h3⟩ := table_struct hr hn h
  unfold decodeInner
  rw [h1, h2]
  simp only
  rw [if_pos (by simp [fieldPairs])]

/-- The choice of a type of a variant -/
def choose (rec : Bytes → Dec (AV × Option Err)) (types : List Bytes) (idx : UInt64) : Dec (AV × Option Err) :=
  if goInt idx ≥ types.length then pure (.nil, some errAbiVariantIndex)
  else
    match types[idx.toNat]? with
    | none => .panic "index out of range"
    | some tv => do
      let (v, err) ← rec tv
      match err with
      | some e => pure (.nil, some e)
      | none => pure (.slice [.basic .string tv, v], none)

theorem inner_variant {vr : AbiVariant} (h : IsVariant a t.baseName vr) : decodeInner ts rec t = (do
    let (idx, err) ← readVaruint
    match err with
    | some e => pure (.nil, some e)
    | none => choose rec vr.types idx) := by
  obtain ⟨h1, h2, h3, h4⟩ := table_variant hr hn h
  unfold decodeInner
  rw [h1, h2, h3]
  rfl

theorem inner_builtin (h : NotDefined a t.baseName) : decodeInner ts rec t = decodeBuiltin t.baseName := by
  obtain ⟨h1, h2, h3⟩ := table_notDefined hr hn h
  unfold decodeInner
  rw [h1, h2, h3]
  rfl

theorem inner_hollow {s : AbiStruct} (h : IsStruct a t.baseName s) (h' : ∀ fs, FieldsOf a t.baseName fs → fs = []) : decodeInner ts rec t = decodeBuiltin t.baseName := by
  obtain ⟨h1, h2, h3⟩ := table_hollow hr hn h h'
  unfold decodeInner
  rw [h1, h2, h3]
  rfl
end

/-! ### What the decoder does is in the relations -/

section
variable {rec : Bytes → Dec (AV × Option Err)} (hrec : ∀ n t, ts.get n = some t → ∀ s v r, ((rec n).runE fin s = .ok (v, none) r → Gives a fin n s v r) ∧
  ((rec n).runE fin s = .ok (v, some .eof) r → StopsIn a fin n s v ∧ r = []))
include hrec

theorem struct_ends (fs : List AbiField) (hf : ∀ f ∈ fs, ∃ u, ts.get f.type = some u) (m : List (Bytes × AV)) (s : Bytes) (v : AV) (r : Bytes) :
    ((decodeStruct rec (fieldPairs fs) m).runE fin s = .ok (v, none) r → ∃ xs, GivesMembers a fin fs s xs r ∧ v = .map (stores xs m)) ∧
    ((decodeStruct rec (fieldPairs fs) m).runE fin s = .ok (v, some .eof) r → StopsMembers a fin fs s ∧ v = .nil ∧ r = []) := by
  induction fs generalizing m s with
  | nil =>
    constructor
    · intro h; cases h; exact ⟨[], .nil, rfl⟩
    · intro h; cases h
  | cons f fs ih =>
    obtain ⟨u, hu⟩ := hf f List.mem_cons_self
    have ih := ih fun g hg => hf g (List.mem_cons_of_mem _ hg)
    constructor
    · intro h
      obtain ⟨⟨x, o⟩, q, h1, h2⟩ := Dec.runE_bind_ok (show (rec f.type >>= _).runE fin s = _ from h)
      cases o with
      | some e => cases h2
      | none =>
        obtain ⟨xs, h3, rfl⟩ := (ih (mapPut m f.name x) q).1 h2
        exact ⟨_, .cons ((hrec _ u hu _ _ _).1 h1) h3, by rw [mapPut_eq]; rfl⟩
    · intro h
      obtain ⟨⟨x, o⟩, q, h1, h2⟩ := Dec.runE_bind_ok (show (rec f.type >>= _).runE fin s = _ from h)
      cases o with
      | some e =>
        cases h2
        obtain ⟨h3, rfl⟩ := (hrec _ u hu _ _ _).2 h1
        exact ⟨.here h3, rfl, rfl⟩
      | none =>
        obtain ⟨h3, rfl, rfl⟩ := (ih (mapPut m f.name x) q).2 h2
        exact ⟨.later ((hrec _ u hu _ _ _).1 h1) h3, rfl, rfl⟩

include hr in
theorem inner_ends {n : Bytes} {t : Resolved} (hn : ts.get n = some t) (s : Bytes) (v : AV) (r : Bytes) :
    ((decodeInner ts rec t).runE fin s = .ok (v, none) r → GivesInner a fin t.baseName s v r) ∧
    ((decodeInner ts rec t).runE fin s = .ok (v, some .eof) r → StopsInner a fin t.baseName s v ∧ r = []) := by
  rcases table_cases hr hn with ⟨ty, h⟩ | ⟨f, fs, h⟩ | ⟨vr, h⟩ | h | ⟨d, h, h'⟩
  · obtain ⟨_, u, hu⟩ := table_alias hr hn h
    rw [inner_alias hr hn h]
    exact ⟨fun g => .alias h ((hrec _ u hu _ _ _).1 g), fun g => ⟨.alias h ((hrec _ u hu _ _ _).2 g).1, ((hrec _ u hu _ _ _).2 g).2⟩⟩
  · have h3 := (table_struct hr hn h).2.2
    rw [inner_struct hr hn h]
    obtain ⟨k1, k2⟩ := struct_ends hrec (f :: fs) h3 [] s v r
    constructor
    · intro g
      obtain ⟨xs, g1, rfl⟩ := k1 g
      exact .struct h g1 ((gathers_iff _ _).2 rfl)
    · intro g
      obtain ⟨g1, rfl, g2⟩ := k2 g
      exact ⟨.struct h g1, g2⟩
  · have h4 := (table_variant hr hn h).2.2.2
    rw [inner_variant hr hn h]
    constructor
    · intro g
      obtain ⟨⟨l, o⟩, q, h1, h2⟩ := Dec.runE_bind_ok g
      cases o with
      | some e => cases h2
      | none =>
        obtain ⟨p, rfl, hp⟩ := (readVaruint_exactly _ _ _ _).1 h1
        simp only [choose] at h2
        split at h2
        · cases h2
        · split at h2
          · cases h2
          · rename_i tv hq
            obtain ⟨u, hu⟩ := h4 tv (List.mem_of_getElem? hq)
            obtain ⟨⟨x, o⟩, q', h5, h6⟩ := Dec.runE_bind_ok h2
            cases o with
            | some e => cases h6
            | none =>
              cases h6
              exact .variant h hq hp ((hrec _ u hu _ _ _).1 h5)
    · intro g
      obtain ⟨⟨l, o⟩, q, h1, h2⟩ := Dec.runE_bind_ok g
      cases o with
      | some e =>
        cases h2
        obtain ⟨h3, ⟨_, h4⟩, h5⟩ := (readVaruint_cut _ _ _ _).1 h1
        exact ⟨.index h3 h h4, h5⟩
      | none =>
        obtain ⟨p, rfl, hp⟩ := (readVaruint_exactly _ _ _ _).1 h1
        simp only [choose] at h2
        split at h2
        · cases h2
        · split at h2
          · cases h2
          · rename_i tv hq
            obtain ⟨u, hu⟩ := h4 tv (List.mem_of_getElem? hq)
            obtain ⟨⟨x, o⟩, q', h5, h6⟩ := Dec.runE_bind_ok h2
            cases o with
            | some e =>
              cases h6
              obtain ⟨h7, h8⟩ := (hrec _ u hu _ _ _).2 h5
              exact ⟨.chosen h hq hp h7, h8⟩
            | none => cases h6
  · rw [inner_builtin hr hn h]
    constructor
    · intro g
      obtain ⟨w, rfl, hw⟩ := (builtin_exactly _ _ _ _ _).1 g
      exact .builtin h hw
    · intro g
      obtain ⟨h1, h2, h3⟩ := (builtin_cut _ _ _ _ _).1 g
      exact ⟨.builtin h1 h h2, h3⟩
  · rw [inner_hollow hr hn h h']
    constructor
    · intro g
      obtain ⟨w, rfl, hw⟩ := (builtin_exactly _ _ _ _ _).1 g
      exact .hollow h h' hw
    · intro g
      obtain ⟨h1, h2, h3⟩ := (builtin_cut _ _ _ _ _).1 g
      exact ⟨.hollow h1 h h' h2, h3⟩

include hr in
theorem items_ends {n : Bytes} {t : Resolved} (hn : ts.get n = some t) (k : Nat) (s : Bytes) (xs : List AV) (r : Bytes) :
    ((decEach (fun _ => decodeInner ts rec t) (List.replicate k AV.nil)).runE fin s = .ok (xs, none) r → GivesItems a fin t.baseName s xs r ∧ xs.length = k) ∧
    ((decEach (fun _ => decodeInner ts rec t) (List.replicate k AV.nil)).runE fin s = .ok (xs, some .eof) r → StopsItems a fin t.baseName k s ∧ r = []) := by
  induction k generalizing s xs with
  | zero =>
    constructor
    · intro h; cases h; exact ⟨.nil, rfl⟩
    · intro h; cases h
  | succ k ih =>
    rw [List.replicate_succ]
    constructor
    · intro h
      obtain ⟨⟨x, o⟩, q, h1, h2⟩ := Dec.runE_bind_ok (show (decodeInner ts rec t >>= _).runE fin s = _ from h)
      cases o with
      | some e => cases h2
      | none =>
        obtain ⟨⟨ys, o⟩, q', h3, h4⟩ := Dec.runE_bind_ok h2
        cases h4
        obtain ⟨g1, g2⟩ := (ih q ys).1 h3
        exact ⟨.cons ((inner_ends hr hrec hn _ _ _).1 h1) g1, by simp [g2]⟩
    · intro h
      obtain ⟨⟨x, o⟩, q, h1, h2⟩ := Dec.runE_bind_ok (show (decodeInner ts rec t >>= _).runE fin s = _ from h)
      cases o with
      | some e =>
        cases h2
        obtain ⟨g1, g2⟩ := (inner_ends hr hrec hn _ _ _).2 h1
        exact ⟨.here g1, g2⟩
      | none =>
        obtain ⟨⟨ys, o⟩, q', h3, h4⟩ := Dec.runE_bind_ok h2
        cases h4
        obtain ⟨g1, g2⟩ := (ih q ys).2 h3
        exact ⟨.later ((inner_ends hr hrec hn _ _ _).1 h1) g1, g2⟩

include hr in
theorem body_ends {n : Bytes} {t : Resolved} (hn : ts.get n = some t) (s : Bytes) (v : AV) (r : Bytes) :
    ((decodeBody ts rec t).runE fin s = .ok (v, none) r → GivesBody a fin t.baseName t.isArray t.isExtension s v r) ∧
    ((decodeBody ts rec t).runE fin s = .ok (v, some .eof) r → StopsBody a fin t.baseName t.isArray t.isExtension s v ∧ r = []) := by
  unfold decodeBody
  dsimp only
  cases ha : t.isArray with
  | true =>
    rw [if_pos rfl]
    have slice : ∀ (l : UInt64) q e, (makeSlice AV.nil 16 l fun va => do
        let (va, err) ← decEach (fun _ => decodeInner ts rec t) va
        match err with
        | some e => pure (AV.nil, some e)
        | none => pure (AV.slice va, if (none : Option Err) = some .eof ∧ t.isExtension = true then none else none)).runE fin q = .ok (v, e) r →
        goInt l ≥ 0 ∧ l.toNat * 16 ≤ maxAlloc ∧ ∃ xs, (decEach (fun _ => decodeInner ts rec t) (List.replicate l.toNat AV.nil)).runE fin q = .ok (xs, e) r ∧ v = if e = none then .slice xs else .nil := by
      intro l q e h
      unfold makeSlice at h
      split at h
      · cases h
      · split at h
        · cases h
        · obtain ⟨⟨xs, o⟩, q', h3, h4⟩ := Dec.runE_bind_ok h
          refine ⟨by omega, by omega, xs, ?_⟩
          cases o with
          | some e' => cases h4; exact ⟨h3, by simp⟩
          | none =>
            simp only [Pure.pure, Dec.runE, Out.ok.injEq, Prod.mk.injEq] at h4
            obtain ⟨⟨h4, h5⟩, rfl⟩ := h4
            have : e = none := by rw [← h5]; simp
            subst this
            exact ⟨h3, by rw [if_pos rfl, ← h4]⟩
    constructor
    · intro h
      obtain ⟨⟨l, o⟩, q, h1, h2⟩ := Dec.runE_bind_ok h
      cases o with
      | some e =>
        simp only [Pure.pure, Dec.runE, Out.ok.injEq, Prod.mk.injEq] at h2
        obtain ⟨⟨rfl, h2⟩, rfl⟩ := h2
        split at h2
        · rename_i he
          obtain ⟨he, hx⟩ := he
          cases he
          obtain ⟨h3, ⟨_, h4⟩, rfl⟩ := (readVaruint_cut _ _ _ _).1 h1
          rw [hx]
          exact .goneMany h3 h4
        · cases h2
      | none =>
        obtain ⟨p, rfl, hp⟩ := (readVaruint_exactly _ _ _ _).1 h1
        obtain ⟨h3, h4, xs, h5, rfl⟩ := slice l q none h2
        obtain ⟨h6, h7⟩ := (items_ends hr hrec hn _ _ _ _).1 h5
        rw [if_pos rfl]
        have := ((goInt_eq l (goInt l).toNat).1 (by omega)).2
        have := ((goInt_eq l (goInt l).toNat).1 (by omega)).1
        exact .many (h7 ▸ hp) (by omega) (by omega) h6
    · intro h
      obtain ⟨⟨l, o⟩, q, h1, h2⟩ := Dec.runE_bind_ok h
      cases o with
      | some e =>
        simp only [Pure.pure, Dec.runE, Out.ok.injEq, Prod.mk.injEq] at h2
        obtain ⟨⟨rfl, h2⟩, rfl⟩ := h2
        split at h2
        · cases h2
        · rename_i he
          cases h2
          obtain ⟨h3, ⟨_, h4⟩, rfl⟩ := (readVaruint_cut _ _ _ _).1 h1
          have : t.isExtension = false := by simpa using he
          rw [this]
          exact ⟨.count h3 h4, rfl⟩
      | none =>
        obtain ⟨p, rfl, hp⟩ := (readVaruint_exactly _ _ _ _).1 h1
        obtain ⟨h3, h4, xs, h5, rfl⟩ := slice l q _ h2
        obtain ⟨h6, h7⟩ := (items_ends hr hrec hn _ _ _ _).2 h5
        rw [if_neg (by simp)]
        have := ((goInt_eq l (goInt l).toNat).1 (by omega)).2
        have := ((goInt_eq l (goInt l).toNat).1 (by omega)).1
        exact ⟨.element hp (by omega) h4 h6, h7⟩
  | false =>
    rw [if_neg (by simp)]
    constructor
    · intro h
      obtain ⟨⟨x, o⟩, q, h1, h2⟩ := Dec.runE_bind_ok h
      simp only [Pure.pure, Dec.runE, Out.ok.injEq, Prod.mk.injEq] at h2
      obtain ⟨⟨rfl, h2⟩, rfl⟩ := h2
      split at h2
      · rename_i he
        obtain ⟨rfl, hx⟩ := he
        obtain ⟨h3, rfl⟩ := (inner_ends hr hrec hn _ _ _).2 h1
        rw [hx]
        exact .goneOne h3
      · subst h2
        exact .one ((inner_ends hr hrec hn _ _ _).1 h1)
    · intro h
      obtain ⟨⟨x, o⟩, q, h1, h2⟩ := Dec.runE_bind_ok h
      simp only [Pure.pure, Dec.runE, Out.ok.injEq, Prod.mk.injEq] at h2
      obtain ⟨⟨rfl, h2⟩, rfl⟩ := h2
      split at h2
      · cases h2
      · rename_i he
        subst h2
        have : t.isExtension = false := by simpa using he
        rw [this]
        exact ⟨.one ((inner_ends hr hrec hn _ _ _).2 h1).1, ((inner_ends hr hrec hn _ _ _).2 h1).2⟩
end

include hr in
theorem type_ends : ∀ (k : Nat) (n : Bytes) (t : Resolved), ts.get n = some t → ∀ s v r,
    ((decodeTypeF ts k n).runE fin s = .ok (v, none) r → Gives a fin n s v r) ∧ ((decodeTypeF ts k n).runE fin s = .ok (v, some .eof) r → StopsIn a fin n s v ∧ r = []) := by
  intro k
  induction k with
  | zero =>
    intro n t _ s v r
    constructor <;> intro h <;> cases h
  | succ k ih =>
    intro n t hn s v r
    have hs := (hr n t hn).1.2.1
    unfold decodeTypeF
    rw [hn]
    show ((if t.isOptional = true then _ else _ : Dec (AV × Option Err)).runE fin s = _ → _) ∧ ((if t.isOptional = true then _ else _ : Dec (AV × Option Err)).runE fin s = _ → _)
    cases ho : t.isOptional with
    | true =>
      rw [ho] at hs
      rw [if_pos rfl]
      constructor
      · intro h
        obtain ⟨⟨p, o⟩, q, h1, h2⟩ := Dec.runE_bind_ok h
        cases o with
        | some e => cases h2
        | none =>
          obtain ⟨w, rfl, c, rfl, rfl⟩ := (readBool_exactly _ _ _ _).1 h1
          dsimp only at h2
          split at h2
          · rename_i hc
            exact .present hs (by simpa using hc) ((body_ends hr ih hn _ _ _).1 h2)
          · rename_i hc
            cases h2
            obtain rfl : c = 0 := by simpa using hc
            exact .absent hs
      · intro h
        obtain ⟨⟨p, o⟩, q, h1, h2⟩ := Dec.runE_bind_ok h
        cases o with
        | some e =>
          cases h2
          obtain ⟨h3, ⟨_, rfl⟩, h5⟩ := (readBool_cut _ _ _ _).1 h1
          exact ⟨.mark h3 hs, h5⟩
        | none =>
          obtain ⟨w, rfl, c, rfl, rfl⟩ := (readBool_exactly _ _ _ _).1 h1
          dsimp only at h2
          split at h2
          · rename_i hc
            obtain ⟨g1, g2⟩ := (body_ends hr ih hn _ _ _).2 h2
            exact ⟨.present hs (by simpa using hc) g1, g2⟩
          · cases h2
    | false =>
      rw [ho] at hs
      rw [if_neg (by simp)]
      exact ⟨fun h => .plain hs ((body_ends hr ih hn _ _ _).1 h), fun h => ⟨.plain hs ((body_ends hr ih hn _ _ _).2 h).1, ((body_ends hr ih hn _ _ _).2 h).2⟩⟩

/-! ### What is in the relations the decoder does -/

theorem slice_run {α β : Type} {z : α} {l : UInt64} {m : Nat} (hl : l.toNat = m) (h1 : m < 2 ^ 63) (h2 : m * 16 ≤ maxAlloc) (k : List α → Dec β) : makeSlice z 16 l k = k (List.replicate m z) := by
  subst hl
  have := (goInt_eq l l.toNat).2 ⟨rfl, h1⟩
  unfold makeSlice
  rw [if_neg (by omega), if_neg (by omega)]

include hr in
theorem opt_run {n b : Bytes} {arr ext : Bool} {t : Resolved} {p : UInt8} (hs : Spelled n b arr ext true) (hn : ts.get n = some t) (hp : p ≠ 0) (k : Nat) (s : Bytes) :
    (decodeTypeF ts (k + 1) n).runE fin (p :: s) = (decodeBody ts (decodeTypeF ts k) t).runE fin s := by
  have ho := (spelled_unique hs (hr n t hn).1.2.1).2.2.2
  unfold decodeTypeF
  rw [hn]
  show (if t.isOptional = true then _ else _ : Dec (AV × Option Err)).runE fin (p :: s) = _
  rw [if_pos ho.symm, Dec.runE_bind, (readBool_exactly fin (p :: s) true s).2 ⟨[p], rfl, p, rfl, by simp [hp]⟩]
  rfl

include hr in
theorem plain_run {n b : Bytes} {arr ext : Bool} {t : Resolved} (hs : Spelled n b arr ext false) (hn : ts.get n = some t) (k : Nat) :
    decodeTypeF ts (k + 1) n = decodeBody ts (decodeTypeF ts k) t := by
  have ho := (spelled_unique hs (hr n t hn).1.2.1).2.2.2
  rw [show decodeTypeF ts (k + 1) n = match ts.get n with
    | none => .panic "nil pointer dereference"
    | some t => if t.isOptional then (do
        let (present, err) ← readBool
        match err with
        | some e => pure (.nil, some e)
        | none => if present then decodeBody ts (decodeTypeF ts k) t else pure (.nil, none))
      else decodeBody ts (decodeTypeF ts k) t from rfl, hn]
  exact if_neg (by simp [← ho])

/-- Run a decoder and go on. -/
theorem ends_bind {α β : Type} {p : Dec α} {f : α → Dec β} {s m : Bytes} {x : α} (h : p.runE fin s = .ok x m) : (p >>= f).runE fin s = (f x).runE fin m := by
  rw [Dec.runE_bind, h]
  rfl

theorem varuint_run {p : Bytes} {i : Nat} (h : AnyLeb p i) (s : Bytes) : ∃ l : UInt64, l.toNat = i ∧ readVaruint.runE fin (p ++ s) = .ok (l, none) s := by
  have hn := h.2.2.2
  have e : i.toUInt64.toNat = i := by simp; omega
  exact ⟨i.toUInt64, e, (readVaruint_exactly fin _ _ _).2 ⟨p, rfl, by dsimp only; rw [e]; exact h⟩⟩

theorem choose_run {rec : Bytes → Dec (AV × Option Err)} {types : List Bytes} {l : UInt64} {i : Nat} {tv : Bytes} (hl : l.toNat = i) (hi : types[i]? = some tv) :
    choose rec types l = rec tv >>= fun z => match z.2 with
      | some e => pure (.nil, some e)
      | none => pure (.slice [.basic .string tv, z.1], none) := by
  subst hl
  unfold choose
  have h1 := (List.getElem?_eq_some_iff.1 hi).1
  rw [if_neg (fun h => by
    have := ((goInt_eq l (goInt l).toNat).1 (by omega)).1
    omega), hi]

/-- A result with enough stack -/
abbrev Goes (fin : Err) (p : Nat → Dec (AV × Option Err)) (s : Bytes) (v : AV) (e : Option Err) (r : Bytes) : Prop := ∃ N, ∀ k, N ≤ k → (p k).runE fin s = .ok (v, e) r

/-- What decodeBody does with the result of a part that is not an array -/
theorem one_run {t : Resolved} (ha : t.isArray = false) {rec : Bytes → Dec (AV × Option Err)} {s : Bytes} {v : AV} {e : Option Err} {r : Bytes} (h : (decodeInner ts rec t).runE fin s = .ok (v, e) r) :
    (decodeBody ts rec t).runE fin s = .ok (v, if e = some .eof ∧ t.isExtension = true then none else e) r := by
  unfold decodeBody
  dsimp only
  rw [if_neg (by simp [ha]), ends_bind h]
  rfl

theorem cut_run {t : Resolved} (ha : t.isArray = true) {rec : Bytes → Dec (AV × Option Err)} {s : Bytes} (hf : fin = .eof) (h : CutLeb s) :
    (decodeBody ts rec t).runE fin s = .ok (.nil, if t.isExtension = true then none else some .eof) [] := by
  unfold decodeBody
  dsimp only
  rw [if_pos ha, ends_bind ((readVaruint_cut fin s 0 []).2 ⟨hf, ⟨rfl, h⟩, rfl⟩)]
  simp only [Pure.pure, Dec.runE, true_and]

theorem many_run {t : Resolved} (ha : t.isArray = true) {rec : Bytes → Dec (AV × Option Err)} {p s r : Bytes} {m : Nat} (h1 : AnyLeb p m) (h2 : m < 2 ^ 63) (h3 : m * 16 ≤ maxAlloc) {xs : List AV} {e : Option Err}
    (h : (decEach (fun _ => decodeInner ts rec t) (List.replicate m AV.nil)).runE fin s = .ok (xs, e) r) :
    (decodeBody ts rec t).runE fin (p ++ s) = .ok (if e = none then .slice xs else .nil, e) r := by
  unfold decodeBody
  dsimp only
  obtain ⟨l, hl, hl'⟩ := varuint_run (fin := fin) h1 s
  rw [if_pos ha, ends_bind hl']
  dsimp only
  rw [slice_run hl h2 h3, ends_bind h]
  cases e with
  | none => simp [Pure.pure, Dec.runE]
  | some e => simp [Pure.pure, Dec.runE]

section
include hr
set_option maxRecDepth 2000

mutual
theorem gives_run {n s : Bytes} {v : AV} {r : Bytes} : (h : Gives a fin n s v r) → (t : Resolved) → ts.get n = some t → Goes fin (fun k => decodeTypeF ts k n) s v none r
  | .absent hs, t, ht => ⟨1, fun k hk => match k, hk with
      | k + 1, _ => by
        have ho := (spelled_unique hs (hr n t ht).1.2.1).2.2.2
        dsimp only
        unfold decodeTypeF
        rw [ht]
        show (if t.isOptional = true then _ else _ : Dec (AV × Option Err)).runE fin _ = _
        rw [if_pos ho.symm, ends_bind ((readBool_exactly fin (0 :: r) false r).2 ⟨[0], rfl, 0, rfl, by simp⟩)]
        rfl⟩
  | .present hs hp hb, t, ht =>
    have ⟨N, h⟩ := givesBody_run hb n t ht (spelled_unique hs (hr n t ht).1.2.1)
    ⟨N + 1, fun k hk => match k, hk with
      | k + 1, hk => by rw [opt_run hr hs ht hp]; exact h k (by omega)⟩
  | .plain hs hb, t, ht =>
    have ⟨N, h⟩ := givesBody_run hb n t ht (spelled_unique hs (hr n t ht).1.2.1)
    ⟨N + 1, fun k hk => match k, hk with
      | k + 1, hk => by dsimp only; rw [plain_run hr hs ht]; exact h k (by omega)⟩
theorem givesBody_run {b : Bytes} {arr ext opt : Bool} {s : Bytes} {v : AV} {r : Bytes} : (h : GivesBody a fin b arr ext s v r) → (n : Bytes) → (t : Resolved) → ts.get n = some t →
    (b = t.baseName ∧ arr = t.isArray ∧ ext = t.isExtension ∧ opt = t.isOptional) → Goes fin (fun k => decodeBody ts (decodeTypeF ts k) t) s v none r
  | .one hi, n, t, ht, hb =>
    have ⟨N, h⟩ := givesInner_run hi n t ht hb.1
    ⟨N, fun k hk => by rw [one_run hb.2.1.symm (h k hk)]; simp⟩
  | .many h1 h2 h3 hi, n, t, ht, hb =>
    have ⟨N, h⟩ := givesItems_run hi n t ht hb.1
    ⟨N, fun k hk => by rw [many_run hb.2.1.symm h1 h2 h3 (h k hk)]; rfl⟩
  | .goneOne hi, n, t, ht, hb =>
    have ⟨N, h⟩ := stopsInner_run hi n t ht hb.1
    ⟨N, fun k hk => by rw [one_run hb.2.1.symm (h k hk), if_pos ⟨rfl, hb.2.2.1.symm⟩]⟩
  | .goneMany hf hc, n, t, ht, hb => ⟨0, fun k _ => by rw [cut_run hb.2.1.symm hf hc, if_pos hb.2.2.1.symm]⟩
theorem givesItems_run {b s : Bytes} {xs : List AV} {r : Bytes} : (h : GivesItems a fin b s xs r) → (n : Bytes) → (t : Resolved) → ts.get n = some t → b = t.baseName →
    ∃ N, ∀ k, N ≤ k → (decEach (fun _ => decodeInner ts (decodeTypeF ts k) t) (List.replicate xs.length AV.nil)).runE fin s = .ok (xs, none) r
  | .nil, _, _, _, _ => ⟨0, fun _ _ => rfl⟩
  | .cons hi his, n, t, ht, hb =>
    have ⟨N, h⟩ := givesInner_run hi n t ht hb
    have ⟨M, h'⟩ := givesItems_run his n t ht hb
    ⟨N + M, fun k hk => by
      rw [List.length_cons, List.replicate_succ]
      show (decodeInner ts (decodeTypeF ts k) t >>= _).runE fin _ = _
      rw [ends_bind (h k (by omega))]
      dsimp only
      rw [ends_bind (h' k (by omega))]
      rfl⟩
theorem givesInner_run {b s : Bytes} {v : AV} {r : Bytes} : (h : GivesInner a fin b s v r) → (n : Bytes) → (t : Resolved) → ts.get n = some t → b = t.baseName →
    Goes fin (fun k => decodeInner ts (decodeTypeF ts k) t) s v none r
  | .alias ha h, n, t, ht, hb =>
    have ⟨_, hu⟩ := (table_alias hr ht (hb ▸ ha)).2
    have ⟨N, h⟩ := gives_run h _ hu
    ⟨N, fun k hk => by dsimp only; rw [inner_alias hr ht (hb ▸ ha)]; exact h k hk⟩
  | .struct hf h hg, n, t, ht, hb =>
    have hk := (table_struct hr ht (hb ▸ hf)).2.2
    have ⟨N, h⟩ := givesMembers_run h hk
    ⟨N, fun k hk => by dsimp only; rw [inner_struct hr ht (hb ▸ hf), h k hk, (gathers_iff _ _).1 hg]⟩
  | .variant (x := x) (s := s) hv hi hp h, n, t, ht, hb =>
    have ⟨_, hu⟩ := (table_variant hr ht (hb ▸ hv)).2.2.2 _ (List.mem_of_getElem? hi)
    have ⟨N, h⟩ := gives_run h _ hu
    ⟨N, fun k hk => by
      dsimp only
      obtain ⟨l, hl, hl'⟩ := varuint_run (fin := fin) hp s
      rw [inner_variant hr ht (hb ▸ hv), ends_bind hl']
      dsimp only
      rw [choose_run hl hi, ends_bind (h k hk)]
      rfl⟩
  | .builtin hd h, n, t, ht, hb => ⟨0, fun k _ => by
      dsimp only
      rw [inner_builtin hr ht (hb ▸ hd)]
      exact (builtin_exactly _ _ _ _ _).2 ⟨_, rfl, hb ▸ h⟩⟩
  | .hollow hs hf h, n, t, ht, hb => ⟨0, fun k _ => by
      dsimp only
      rw [inner_hollow hr ht (hb ▸ hs) (hb ▸ hf)]
      exact (builtin_exactly _ _ _ _ _).2 ⟨_, rfl, hb ▸ h⟩⟩
theorem givesMembers_run {fs : List AbiField} {s : Bytes} {xs : List (Bytes × AV)} {r : Bytes} : (h : GivesMembers a fin fs s xs r) → (∀ f ∈ fs, ∃ u, ts.get f.type = some u) →
    ∃ N, ∀ k, N ≤ k → ∀ m, (decodeStruct (decodeTypeF ts k) (fieldPairs fs) m).runE fin s = .ok (.map (stores xs m), none) r
  | .nil, _ => ⟨0, fun _ _ _ => rfl⟩
  | .cons (f := f) (x := x) h hs, hf =>
    have ⟨_, hu⟩ := hf _ List.mem_cons_self
    have ⟨N, h⟩ := gives_run h _ hu
    have ⟨M, h'⟩ := givesMembers_run hs fun g hg => hf g (List.mem_cons_of_mem _ hg)
    ⟨N + M, fun k hk m => by
      show (decodeTypeF ts k f.type >>= _).runE fin _ = _
      rw [ends_bind (h k (by omega))]
      dsimp only
      have := h' k (by omega) (mapPut m f.name x)
      rw [mapPut_eq] at this ⊢
      exact this⟩
theorem stops_run {n s : Bytes} {v : AV} : (h : StopsIn a fin n s v) → (t : Resolved) → ts.get n = some t → Goes fin (fun k => decodeTypeF ts k n) s v (some .eof) []
  | .mark hf hs, t, ht => ⟨1, fun k hk => match k, hk with
      | k + 1, _ => by
        have ho := (spelled_unique hs (hr n t ht).1.2.1).2.2.2
        dsimp only
        unfold decodeTypeF
        rw [ht]
        show (if t.isOptional = true then _ else _ : Dec (AV × Option Err)).runE fin _ = _
        rw [if_pos ho.symm, ends_bind ((readBool_cut fin [] false []).2 ⟨hf, ⟨rfl, rfl⟩, rfl⟩)]
        rfl⟩
  | .present hs hp hb, t, ht =>
    have ⟨N, h⟩ := stopsBody_run hb n t ht (spelled_unique hs (hr n t ht).1.2.1)
    ⟨N + 1, fun k hk => match k, hk with
      | k + 1, hk => by rw [opt_run hr hs ht hp]; exact h k (by omega)⟩
  | .plain hs hb, t, ht =>
    have ⟨N, h⟩ := stopsBody_run hb n t ht (spelled_unique hs (hr n t ht).1.2.1)
    ⟨N + 1, fun k hk => match k, hk with
      | k + 1, hk => by dsimp only; rw [plain_run hr hs ht]; exact h k (by omega)⟩
theorem stopsBody_run {b : Bytes} {arr ext opt : Bool} {s : Bytes} {v : AV} : (h : StopsBody a fin b arr ext s v) → (n : Bytes) → (t : Resolved) → ts.get n = some t →
    (b = t.baseName ∧ arr = t.isArray ∧ ext = t.isExtension ∧ opt = t.isOptional) → Goes fin (fun k => decodeBody ts (decodeTypeF ts k) t) s v (some .eof) []
  | .one hi, n, t, ht, hb =>
    have ⟨N, h⟩ := stopsInner_run hi n t ht hb.1
    ⟨N, fun k hk => by rw [one_run hb.2.1.symm (h k hk), if_neg (by simp [← hb.2.2.1])]⟩
  | .count hf hc, n, t, ht, hb => ⟨0, fun k _ => by rw [cut_run hb.2.1.symm hf hc, if_neg (by simp [← hb.2.2.1])]⟩
  | .element h1 h2 h3 hi, n, t, ht, hb =>
    have ⟨N, h⟩ := stopsItems_run hi n t ht hb.1
    ⟨N, fun k hk => by
      obtain ⟨xs, hx⟩ := h k hk
      rw [many_run hb.2.1.symm h1 h2 h3 hx, if_neg (by simp)]⟩
theorem stopsItems_run {b : Bytes} {m : Nat} {s : Bytes} : (h : StopsItems a fin b m s) → (n : Bytes) → (t : Resolved) → ts.get n = some t → b = t.baseName →
    ∃ N, ∀ k, N ≤ k → ∃ xs, (decEach (fun _ => decodeInner ts (decodeTypeF ts k) t) (List.replicate m AV.nil)).runE fin s = .ok (xs, some .eof) []
  | .here hi, n, t, ht, hb =>
    have ⟨N, h⟩ := stopsInner_run hi n t ht hb
    ⟨N, fun k hk => ⟨_, by
      rw [List.replicate_succ]
      show (decodeInner ts (decodeTypeF ts k) t >>= _).runE fin _ = _
      rw [ends_bind (h k hk)]
      rfl⟩⟩
  | .later (x := x) hi his, n, t, ht, hb =>
    have ⟨N, h⟩ := givesInner_run hi n t ht hb
    have ⟨M, h'⟩ := stopsItems_run his n t ht hb
    ⟨N + M, fun k hk => by
      obtain ⟨xs, hx⟩ := h' k (by omega)
      refine ⟨x :: xs, ?_⟩
      rw [List.replicate_succ]
      show (decodeInner ts (decodeTypeF ts k) t >>= _).runE fin _ = _
      rw [ends_bind (h k (by omega))]
      dsimp only
      rw [ends_bind hx]
      rfl⟩
theorem stopsInner_run {b s : Bytes} {v : AV} : (h : StopsInner a fin b s v) → (n : Bytes) → (t : Resolved) → ts.get n = some t → b = t.baseName →
    Goes fin (fun k => decodeInner ts (decodeTypeF ts k) t) s v (some .eof) []
  | .alias ha h, n, t, ht, hb =>
    have ⟨_, hu⟩ := (table_alias hr ht (hb ▸ ha)).2
    have ⟨N, h⟩ := stops_run h _ hu
    ⟨N, fun k hk => by dsimp only; rw [inner_alias hr ht (hb ▸ ha)]; exact h k hk⟩
  | .struct hf h, n, t, ht, hb =>
    have hk := (table_struct hr ht (hb ▸ hf)).2.2
    have ⟨N, h⟩ := stopsMembers_run h hk
    ⟨N, fun k hk => by dsimp only; rw [inner_struct hr ht (hb ▸ hf), h k hk]⟩
  | .index hf hv hc, n, t, ht, hb => ⟨0, fun k _ => by
      dsimp only
      rw [inner_variant hr ht (hb ▸ hv), ends_bind ((readVaruint_cut fin s 0 []).2 ⟨hf, ⟨rfl, hc⟩, rfl⟩)]
      rfl⟩
  | .chosen (x := x) (s := s) hv hi hp h, n, t, ht, hb =>
    have ⟨_, hu⟩ := (table_variant hr ht (hb ▸ hv)).2.2.2 _ (List.mem_of_getElem? hi)
    have ⟨N, h⟩ := stops_run h _ hu
    ⟨N, fun k hk => by
      dsimp only
      obtain ⟨l, hl, hl'⟩ := varuint_run (fin := fin) hp s
      rw [inner_variant hr ht (hb ▸ hv), ends_bind hl']
      dsimp only
      rw [choose_run hl hi, ends_bind (h k hk)]
      rfl⟩
  | .builtin hf hd h, n, t, ht, hb => ⟨0, fun k _ => by
      dsimp only
      rw [inner_builtin hr ht (hb ▸ hd)]
      exact (builtin_cut _ _ _ _ _).2 ⟨hf, hb ▸ h, rfl⟩⟩
  | .hollow hf hs hf' h, n, t, ht, hb => ⟨0, fun k _ => by
      dsimp only
      rw [inner_hollow hr ht (hb ▸ hs) (hb ▸ hf')]
      exact (builtin_cut _ _ _ _ _).2 ⟨hf, hb ▸ h, rfl⟩⟩
theorem stopsMembers_run {fs : List AbiField} {s : Bytes} : (h : StopsMembers a fin fs s) → (∀ f ∈ fs, ∃ u, ts.get f.type = some u) →
    ∃ N, ∀ k, N ≤ k → ∀ m, (decodeStruct (decodeTypeF ts k) (fieldPairs fs) m).runE fin s = .ok (.nil, some .eof) []
  | .here (f := f) h, hf =>
    have ⟨_, hu⟩ := hf _ List.mem_cons_self
    have ⟨N, h⟩ := stops_run h _ hu
    ⟨N, fun k hk m => by
      show (decodeTypeF ts k f.type >>= _).runE fin _ = _
      rw [ends_bind (h k (by omega))]
      rfl⟩
  | .later (f := f) (x := x) h hs, hf =>
    have ⟨_, hu⟩ := hf _ List.mem_cons_self
    have ⟨N, h⟩ := gives_run h _ hu
    have ⟨M, h'⟩ := stopsMembers_run hs fun g hg => hf g (List.mem_cons_of_mem _ hg)
    ⟨N + M, fun k hk m => by
      show (decodeTypeF ts k f.type >>= _).runE fin _ = _
      rw [ends_bind (h k (by omega))]
      exact h' k (by omega) _⟩
end
end
end Verif
