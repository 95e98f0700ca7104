import Verif.Spec.AbiTakes
import Verif.Lemmas.TakesReflect
import Verif.Lemmas.AbiBuiltin
/-! Exact acceptance of Abi.Decode. -/
namespace Verif
open Dec

/-! ### Builtin types -/

theorem decBasic_exactly {b : Bytes} {ty : Basic} {r : Dec (ty.Val × Option Err)} (h : r.Exactly ty.Takes) (h1 : (b, ty) ∈ abiBasics) (h2 : ∀ e ∈ abiBasics, e.1 = b → e.2 = ty)
    (h3 : ∀ e ∈ abiChains, e.1 ≠ b) (h4 : b ≠ asc "bytes") : (decBasic ty r).Exactly (TakenAs b) := by
  refine (h.map (g := AV.basic ty) (fun _ => rfl) fun _ _ => ⟨_, _, rfl⟩).iff fun v w => ⟨?_, ?_⟩
  · rintro ⟨x, hx, rfl⟩
    exact .basic h1 hx
  · rintro (⟨hm, hx⟩ | ⟨hm, hx⟩ | _)
    · obtain rfl := h2 _ hm rfl
      exact ⟨_, hx, rfl⟩
    · exact absurd rfl (h3 _ hm)
    · exact absurd rfl h4

theorem decChain_exactly {b : Bytes} {c : ChainTy} {r : Dec (c.Val × Option Err)} (h : r.Exactly c.Takes) (h1 : (b, c) ∈ abiChains) (h2 : ∀ e ∈ abiChains, e.1 = b → e.2 = c)
    (h3 : ∀ e ∈ abiBasics, e.1 ≠ b) (h4 : b ≠ asc "bytes") : (r >>= fun z => pure (AV.chain c z.1, z.2)).Exactly (TakenAs b) := by
  refine (h.map (g := AV.chain c) (fun _ => rfl) fun _ _ => ⟨_, _, rfl⟩).iff fun v w => ⟨?_, ?_⟩
  · rintro ⟨x, hx, rfl⟩
    exact .chain h1 hx
  · rintro (⟨hm, hx⟩ | ⟨hm, hx⟩ | _)
    · exact absurd rfl (h3 _ hm)
    · obtain rfl := h2 _ hm rfl
      exact ⟨_, hx, rfl⟩
    · exact absurd rfl h4

theorem decCases_exactly : ∀ c ∈ decCases, c.2.Exactly (TakenAs c.1) := by
  have basic : ∀ (b : Bytes) (ty : Basic) (r : Dec (ty.Val × Option Err)), r = ty.read → ((b, ty) ∈ abiBasics ∧ (∀ e ∈ abiBasics, e.1 = b → e.2 = ty) ∧ (∀ e ∈ abiChains, e.1 ≠ b) ∧ b ≠ asc "bytes") →
      (decBasic ty r).Exactly (TakenAs b) := fun b ty r e h => decBasic_exactly (e ▸ basic_exactly ty) h.1 h.2.1 h.2.2.1 h.2.2.2
  have chain : ∀ (b : Bytes) (c : ChainTy), ((b, c) ∈ abiChains ∧ (∀ e ∈ abiChains, e.1 = b → e.2 = c) ∧ (∀ e ∈ abiBasics, e.1 ≠ b) ∧ b ≠ asc "bytes") →
      (decChain c).Exactly (TakenAs b) := fun b c h => decChain_exactly (chain_exactly c c.zero (chain_clean c)) h.1 h.2.1 h.2.2.1 h.2.2.2
  intro c hc
  simp only [decCases, List.mem_cons, List.not_mem_nil, or_false] at hc
  rcases hc with rfl | rfl | rfl | rfl | rfl | rfl | rfl | rfl | rfl | rfl | rfl | rfl | rfl | rfl | rfl | rfl | rfl | rfl | rfl | rfl | rfl | rfl | rfl | rfl | rfl | rfl | rfl | rfl | rfl | rfl | rfl
  case inr.inr.inr.inr.inr.inr.inr.inr.inr.inl => exact decChain_exactly (c := .uint64) readUint64_exactly (by decide +kernel) (by decide +kernel) (by decide +kernel) (by decide +kernel)
  all_goals dsimp only
  all_goals first
    | (refine basic _ _ _ ?_ ?_; rfl; decide +kernel)
    | (refine chain _ _ ?_; decide +kernel)
    | skip
  show Dec.Exactly (decChain .bytes) _
  unfold decChain
  refine (Dec.Exactly.map (chain_exactly .bytes (none : Option Bytes) trivial) (g := AV.chain .bytes) (fun _ => rfl) fun _ _ => ⟨_, _, rfl⟩).iff fun v w => ⟨?_, ?_⟩
  · rintro ⟨x, ⟨y, rfl, h⟩, rfl⟩
    exact .bytes h
  · intro h
    have h1 : ∀ e ∈ abiBasics, e.1 ≠ asc "bytes" := by decide +kernel
    have h2 : ∀ e ∈ abiChains, e.1 ≠ asc "bytes" := by decide +kernel
    generalize hb : asc "bytes" = b at h
    cases h with
    | basic h _ => exact absurd hb.symm (h1 _ h)
    | chain h _ => exact absurd hb.symm (h2 _ h)
    | bytes h => exact ⟨_, ⟨_, rfl, h⟩, rfl⟩

theorem builtin_exactly (b : Bytes) : (decodeBuiltin b).Exactly (TakenAs b) := by
  unfold decodeBuiltin
  split
  · rename_i h
    refine (never_fail _ _).exactly fun v w hv => ?_
    have h' : ∀ c ∈ decCases.map Prod.fst, c ≠ b := by
      intro c hc
      obtain ⟨d, hd, rfl⟩ := List.mem_map.1 hc
      simpa using List.find?_eq_none.1 h d hd
    have h1 : ∀ e ∈ abiBasics, e.1 ∈ decCases.map Prod.fst := by decide +kernel
    have h2 : ∀ e ∈ abiChains, e.1 ∈ decCases.map Prod.fst := by decide +kernel
    have h3 : asc "bytes" ∈ decCases.map Prod.fst := by decide +kernel
    cases hv with
    | basic h _ => exact h' _ (h1 _ h) rfl
    | chain h _ => exact h' _ (h2 _ h) rfl
    | bytes h => exact h' _ h3 rfl
  · rename_i c h
    have h1 := List.find?_some h
    have h2 := decCases_exactly c (List.mem_of_find?_eq_some h)
    rw [show c.1 = b by simpa using h1] at h2
    exact h2

theorem mapPut_eq (m : List (Bytes × AV)) (k : Bytes) (v : AV) : mapPut m k v = mapSet k v m := by
  induction m with
  | nil => rfl
  | cons y m ih =>
    obtain ⟨k', v'⟩ := y
    unfold mapPut mapSet
    rw [ih]
    split
    · rename_i h; rw [h]
    · rfl

/-! ### Defined types, with what the types they mention accept -/

variable (a : Abi) (R : Bytes → AV → Bytes → Prop)

def stepMembers : List AbiField → List (Bytes × AV) → Bytes → Prop
  | [], xs, w => xs = [] ∧ w = []
  | f :: fs, xs, w => ∃ x ys b1 b2, xs = (f.name, x) :: ys ∧ R f.type x b1 ∧ stepMembers fs ys b2 ∧ w = b1 ++ b2

def stepInner (b : Bytes) (v : AV) (w : Bytes) : Prop :=
  (∃ t, IsAlias a b t ∧ R t.type v w) ∨
  (∃ f fs xs m, FieldsOf a b (f :: fs) ∧ stepMembers R (f :: fs) xs w ∧ Gathers xs m ∧ v = .map m) ∨
  (∃ (vr : AbiVariant) (i : Nat) (t : Bytes) (x : AV) (p bs : Bytes), IsVariant a b vr ∧ vr.types[i]? = some t ∧ AnyLeb p i ∧ R t x bs ∧ v = .slice [.basic .string t, x] ∧ w = p ++ bs) ∨
  (NotDefined a b ∧ TakenAs b v w) ∨ ∃ s, IsStruct a b s ∧ (∀ fs, FieldsOf a b fs → fs = []) ∧ TakenAs b v w

def stepBody (b : Bytes) (arr : Bool) (v : AV) (w : Bytes) : Prop :=
  if arr = true then ∃ xs, v = .slice xs ∧ SizedEach 16 (stepInner a R b) xs w else stepInner a R b v w

def stepType (n : Bytes) (v : AV) (w : Bytes) : Prop := ∃ b arr opt, Spelled n b arr false opt ∧
  if opt = true then (v = .nil ∧ w = [0]) ∨ ∃ p bs, p ≠ 0 ∧ stepBody a R b arr v bs ∧ w = p :: bs else stepBody a R b arr v w

def stepsType : Nat → Bytes → AV → Bytes → Prop
  | 0, _, _, _ => False
  | k + 1, n, v, w => stepType a (stepsType k) n v w

variable {a R}

section
variable {ts : Types} (hr : Ready a ts) {rec : Bytes → Dec (AV × Option Err)} (hrec : ∀ n t, ts.get n = some t → (rec n).Exactly (R n))
include hr hrec

omit hr in
theorem struct_exactly (fs : List AbiField) (hf : ∀ f ∈ fs, ∃ u, ts.get f.type = some u) (m : List (Bytes × AV)) :
    (decodeStruct rec (fieldPairs fs) m).Exactly fun v w => ∃ xs, stepMembers R fs xs w ∧ v = .map (stores xs m) := by
  induction fs generalizing m with
  | nil =>
    refine (exactly_pure _).iff fun v w => ⟨?_, ?_⟩
    · rintro ⟨rfl, rfl⟩
      exact ⟨[], ⟨rfl, rfl⟩, rfl⟩
    · rintro ⟨xs, ⟨rfl, rfl⟩, rfl⟩
      exact ⟨rfl, rfl⟩
  | cons f fs ih =>
    obtain ⟨u, hu⟩ := hf f List.mem_cons_self
    apply Exactly.iff
    case h =>
      show Dec.Exactly (rec f.type >>= _) _
      ebind (hrec f.type u hu) with x
      exact ih (fun g hg => hf g (List.mem_cons_of_mem _ hg)) (mapPut m f.name x)
    intro v w
    constructor
    · rintro ⟨x, b1, b2, h1, ⟨ys, h2, rfl⟩, rfl⟩
      exact ⟨(f.name, x) :: ys, ⟨x, ys, b1, b2, rfl, h1, h2, rfl⟩, by rw [mapPut_eq]; rfl⟩
    · rintro ⟨_, ⟨x, ys, b1, b2, rfl, h1, h2, rfl⟩, rfl⟩
      exact ⟨x, b1, b2, h1, ⟨ys, h2, by rw [mapPut_eq]; rfl⟩, rfl⟩

theorem inner_exactly {n : Bytes} {t : Resolved} (hn : ts.get n = some t) : (decodeInner ts rec t).Exactly (stepInner a R t.baseName) := by
  unfold decodeInner
  rcases table_cases hr hn with ⟨ty, h⟩ | ⟨f, fs, h⟩ | ⟨vr, h⟩ | h | ⟨s, h, h'⟩
  · obtain ⟨h1, u, hu⟩ := table_alias hr hn h
    rw [h1]
    refine (hrec _ u hu).iff fun v w => ⟨fun hv => .inl ⟨ty, h, hv⟩, ?_⟩
    rintro (⟨ty', g, hv⟩ | ⟨f, fs, _, _, g, _⟩ | ⟨vr, _, _, _, _, _, g, _⟩ | ⟨g, _⟩ | ⟨s, g, _⟩)
    · have := (table_alias hr hn g).1
      rw [h1] at this
      rw [Option.some.inj this]
      exact hv
    · exact absurd (table_struct hr hn g).1 (by simp [h1])
    · exact absurd (table_variant hr hn g).1 (by simp [h1])
    · exact absurd (table_notDefined hr hn g).1 (by simp [h1])
    · exact absurd (describes_struct (hr n t hn).1 g).2.2.2 (by simp [h1])
  · obtain ⟨h1, h2, h3⟩ := table_struct hr hn h
    rw [h1, h2]
    simp only
    rw [if_pos (by simp [fieldPairs])]
    refine (struct_exactly hrec (f :: fs) h3 []).iff fun v w => ⟨fun ⟨xs, h4, h5⟩ => .inr (.inl ⟨f, fs, xs, _, h, h4, (gathers_iff _ _).2 rfl, h5⟩), ?_⟩
    rintro (⟨ty', g, hv⟩ | ⟨f', fs', xs, m, g, g2, g3, rfl⟩ | ⟨vr, _, _, _, _, _, g, _⟩ | ⟨g, _⟩ | ⟨s, _, g, _⟩)
    · exact absurd (table_alias hr hn g).1 (by simp [h1])
    · rw [fieldsOf_unique h g]
      exact ⟨xs, g2, by rw [(gathers_iff _ _).1 g3]⟩
    · exact absurd (table_variant hr hn g).2.1 (by simp [h2, fieldPairs])
    · exact absurd (table_notDefined hr hn g).2.1 (by simp [h2, fieldPairs])
    · exact absurd (g _ h) (by simp)
  · obtain ⟨h1, h2, h3, h4⟩ := table_variant hr hn h
    rw [h1, h2, h3]
    simp only [ne_eq, not_true_eq_false, if_false]
    apply Exactly.iff
    case h =>
      refine readVaruint_exactly.bind' (S := fun l v w => ∃ t x, vr.types[l.toNat]? = some t ∧ R t x w ∧ v = .slice [.basic .string t, x]) (fun _ _ => never_fail _ _) fun l => ?_
      show Dec.Exactly (if goInt l ≥ vr.types.length then _ else _) _
      split
      · rename_i hl
        refine (never_fail _ _).exactly ?_
        rintro v w ⟨t, x, g, _⟩
        have g1 := (List.getElem?_eq_some_iff.1 g).1
        have := ((goInt_eq l (goInt l).toNat).1 (by omega)).1
        omega
      · match hq : vr.types[l.toNat]? with
        | none => exact (never_panic _).exactly fun v w ⟨t, x, g, _⟩ => by cases g
        | some tv =>
          obtain ⟨u, hu⟩ := h4 tv (List.mem_of_getElem? hq)
          apply Exactly.iff
          case h =>
            emap (hrec tv u hu)
          intro v w
          constructor
          · rintro ⟨x, hx, rfl⟩
            exact ⟨tv, x, rfl, hx, rfl⟩
          · rintro ⟨t, x, g, hx, rfl⟩
            cases g
            exact ⟨x, hx, rfl⟩
    intro v w
    constructor
    · rintro ⟨l, p, bs, g1, ⟨t, x, g2, g3, rfl⟩, rfl⟩
      exact .inr (.inr (.inl ⟨vr, l.toNat, t, x, p, bs, h, g2, g1, g3, rfl, rfl⟩))
    · rintro (⟨ty', g, hv⟩ | ⟨f', fs', xs, m, g, g2, g3, rfl⟩ | ⟨vr', i, t', x, p, bs, g, g1, g2, g3, rfl, rfl⟩ | ⟨g, _⟩ | ⟨s, g, _⟩)
      · exact absurd (table_alias hr hn g).1 (by simp [h1])
      · exact absurd (table_struct hr hn g).2.1 (by simp [h2, fieldPairs])
      · have := (table_variant hr hn g).2.2.1
        rw [h3] at this
        have e : i.toUInt64.toNat = i := by have := g2.2.2.2; simp; omega
        exact ⟨i.toUInt64, p, bs, by rw [e]; exact g2, ⟨t', x, by rw [e, Option.some.inj this]; exact g1, g3, rfl⟩, rfl⟩
      · exact absurd (table_notDefined hr hn g).2.2 (by simp [h3])
      · exact absurd (describes_struct (hr n t hn).1 g).2.2.1 (by simp [h3])
  · obtain ⟨h1, h2, h3⟩ := table_notDefined hr hn h
    rw [h1, h2, h3]
    refine (builtin_exactly t.baseName).iff fun v w => ⟨fun hv => .inr (.inr (.inr (.inl ⟨h, hv⟩))), ?_⟩
    rintro (⟨ty', g, hv⟩ | ⟨f', fs', xs, m, g, g2, g3, rfl⟩ | ⟨vr, _, _, _, _, _, g, _⟩ | ⟨_, g⟩ | ⟨s, _, _, g⟩)
    · exact absurd (table_alias hr hn g).1 (by simp [h1])
    · exact absurd (table_struct hr hn g).2.1 (by simp [h2, fieldPairs])
    · exact absurd (table_variant hr hn g).2.2.1 (by simp [h3])
    · exact g
    · exact g
  · obtain ⟨h1, h2, h3⟩ := table_hollow hr hn h h'
    rw [h1, h2, h3]
    refine (builtin_exactly t.baseName).iff fun v w => ⟨fun hv => .inr (.inr (.inr (.inr ⟨s, h, h', hv⟩))), ?_⟩
    rintro (⟨ty', g, hv⟩ | ⟨f', fs', xs, m, g, g2, g3, rfl⟩ | ⟨vr, _, _, _, _, _, g, _⟩ | ⟨_, g⟩ | ⟨s, _, _, g⟩)
    · exact absurd (table_alias hr hn g).1 (by simp [h1])
    · exact absurd (table_struct hr hn g).2.1 (by simp [h2, fieldPairs])
    · exact absurd (table_variant hr hn g).2.2.1 (by simp [h3])
    · exact g
    · exact g

theorem body_exactly {n : Bytes} {t : Resolved} (hn : ts.get n = some t) (hx : t.isExtension = false) : (decodeBody ts rec t).Exactly (stepBody a R t.baseName t.isArray) := by
  have hi := inner_exactly hr hrec hn
  unfold decodeBody stepBody
  simp only [hx, Bool.false_eq_true, and_false, if_false]
  split
  · apply Exactly.iff
    case h =>
      ebind readVaruint_exactly with l
      apply makeSlice_exactly
      emap (decEach_exactly _ fun x _ => hi)
    intro v w
    constructor
    · rintro ⟨l, lb, es, h1, ⟨h2, h3, ys, ⟨h4, h5⟩, rfl⟩, rfl⟩
      rw [List.length_replicate] at h4
      exact ⟨ys, rfl, lb, es, by rw [h4]; exact h1, by rw [h4]; exact h2, by rw [h4]; exact h3, h5, rfl⟩
    · rintro ⟨ys, rfl, lb, es, h1, h2, h3, h4, rfl⟩
      have e : ys.length.toUInt64.toNat = ys.length := by simp; omega
      exact ⟨ys.length.toUInt64, lb, es, by rw [e]; exact h1, ⟨by rw [e]; exact h2, by rw [e]; exact h3, ys, ⟨by rw [List.length_replicate, e], h4⟩, rfl⟩, rfl⟩
  · exact (hi.same (fun _ => rfl) fun _ _ => ⟨_, _, rfl⟩)

end

theorem steps_exactly {ts : Types} (hr : Ready a ts) (hx : ∀ m t, ts.get m = some t → t.isExtension = false) : ∀ (k : Nat) (n : Bytes) (t : Resolved), ts.get n = some t →
    (decodeTypeF ts k n).Exactly (stepsType a k n) := by
  intro k
  induction k with
  | zero => exact fun n t _ => never_diverge.exactly fun _ _ h => h
  | succ k ih =>
    intro n t hn
    have hb := body_exactly hr ih hn (hx n t hn)
    have hs := (hr n t hn).1.2.1
    rw [hx n t hn] at hs
    unfold decodeTypeF
    rw [hn]
    have inv : ∀ v w, stepsType a (k + 1) n v w ↔
        if t.isOptional = true then (v = .nil ∧ w = [0]) ∨ ∃ p bs, p ≠ 0 ∧ stepBody a (stepsType a k) t.baseName t.isArray v bs ∧ w = p :: bs else stepBody a (stepsType a k) t.baseName t.isArray v w := by
      intro v w
      constructor
      · rintro ⟨b, arr, opt, h1, h2⟩
        obtain ⟨rfl, rfl, _, rfl⟩ := spelled_unique h1 hs
        exact h2
      · intro h
        exact ⟨_, _, _, hs, h⟩
    show Dec.Exactly (if t.isOptional = true then _ else _) _
    split
    · rename_i ho
      apply Exactly.iff
      case h =>
        ebind readBool_exactly with present
        have : (if present = true then decodeBody ts (decodeTypeF ts k) t else pure (AV.nil, none)).Exactly
            fun v w => if present = true then stepBody a (stepsType a k) t.baseName t.isArray v w else v = .nil ∧ w = [] := by
          cases present
          · exact exactly_pure _
          · exact hb
        exact this
      intro v w
      rw [inv, if_pos ho]
      constructor
      · rintro ⟨p, _, w2, ⟨c, rfl, rfl⟩, h, rfl⟩
        by_cases hc : c = 0
        · rw [if_neg (by simp [hc])] at h
          exact .inl ⟨h.1, by rw [hc, h.2]; rfl⟩
        · rw [if_pos (by simp [hc])] at h
          exact .inr ⟨c, w2, hc, h, rfl⟩
      · rintro (⟨rfl, rfl⟩ | ⟨p, b, h2, h3, rfl⟩)
        · exact ⟨false, [0], [], ⟨0, rfl, by simp⟩, by rw [if_neg (by simp)]; exact ⟨rfl, rfl⟩, rfl⟩
        · exact ⟨true, [p], b, ⟨p, rfl, by simp [h2]⟩, by rw [if_pos rfl]; exact h3, rfl⟩
    · rename_i ho
      refine hb.iff fun v w => ?_
      rw [inv, if_neg ho]

/-! ### Depth -/

theorem spelled_plain {ts : Types} (hr : Ready a ts) (hx : ∀ m t, ts.get m = some t → t.isExtension = false) {n b : Bytes} {arr ext opt : Bool} {t : Resolved} (hs : Spelled n b arr ext opt)
    (ht : ts.get n = some t) : Spelled n b arr false opt := by
  have := (spelled_unique hs (hr n t ht).1.2.1).2.2.1
  rw [hx n t ht] at this
  exact this ▸ hs

section
variable {ts : Types} (hr : Ready a ts) (hx : ∀ m t, ts.get m = some t → t.isExtension = false)
include hr hx

mutual
theorem accepts_steps {n : Bytes} {v : AV} {w : Bytes} : (h : Accepts a n v w) → (t : Resolved) → ts.get n = some t → ∃ N, ∀ k, N ≤ k → stepsType a k n v w
  | .absent hs, t, ht => ⟨1, fun k hk => match k, hk with
      | k + 1, _ => ⟨_, _, true, spelled_plain hr hx hs ht, .inl ⟨rfl, rfl⟩⟩⟩
  | .present (arr := arr) hs hp hb, t, ht =>
    have ⟨N, h⟩ := body_steps hb t n ht (spelled_unique hs (hr n t ht).1.2.1).1
    ⟨N + 1, fun k hk => match k, hk with
      | k + 1, hk => ⟨_, arr, true, spelled_plain hr hx hs ht, .inr ⟨_, _, hp, h k (by omega), rfl⟩⟩⟩
  | .plain (arr := arr) hs hb, t, ht =>
    have ⟨N, h⟩ := body_steps hb t n ht (spelled_unique hs (hr n t ht).1.2.1).1
    ⟨N + 1, fun k hk => match k, hk with
      | k + 1, hk => ⟨_, arr, false, spelled_plain hr hx hs ht, h k (by omega)⟩⟩
theorem body_steps {b : Bytes} {arr : Bool} {v : AV} {w : Bytes} : (h : AcceptsBody a b arr v w) → (t : Resolved) → (n : Bytes) → ts.get n = some t → b = t.baseName →
    ∃ N, ∀ k, N ≤ k → stepBody a (stepsType a k) b arr v w
  | .one hi, t, n, ht, hb => inner_steps hi t n ht hb
  | .many h1 h2 h3 hi, t, n, ht, hb =>
    have ⟨N, h⟩ := items_steps hi t n ht hb
    ⟨N, fun k hk => ⟨_, rfl, _, _, h1, h2, h3, h k hk, rfl⟩⟩
theorem items_steps {b : Bytes} {xs : List AV} {w : Bytes} : (h : AcceptsItems a b xs w) → (t : Resolved) → (n : Bytes) → ts.get n = some t → b = t.baseName →
    ∃ N, ∀ k, N ≤ k → Each (stepInner a (stepsType a k) b) xs w
  | .nil, _, _, _, _ => ⟨0, fun _ _ => .nil⟩
  | .cons hi his, t, n, ht, hb =>
    have ⟨N, h⟩ := inner_steps hi t n ht hb
    have ⟨M, h'⟩ := items_steps his t n ht hb
    ⟨N + M, fun k hk => .cons (h k (by omega)) (h' k (by omega))⟩
theorem inner_steps {b : Bytes} {v : AV} {w : Bytes} : (h : AcceptsInner a b v w) → (t : Resolved) → (n : Bytes) → ts.get n = some t → b = t.baseName →
    ∃ N, ∀ k, N ≤ k → stepInner a (stepsType a k) b v w
  | .alias ha h, t, n, ht, hb =>
    have ⟨_, hu⟩ := (table_alias hr ht (hb ▸ ha)).2
    have ⟨N, h⟩ := accepts_steps h _ hu
    ⟨N, fun k hk => .inl ⟨_, ha, h k hk⟩⟩
  | .struct hf h hg, t, n, ht, hb =>
    have hk := (table_struct hr ht (hb ▸ hf)).2.2
    have ⟨N, h⟩ := members_steps h hk
    ⟨N, fun k hk => .inr (.inl ⟨_, _, _, _, hf, h k hk, hg, rfl⟩)⟩
  | .variant hv hi hp h, t, n, ht, hb =>
    have ⟨_, hu⟩ := (table_variant hr ht (hb ▸ hv)).2.2.2 _ (List.mem_of_getElem? hi)
    have ⟨N, h⟩ := accepts_steps h _ hu
    ⟨N, fun k hk => .inr (.inr (.inl ⟨_, _, _, _, _, _, hv, hi, hp, h k hk, rfl, rfl⟩))⟩
  | .builtin hd h, _, _, _, _ => ⟨0, fun _ _ => .inr (.inr (.inr (.inl ⟨hd, h⟩)))⟩
  | .hollow hs hf h, _, _, _, _ => ⟨0, fun _ _ => .inr (.inr (.inr (.inr ⟨_, hs, hf, h⟩)))⟩
theorem members_steps {fs : List AbiField} {xs : List (Bytes × AV)} {w : Bytes} : (h : AcceptsMembers a fs xs w) → (∀ f ∈ fs, ∃ u, ts.get f.type = some u) →
    ∃ N, ∀ k, N ≤ k → stepMembers (stepsType a k) fs xs w
  | .nil, _ => ⟨0, fun _ _ => ⟨rfl, rfl⟩⟩
  | .cons h hs, hf =>
    have ⟨_, hu⟩ := hf _ List.mem_cons_self
    have ⟨N, h⟩ := accepts_steps h _ hu
    have ⟨M, h'⟩ := members_steps hs fun g hg => hf g (List.mem_cons_of_mem _ hg)
    ⟨N + M, fun k hk => ⟨_, _, _, _, rfl, h k (by omega), h' k (by omega), rfl⟩⟩
end
end

theorem steps_accepts : ∀ (k : Nat) (n : Bytes) (v : AV) (w : Bytes), stepsType a k n v w → Accepts a n v w := by
  intro k
  induction k with
  | zero => intro _ _ _ h; exact h.elim
  | succ k ih =>
    have mem : ∀ (fs : List AbiField) xs w, stepMembers (stepsType a k) fs xs w → AcceptsMembers a fs xs w := by
      intro fs
      induction fs with
      | nil => rintro _ _ ⟨rfl, rfl⟩; exact .nil
      | cons f fs ihf => rintro _ _ ⟨x, ys, b1, b2, rfl, h1, h2, rfl⟩; exact .cons (ih _ _ _ h1) (ihf _ _ h2)
    have inner : ∀ b v w, stepInner a (stepsType a k) b v w → AcceptsInner a b v w := by
      rintro b v w (⟨ty, g, hv⟩ | ⟨f, fs, xs, m, g, g2, g3, rfl⟩ | ⟨vr, i, t, x, p, bs, g, g1, g2, g3, rfl, rfl⟩ | ⟨g, g1⟩ | ⟨s, g, g1, g2⟩)
      · exact .alias g (ih _ _ _ hv)
      · exact .struct g (mem _ _ _ g2) g3
      · exact .variant g g1 g2 (ih _ _ _ g3)
      · exact .builtin g g1
      · exact .hollow g g1 g2
    have items : ∀ b xs w, Each (stepInner a (stepsType a k) b) xs w → AcceptsItems a b xs w := by
      intro b xs w h
      induction h with
      | nil => exact .nil
      | cons h _ ih => exact .cons (inner _ _ _ h) ih
    have body : ∀ b arr v w, stepBody a (stepsType a k) b arr v w → AcceptsBody a b arr v w := by
      intro b arr v w h
      unfold stepBody at h
      cases arr with
      | false => exact .one (inner _ _ _ h)
      | true =>
        obtain ⟨xs, rfl, lb, es, h1, h2, h3, h4, rfl⟩ := h
        exact .many h1 h2 h3 (items _ _ _ h4)
    rintro n v w ⟨b, arr, opt, h1, h2⟩
    cases opt with
    | false => exact .plain h1 (body _ _ _ _ h2)
    | true =>
      rcases h2 with ⟨rfl, rfl⟩ | ⟨p, bs, h3, h4, rfl⟩
      · exact .absent h1
      · exact .present h1 h3 (body _ _ _ _ h4)

end Verif
