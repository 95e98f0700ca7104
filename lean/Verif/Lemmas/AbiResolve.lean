import Verif.Spec.Abi
/-! Lemmas about `resolve`. -/
namespace Verif

/-! ### First match -/

theorem find_some_iff {α : Type} (l : List α) (p : α → Bool) (x : α) : l.find? p = some x ↔ First l (fun y => p y = true) x := by
  rw [List.find?_eq_some_iff_append]
  constructor
  · rintro ⟨h, as, bs, rfl, h2⟩
    exact ⟨h, as, bs, rfl, fun y hy => by simpa using h2 y hy⟩
  · rintro ⟨h, as, bs, rfl, h2⟩
    exact ⟨h, as, bs, rfl, fun y hy => by simpa using h2 y hy⟩

theorem find_decide {α : Type} (l : List α) (p : α → Prop) [DecidablePred p] (x : α) : l.find? (fun y => decide (p y)) = some x ↔ First l p x := by
  rw [find_some_iff]; simp [First]

theorem find_decide_none {α : Type} (l : List α) (p : α → Prop) [DecidablePred p] : l.find? (fun y => decide (p y)) = none ↔ ∀ x ∈ l, ¬ p x := by
  simp [List.find?_eq_none]

/-! ### Spelling -/

theorem suffix_single (c : UInt8) (n : Bytes) : [c] <:+ n ↔ n.getLast? = some c := by
  constructor
  · rintro ⟨p, rfl⟩; simp
  · intro h
    obtain ⟨p, rfl⟩ := List.getLast?_eq_some_iff.1 h
    exact ⟨p, rfl⟩

/-- Removing an optional final byte. -/
def chop (c : UInt8) (n : Bytes) : Bool × Bytes := if n.getLast? = some c then (true, n.dropLast) else (false, n)

theorem chop_iff (c : UInt8) (n s : Bytes) (b : Bool) : chop c n = (b, s) ↔ n = s ++ (if b then [c] else []) ∧ (b = false → ¬ [c] <:+ n) := by
  unfold chop
  by_cases h : n.getLast? = some c
  · obtain ⟨p, rfl⟩ := List.getLast?_eq_some_iff.1 h
    rw [if_pos h]
    cases b with
    | true => simp [eq_comm]
    | false => simp [suffix_single]
  · rw [if_neg h]
    cases b with
    | true =>
      simp only [Prod.mk.injEq, Bool.false_eq_true, false_and, false_iff, if_true, not_and]
      intro hn
      exact absurd (by rw [hn]; simp) h
    | false => simp [suffix_single, h, eq_comm]

theorem chop_nil (c : UInt8) : chop c [] = (false, []) := rfl

theorem stem_iff (n s : Bytes) (ext opt : Bool) : Stem n s ext opt ↔ ∃ m, chop 63 n = (opt, m) ∧ chop 36 m = (ext, s) := by
  have h36 : asc "$" = [36] := by decide
  have h63 : asc "?" = [63] := by decide
  unfold Stem dollar questionMark
  rw [h36, h63]
  constructor
  · rintro ⟨h1, h2, h3⟩
    refine ⟨s ++ (if ext then [36] else []), (chop_iff ..).2 ⟨h1, h2⟩, (chop_iff ..).2 ⟨rfl, fun he => ?_⟩⟩
    subst he
    rw [if_neg (by simp), List.append_nil]
    exact h3 rfl
  · rintro ⟨m, h1, h2⟩
    obtain ⟨h1, h3⟩ := (chop_iff ..).1 h1
    obtain ⟨h2, h4⟩ := (chop_iff ..).1 h2
    refine ⟨by rw [h1, ← h2], h3, fun he => ?_⟩
    have := h4 he
    subst he
    rw [if_neg (by simp), List.append_nil] at h2
    exact h2 ▸ this

/-- abi.go:600-603 -/
def chopBrackets (s : Bytes) : Bool × Bytes :=
  if s[s.length - 2]? = some 91 ∧ s[s.length - 1]? = some 93 then (true, s.take (s.length - 2)) else (false, s)

theorem chopBrackets_iff (s b : Bytes) (arr : Bool) (hs : 2 ≤ s.length) : chopBrackets s = (arr, b) ↔ s = b ++ brackets arr ∧ (arr = false → ¬ asc "[]" <:+ b) := by
  have hb : asc "[]" = [91, 93] := by decide
  unfold chopBrackets brackets
  rw [hb]
  have key : (s[s.length - 2]? = some 91 ∧ s[s.length - 1]? = some 93) ↔ ∃ p, s = p ++ [91, 93] := by
    constructor
    · rintro ⟨h1, h2⟩
      refine ⟨s.take (s.length - 2), ?_⟩
      have h3 : s.drop (s.length - 2) = [91, 93] := by
        apply List.ext_getElem?
        intro i
        rw [List.getElem?_drop]
        match i with
        | 0 => exact h1
        | 1 => rw [show s.length - 2 + 1 = s.length - 1 by omega]; exact h2
        | i + 2 => rw [List.getElem?_eq_none (by omega)]; rfl
      rw [← h3, List.take_append_drop]
    · rintro ⟨p, rfl⟩
      simp
  by_cases h : s[s.length - 2]? = some 91 ∧ s[s.length - 1]? = some 93
  · rw [if_pos h]
    obtain ⟨p, rfl⟩ := key.1 h
    cases arr with
    | true => simp [eq_comm]
    | false =>
      simp only [Prod.mk.injEq, Bool.true_eq_false, false_and, Bool.false_eq_true, if_false, List.append_nil, true_imp_iff, false_iff, not_and]
      rintro rfl h
      exact h ⟨p, rfl⟩
  · rw [if_neg h]
    cases arr with
    | true =>
      simp only [Prod.mk.injEq, Bool.false_eq_true, false_and, false_iff, if_true, not_and]
      intro hn
      exact absurd (key.2 ⟨b, hn⟩) h
    | false =>
      simp only [Prod.mk.injEq, true_and, Bool.false_eq_true, if_false, List.append_nil, true_imp_iff]
      constructor
      · rintro rfl
        refine ⟨rfl, ?_⟩
        rintro ⟨p, hp⟩
        exact h (key.2 ⟨p, hp.symm⟩)
      · rintro ⟨rfl, _⟩; rfl

theorem parse_eq (n : Bytes) : parseTypeName n =
    if (chop 36 (chop 63 n).2).2.length < 2 then none
    else some ((chopBrackets (chop 36 (chop 63 n).2).2).2, (chopBrackets (chop 36 (chop 63 n).2).2).1, (chop 63 n).1, (chop 36 (chop 63 n).2).1) := by
  unfold parseTypeName
  cases h1 : n.getLast? with
  | none =>
    rw [List.getLast?_eq_none_iff.1 h1]
    rfl
  | some c =>
    have e1 : chop 63 n = if c = 63 then (true, n.dropLast) else (false, n) := by unfold chop; rw [h1]; simp
    simp only [Option.bind_eq_bind, Option.bind_some]
    rw [← e1]
    cases h2 : (chop 63 n).2.getLast? with
    | none =>
      rw [List.getLast?_eq_none_iff.1 h2]
      rfl
    | some c' =>
      have e2 : chop 36 (chop 63 n).2 = if c' = 36 then (true, (chop 63 n).2.dropLast) else (false, (chop 63 n).2) := by unfold chop; rw [show (if n.getLast? = some 63 then (true, n.dropLast) else (false, n)) = chop 63 n from rfl, h2]; simp
      simp only [Option.bind_some]
      rw [← e2]
      rfl

theorem parse_short (n : Bytes) : parseTypeName n = none ↔ ShortName n := by
  rw [parse_eq]
  constructor
  · intro h
    refine ⟨(chop 36 (chop 63 n).2).2, (chop 36 (chop 63 n).2).1, (chop 63 n).1, (stem_iff ..).2 ⟨_, rfl, rfl⟩, ?_⟩
    by_cases hc : (chop 36 (chop 63 n).2).2.length < 2
    · exact hc
    · rw [if_neg hc] at h
      cases h
  · rintro ⟨s, ext, opt, hs, hl⟩
    obtain ⟨m, h1, h2⟩ := (stem_iff ..).1 hs
    rw [h1, h2, if_pos hl]

theorem parse_spelled (n b : Bytes) (arr ext opt : Bool) : parseTypeName n = some (b, arr, opt, ext) ↔ Spelled n b arr ext opt := by
  rw [parse_eq]
  constructor
  · intro h
    by_cases hl : (chop 36 (chop 63 n).2).2.length < 2
    · rw [if_pos hl] at h; cases h
    · rw [if_neg hl] at h
      simp only [Option.some.injEq, Prod.mk.injEq] at h
      obtain ⟨h1, h2, h3, h4⟩ := h
      refine ⟨(chop 36 (chop 63 n).2).2, (stem_iff ..).2 ⟨(chop 63 n).2, by rw [← h3], by rw [← h4]⟩, by omega, ?_⟩
      exact (chopBrackets_iff _ _ _ (by omega)).1 (by rw [← h1, ← h2])
  · rintro ⟨s, hs, hl, h⟩
    obtain ⟨m, h1, h2⟩ := (stem_iff ..).1 hs
    rw [h1, h2, if_neg (by simp only; omega), (chopBrackets_iff _ _ _ hl).2 h]

/-! ### One type -/

theorem describe_none (a : Abi) (n : Bytes) : a.describe n = none ↔ ShortName n := by
  rw [← parse_short]
  unfold Abi.describe
  cases parseTypeName n with
  | none => simp
  | some r =>
    simp only [reduceCtorEq, iff_false]
    split
    · simp
    · split
      · simp
      · split <;> simp

theorem getStruct_iff (a : Abi) (b : Bytes) (s : AbiStruct) : a.getStruct b = some s ↔ IsStruct a b s := find_decide _ _ _
theorem getStruct_none (a : Abi) (b : Bytes) : a.getStruct b = none ↔ NoStruct a b := find_decide_none _ _
theorem getVariant_iff (a : Abi) (b : Bytes) (v : AbiVariant) : a.getVariant b = some v ↔ First a.variants (fun v => v.name = b) v := find_decide _ _ _
theorem getVariant_none (a : Abi) (b : Bytes) : a.getVariant b = none ↔ ∀ v ∈ a.variants, v.name ≠ b := find_decide_none _ _
theorem getType_iff (a : Abi) (b : Bytes) (t : AbiType) : a.getType b = some t ↔ First a.types (fun t => t.newTypeName = b) t := find_decide _ _ _
theorem getType_none (a : Abi) (b : Bytes) : a.getType b = none ↔ ∀ t ∈ a.types, t.newTypeName ≠ b := find_decide_none _ _

theorem describe_some (a : Abi) (n : Bytes) (t : Resolved) : a.describe n = some t ↔ Describes a n t := by
  unfold Abi.describe Describes IsVariant IsAlias NotDefined NoVariant
  simp only [← getStruct_iff, ← getStruct_none, ← getVariant_iff, ← getVariant_none, ← getType_iff, ← getType_none, ← parse_spelled]
  obtain ⟨name, baseName, isArray, isOptional, isExtension, base, fields, variant, ref⟩ := t
  cases hp : parseTypeName n with
  | none => simp
  | some r =>
    obtain ⟨b, arr, opt, ext⟩ := r
    simp only [Option.some.injEq, Prod.mk.injEq]
    constructor
    · intro h
      cases hs : a.getStruct b with
      | some s =>
        rw [hs] at h
        simp only [Option.some.injEq, Resolved.mk.injEq] at h
        obtain ⟨rfl, rfl, rfl, rfl, rfl, rfl, rfl, rfl, rfl⟩ := h
        refine ⟨rfl, ⟨rfl, rfl, rfl, rfl⟩, .inl ⟨s, hs, rfl, ?_, rfl, rfl⟩⟩
        by_cases hb : s.base = [] <;> simp [hb]
      | none =>
        rw [hs] at h
        cases hv : a.getVariant b with
        | some v =>
          rw [hv] at h
          simp only [Option.some.injEq, Resolved.mk.injEq] at h
          obtain ⟨rfl, rfl, rfl, rfl, rfl, rfl, rfl, rfl, rfl⟩ := h
          exact ⟨rfl, ⟨rfl, rfl, rfl, rfl⟩, .inr (.inl ⟨v, ⟨hs, hv⟩, rfl, rfl, rfl, rfl⟩)⟩
        | none =>
          rw [hv] at h
          cases ht : a.getType b with
          | some ty =>
            rw [ht] at h
            simp only [Option.some.injEq, Resolved.mk.injEq] at h
            obtain ⟨rfl, rfl, rfl, rfl, rfl, rfl, rfl, rfl, rfl⟩ := h
            exact ⟨rfl, ⟨rfl, rfl, rfl, rfl⟩, .inr (.inr (.inl ⟨ty, ⟨⟨hs, hv⟩, ht⟩, rfl, rfl, rfl, rfl⟩))⟩
          | none =>
            rw [ht] at h
            simp only [Option.some.injEq, Resolved.mk.injEq] at h
            obtain ⟨rfl, rfl, rfl, rfl, rfl, rfl, rfl, rfl, rfl⟩ := h
            exact ⟨rfl, ⟨rfl, rfl, rfl, rfl⟩, .inr (.inr (.inr ⟨⟨⟨hs, hv⟩, ht⟩, rfl, rfl, rfl, rfl⟩))⟩
    · rintro ⟨rfl, ⟨rfl, rfl, rfl, rfl⟩, h⟩
      rcases h with ⟨s, hs, rfl, rfl, rfl, rfl⟩ | ⟨v, ⟨hs, hv⟩, rfl, rfl, rfl, rfl⟩ | ⟨ty, ⟨⟨hs, hv⟩, ht⟩, rfl, rfl, rfl, rfl⟩ | ⟨⟨⟨hs, hv⟩, ht⟩, rfl, rfl, rfl, rfl⟩
      · rw [hs]
        by_cases hb : s.base = [] <;> simp [hb]
      · rw [hs, hv]
      · rw [hs, hv, ht]
      · rw [hs, hv, ht]

/-- The recursive calls are for the names the definition mentions. -/
theorem refs_iff (a : Abi) (n m : Bytes) (t : Resolved) (h : a.describe n = some t) : m ∈ t.refs ↔ Refers a n m := by
  have hd := (describe_some a n t).1 h
  obtain ⟨h1, h2, h3⟩ := hd
  have hsp : ∀ b arr ext opt, Spelled n b arr ext opt → b = t.baseName := by
    intro b arr ext opt hb
    have := ((parse_spelled ..).2 hb).symm.trans ((parse_spelled ..).2 h2)
    simp only [Option.some.injEq, Prod.mk.injEq] at this
    exact this.1
  unfold Resolved.refs
  constructor
  · intro hm
    rcases h3 with ⟨s, hs, e1, e2, e3, e4⟩ | ⟨v, hv, e1, e2, e3, e4⟩ | ⟨ty, ht, e1, e2, e3, e4⟩ | ⟨hn, e1, e2, e3, e4⟩ <;> rw [e1, e2, e3, e4] at hm
    · by_cases hb : s.base = []
      · simp [hb] at hm
        obtain ⟨f, hf, rfl⟩ := hm
        exact .field h2 hs hf
      · simp [hb] at hm
        rcases hm with rfl | ⟨f, hf, rfl⟩
        · exact .base h2 hs hb
        · exact .field h2 hs hf
    · simp at hm
      exact .member h2 hv hm
    · simp at hm
      subst hm
      exact .alias h2 ht
    · simp at hm
  · intro hr
    cases hr with
    | base hsp' hs hb =>
      obtain rfl := hsp _ _ _ _ hsp'
      rcases h3 with ⟨s, hs', e1, e2, e3, e4⟩ | ⟨v, hv, _⟩ | ⟨ty, ht, _⟩ | ⟨hn, _⟩
      · have := ((getStruct_iff ..).2 hs).symm.trans ((getStruct_iff ..).2 hs')
        cases this
        rw [e1, e2]; simp [hb]
      · exact absurd ((getStruct_iff ..).2 hs) (by rw [(getStruct_none ..).2 hv.1]; simp)
      · exact absurd ((getStruct_iff ..).2 hs) (by rw [(getStruct_none ..).2 ht.1.1]; simp)
      · exact absurd ((getStruct_iff ..).2 hs) (by rw [(getStruct_none ..).2 hn.1.1]; simp)
    | field hsp' hs hf =>
      obtain rfl := hsp _ _ _ _ hsp'
      rcases h3 with ⟨s, hs', e1, e2, e3, e4⟩ | ⟨v, hv, _⟩ | ⟨ty, ht, _⟩ | ⟨hn, _⟩
      · have := ((getStruct_iff ..).2 hs).symm.trans ((getStruct_iff ..).2 hs')
        cases this
        rw [e1]; simp
        exact .inr (.inl ⟨_, hf, rfl⟩)
      · exact absurd ((getStruct_iff ..).2 hs) (by rw [(getStruct_none ..).2 hv.1]; simp)
      · exact absurd ((getStruct_iff ..).2 hs) (by rw [(getStruct_none ..).2 ht.1.1]; simp)
      · exact absurd ((getStruct_iff ..).2 hs) (by rw [(getStruct_none ..).2 hn.1.1]; simp)
    | member hsp' hv hm =>
      obtain rfl := hsp _ _ _ _ hsp'
      rcases h3 with ⟨s, hs', _⟩ | ⟨v, hv', e1, e2, e3, e4⟩ | ⟨ty, ht, _⟩ | ⟨hn, _⟩
      · exact absurd ((getStruct_iff ..).2 hs') (by rw [(getStruct_none ..).2 hv.1]; simp)
      · have := ((getVariant_iff ..).2 hv.2).symm.trans ((getVariant_iff ..).2 hv'.2)
        cases this
        rw [e3]; simp [hm]
      · exact absurd ((getVariant_iff ..).2 hv.2) (by rw [(getVariant_none ..).2 ht.1.2]; simp)
      · exact absurd ((getVariant_iff ..).2 hv.2) (by rw [(getVariant_none ..).2 hn.1.2]; simp)
    | alias hsp' ht =>
      obtain rfl := hsp _ _ _ _ hsp'
      rcases h3 with ⟨s, hs', _⟩ | ⟨v, hv', _⟩ | ⟨ty, ht', e1, e2, e3, e4⟩ | ⟨hn, _⟩
      · exact absurd ((getStruct_iff ..).2 hs') (by rw [(getStruct_none ..).2 ht.1.1]; simp)
      · exact absurd ((getVariant_iff ..).2 hv'.2) (by rw [(getVariant_none ..).2 ht.1.2]; simp)
      · have := ((getType_iff ..).2 ht.2).symm.trans ((getType_iff ..).2 ht'.2)
        cases this
        rw [e4]; simp
      · exact absurd ((getType_iff ..).2 ht.2) (by rw [(getType_none ..).2 hn.2]; simp)

/-! ### The map of resolved types -/

theorem get_cons (n m : Bytes) (t : Resolved) (ts : Types) : Types.get ((n, t) :: ts) m = if n = m then some t else ts.get m := by
  unfold Types.get
  by_cases h : n = m <;> simp [h]

/-- ts' extends ts -/
def Types.Sub (ts ts' : Types) : Prop := ∀ n t, ts.get n = some t → ts'.get n = some t

theorem Types.Sub.refl (ts : Types) : ts.Sub ts := fun _ _ h => h
theorem Types.Sub.trans {ts ts' ts'' : Types} (h : ts.Sub ts') (h' : ts'.Sub ts'') : ts.Sub ts'' := fun n t x => h' n t (h n t x)
theorem Types.Sub.isSome {ts ts' : Types} (h : ts.Sub ts') {n : Bytes} (hn : (ts.get n).isSome) : (ts'.get n).isSome := by
  obtain ⟨t, ht⟩ := Option.isSome_iff_exists.1 hn
  rw [h n t ht]; rfl

def unseen (ts : Types) (U : List Bytes) : Nat := (U.filter fun n => (ts.get n).isNone).length

theorem unseen_mono {ts ts' : Types} (h : ts.Sub ts') (U : List Bytes) : unseen ts' U ≤ unseen ts U := by
  unfold unseen
  induction U with
  | nil => exact Nat.le_refl _
  | cons n U ih =>
    cases h1 : ts.get n with
    | some t => simp [h1, h n t h1]; exact ih
    | none =>
      cases h2 : ts'.get n with
      | some t => simp [h1, h2]; omega
      | none => simp [h1, h2]; exact ih

theorem unseen_cons (ts : Types) (U : List Bytes) (n : Bytes) (t : Resolved) (hn : n ∈ U) (h : ts.get n = none) : unseen ((n, t) :: ts) U < unseen ts U := by
  have hsub : ts.Sub ((n, t) :: ts) := by
    intro m u hm
    rw [get_cons]
    by_cases e : n = m
    · subst e; rw [h] at hm; cases hm
    · rw [if_neg e]; exact hm
  induction U with
  | nil => cases hn
  | cons m U ih =>
    unfold unseen at *
    by_cases e : n = m
    · subst e
      have := unseen_mono hsub U
      unfold unseen at this
      simp [h, get_cons]
      simp [get_cons] at this
      omega
    · have hn' : n ∈ U := by
        rcases List.mem_cons.1 hn with h' | h'
        · exact absurd h' e
        · exact h'
      have ih := ih hn'
      have e1 : Types.get ((n, t) :: ts) m = ts.get m := by rw [get_cons, if_neg e]
      cases h1 : ts.get m with
      | some u => simp only [List.filter_cons, e1, h1]; exact ih
      | none => simp only [List.filter_cons, e1, h1]; exact Nat.succ_lt_succ ih

/-- The outcome of resolving the names `ns` with map ts. -/
def GoodRes (a : Abi) (ts : Types) (ns : List Bytes) : Res → Prop
  | .val ts' => ts.Sub ts' ∧ (∀ n ∈ ns, (ts'.get n).isSome) ∧
      ∀ n t, ts'.get n = some t → ts.get n = some t ∨ (a.describe n = some t ∧ (∃ m ∈ ns, Reach a m n) ∧ ∀ m ∈ t.refs, (ts'.get m).isSome)
  | .panic => ∃ n ∈ ns, ∃ m, Reach a n m ∧ a.describe m = none
  | .diverge => False

def Closed (a : Abi) (U : List Bytes) : Prop := ∀ n ∈ U, ∀ t, a.describe n = some t → ∀ m ∈ t.refs, m ∈ U

theorem Reach.cons {a : Abi} {n m k : Bytes} (h : Refers a n m) (h' : Reach a m k) : Reach a n k := by
  induction h' with
  | refl => exact .step .refl h
  | step _ h2 ih => exact .step ih h2

theorem resolveEach_good (a : Abi) (U : List Bytes) (fuel : Nat) (r : Types → Bytes → Res)
    (hr : ∀ ts n, n ∈ U → unseen ts U < fuel → GoodRes a ts [n] (r ts n)) (ns : List Bytes) : ∀ ts, (∀ n ∈ ns, n ∈ U) → unseen ts U < fuel →
    GoodRes a ts ns (resolveEach r ts ns) := by
  induction ns with
  | nil => intro ts _ _; exact ⟨.refl ts, fun _ h => absurd h List.not_mem_nil, fun n t h => .inl h⟩
  | cons n ns ih =>
    intro ts hn hu
    have h1 := hr ts n (hn n (by simp)) hu
    show GoodRes a ts (n :: ns) ((r ts n).bind fun ts => resolveEach r ts ns)
    cases hx : r ts n with
    | val ts1 =>
      rw [hx] at h1
      obtain ⟨s1, k1, d1⟩ := h1
      have h2 := ih ts1 (fun m hm => hn m (by simp [hm])) (Nat.lt_of_le_of_lt (unseen_mono s1 U) hu)
      show GoodRes a ts (n :: ns) (resolveEach r ts1 ns)
      cases hy : resolveEach r ts1 ns with
      | val ts2 =>
        rw [hy] at h2
        obtain ⟨s2, k2, d2⟩ := h2
        refine ⟨s1.trans s2, ?_, ?_⟩
        · intro m hm
          rcases List.mem_cons.1 hm with rfl | hm
          · exact s2.isSome (k1 m (by simp))
          · exact k2 m hm
        · intro m t hm
          rcases d2 m t hm with h | ⟨h3, ⟨k, hk, h4⟩, h5⟩
          · rcases d1 m t h with h | ⟨h3, ⟨k, hk, h4⟩, h5⟩
            · exact .inl h
            · exact .inr ⟨h3, ⟨k, by rw [List.mem_singleton.1 hk]; simp, h4⟩, fun m hm => s2.isSome (h5 m hm)⟩
          · exact .inr ⟨h3, ⟨k, by simp [hk], h4⟩, h5⟩
      | panic =>
        rw [hy] at h2
        obtain ⟨k, hk, h⟩ := h2
        exact ⟨k, by simp [hk], h⟩
      | diverge => rw [hy] at h2; exact h2.elim
    | panic =>
      rw [hx] at h1
      obtain ⟨k, hk, h⟩ := h1
      exact ⟨k, by rw [List.mem_singleton.1 hk]; simp, h⟩
    | diverge => rw [hx] at h1; exact h1.elim

theorem resolveF_good (a : Abi) (U : List Bytes) (hU : Closed a U) : ∀ fuel ts n, n ∈ U → unseen ts U < fuel → GoodRes a ts [n] (resolveF a fuel ts n) := by
  intro fuel
  induction fuel with
  | zero => intro ts n _ h; omega
  | succ fuel ih =>
    intro ts n hn hu
    unfold resolveF
    cases h : ts.get n with
    | some t =>
      rw [if_pos (by rfl)]
      exact ⟨.refl ts, fun m hm => by rw [List.mem_singleton.1 hm, h]; rfl, fun m t hm => .inl hm⟩
    | none =>
      rw [if_neg (by simp)]
      cases hd : a.describe n with
      | none => exact ⟨n, by simp, n, .refl, hd⟩
      | some t =>
        have hlt := unseen_cons ts U n t hn h
        have hg := resolveEach_good a U fuel (resolveF a fuel) ih t.refs ((n, t) :: ts) (fun m hm => hU n hn t hd m hm) (by omega)
        have hsub : ts.Sub ((n, t) :: ts) := by
          intro m u hm
          rw [get_cons]
          by_cases e : n = m
          · subst e; rw [h] at hm; cases hm
          · rw [if_neg e]; exact hm
        show GoodRes a ts [n] (resolveEach (resolveF a fuel) ((n, t) :: ts) t.refs)
        cases hx : resolveEach (resolveF a fuel) ((n, t) :: ts) t.refs with
        | val ts' =>
          rw [hx] at hg
          obtain ⟨s1, k1, d1⟩ := hg
          have hget : ts'.get n = some t := s1 n t (by rw [get_cons, if_pos rfl])
          refine ⟨hsub.trans s1, fun m hm => by rw [List.mem_singleton.1 hm, hget]; rfl, fun m u hm => ?_⟩
          rcases d1 m u hm with h' | ⟨h3, ⟨k, hk, h4⟩, h5⟩
          · rw [get_cons] at h'
            by_cases e : n = m
            · subst e
              rw [if_pos rfl] at h'
              cases h'
              exact .inr ⟨hd, ⟨n, by simp, .refl⟩, k1⟩
            · rw [if_neg e] at h'
              exact .inl h'
          · exact .inr ⟨h3, ⟨n, by simp, .cons ((refs_iff a n k t hd).1 hk) h4⟩, h5⟩
        | panic =>
          rw [hx] at hg
          obtain ⟨k, hk, m, h1, h2⟩ := hg
          exact ⟨n, by simp, m, .cons ((refs_iff a n k t hd).1 hk) h1, h2⟩
        | diverge => rw [hx] at hg; exact hg.elim

theorem mem_of_first {α : Type} {l : List α} {p : α → Prop} {x : α} (h : First l p x) : x ∈ l := by
  obtain ⟨_, pre, post, rfl, _⟩ := h; simp

theorem refers_names (a : Abi) (n m : Bytes) (h : Refers a n m) : m ∈ a.names := by
  unfold Abi.names
  simp only [List.mem_append, List.mem_flatMap, List.mem_cons, List.mem_map]
  cases h with
  | base _ hs hb => exact .inl (.inl ⟨_, mem_of_first hs, .inl rfl⟩)
  | field _ hs hf => exact .inl (.inl ⟨_, mem_of_first hs, .inr ⟨_, hf, rfl⟩⟩)
  | member _ hv hm => exact .inl (.inr ⟨_, mem_of_first hv.2, hm⟩)
  | alias _ ht => exact .inr ⟨_, mem_of_first ht.2, rfl⟩

theorem resolve_good (a : Abi) (n : Bytes) (fuel : Nat) (hf : a.names.length + 2 ≤ fuel) : GoodRes a [] [n] (resolveF a fuel [] n) := by
  refine resolveF_good a (n :: a.names) ?_ fuel [] n (by simp) ?_
  · intro m hm t ht k hk
    exact List.mem_cons_of_mem _ (refers_names a m k ((refs_iff a m k t ht).1 hk))
  · have : unseen [] (n :: a.names) ≤ (n :: a.names).length := List.length_filter_le _ _
    simp at this
    omega

theorem resolveEach_mono (r r' : Types → Bytes → Res) (h : ∀ ts n, r ts n ≠ .diverge → r' ts n = r ts n) (ns : List Bytes) :
    ∀ ts, resolveEach r ts ns ≠ .diverge → resolveEach r' ts ns = resolveEach r ts ns := by
  induction ns with
  | nil => intro ts _; rfl
  | cons n ns ih =>
    intro ts hd
    have e1 : resolveEach r ts (n :: ns) = (r ts n).bind fun ts => resolveEach r ts ns := rfl
    have e2 : resolveEach r' ts (n :: ns) = (r' ts n).bind fun ts => resolveEach r' ts ns := rfl
    rw [e1] at hd
    rw [e1, e2]
    cases hx : r ts n with
    | val ts' =>
      rw [hx] at hd
      rw [h ts n (by rw [hx]; simp), hx]
      exact ih ts' hd
    | panic => rw [h ts n (by rw [hx]; simp), hx]; rfl
    | diverge => rw [hx] at hd; exact absurd rfl hd

theorem resolveF_mono (a : Abi) : ∀ fuel ts n, resolveF a fuel ts n ≠ .diverge → ∀ k, resolveF a (fuel + k) ts n = resolveF a fuel ts n := by
  intro fuel
  induction fuel with
  | zero => intro ts n h; exact absurd rfl h
  | succ fuel ih =>
    intro ts n h k
    rw [show fuel + 1 + k = (fuel + k) + 1 by omega]
    unfold resolveF at h ⊢
    cases hs : (ts.get n).isSome with
    | true => simp
    | false =>
      rw [hs] at h
      simp only [Bool.false_eq_true, if_false] at h ⊢
      cases hd : a.describe n with
      | none => rfl
      | some t =>
        rw [hd] at h
        exact resolveEach_mono _ _ (fun ts n hh => ih ts n hh k) _ _ h

end Verif
