import Verif.Lemmas.AbiResolve
/-! # C46, C53: resolving type names, looking up definitions -/
namespace Verif

/-- Resolving terminates: from a recursion depth of two more than the number of type names in the ABI on, the outcome is always the same and is not
running out of depth. -/
theorem C46_terminates (a : Abi) (n : Bytes) : resolve a n ≠ .diverge ∧ ∀ fuel, a.names.length + 2 ≤ fuel → resolveF a fuel [] n = resolve a n := by
  have h : resolve a n ≠ .diverge := by
    intro h
    have := resolve_good a n _ (Nat.le_refl _)
    rw [show resolveF a (a.names.length + 2) [] n = _ from h] at this
    exact this
  refine ⟨h, fun fuel hf => ?_⟩
  obtain ⟨k, rfl⟩ := Nat.exists_eq_add_of_le hf
  exact resolveF_mono a _ [] n h k

theorem reach_trans {a : Abi} {n m k : Bytes} (h : Reach a n m) (h' : Reach a m k) : Reach a n k := by
  induction h' with
  | refl => exact h
  | step _ h2 ih => exact .step ih h2

/-- The result contains exactly the types that can be reached from the name, and describes each of them as the ABI does. -/
theorem C46_describes (a : Abi) (n : Bytes) (ts : Types) (h : resolve a n = .val ts) :
    (∀ m, (∃ t, ts.get m = some t) ↔ Reach a n m) ∧ ∀ m t, ts.get m = some t → Describes a m t := by
  have hg := resolve_good a n _ (Nat.le_refl _)
  rw [show resolveF a (a.names.length + 2) [] n = _ from h] at hg
  obtain ⟨_, h1, h2⟩ := hg
  have h2' : ∀ m t, ts.get m = some t → a.describe m = some t ∧ Reach a n m ∧ ∀ k ∈ t.refs, (ts.get k).isSome := by
    intro m t hm
    rcases h2 m t hm with h | ⟨h3, ⟨k, hk, h4⟩, h5⟩
    · cases h
    · rw [List.mem_singleton.1 hk] at h4
      exact ⟨h3, h4, h5⟩
  refine ⟨fun m => ⟨fun ⟨t, ht⟩ => (h2' m t ht).2.1, fun hr => ?_⟩, fun m t ht => (describe_some a m t).1 (h2' m t ht).1⟩
  induction hr with
  | refl => exact Option.isSome_iff_exists.1 (h1 n (by simp))
  | step _ h3 ih =>
    obtain ⟨t, ht⟩ := ih
    obtain ⟨e1, _, e3⟩ := h2' _ t ht
    exact Option.isSome_iff_exists.1 (e3 _ ((refs_iff a _ _ t e1).2 h3))

/-- Resolving panics exactly if a name of less than two bytes (before '$' and '?') can be reached. -/
theorem C46_panics_iff (a : Abi) (n : Bytes) : resolve a n = .panic ↔ ∃ m, Reach a n m ∧ ShortName m := by
  constructor
  · intro h
    have hg := resolve_good a n _ (Nat.le_refl _)
    rw [show resolveF a (a.names.length + 2) [] n = _ from h] at hg
    obtain ⟨k, hk, m, h1, h2⟩ := hg
    rw [List.mem_singleton.1 hk] at h1
    exact ⟨m, h1, (describe_none a m).1 h2⟩
  · rintro ⟨m, h1, h2⟩
    cases h : resolve a n with
    | val ts =>
      obtain ⟨h3, h4⟩ := C46_describes a n ts h
      obtain ⟨t, ht⟩ := (h3 m).2 h1
      exact absurd ((describe_none a m).2 h2) (by rw [(describe_some a m t).2 (h4 m t ht)]; simp)
    | panic => rfl
    | diverge => exact absurd h (C46_terminates a n).1

/-- Then Encode and Decode of the type panic, whatever the value, before a byte is written or read. -/
theorem C46_short (a : Abi) (n m : Bytes) (h : Reach a n m) (hs : ShortName m) (fuel : Nat) :
    (∀ v, ∃ w, a.encode fuel n v = .panic w) ∧ ∃ w, a.decode fuel n = .panic w := by
  have := (C46_panics_iff a n).2 ⟨m, h, hs⟩
  unfold Abi.encode Abi.decode
  rw [this]
  exact ⟨fun _ => ⟨_, rfl⟩, _, rfl⟩

/-- Every type name is either short or has exactly one reading, so the description of a type is unique. -/
theorem C46_spelling (n : Bytes) : (ShortName n ∧ ∀ b arr ext opt, ¬ Spelled n b arr ext opt) ∨
    (¬ ShortName n ∧ ∃ b arr ext opt, Spelled n b arr ext opt ∧ ∀ b' arr' ext' opt', Spelled n b' arr' ext' opt' → b' = b ∧ arr' = arr ∧ ext' = ext ∧ opt' = opt) := by
  cases h : parseTypeName n with
  | none =>
    refine .inl ⟨(parse_short n).1 h, fun b arr ext opt hs => ?_⟩
    rw [(parse_spelled ..).2 hs] at h
    cases h
  | some r =>
    obtain ⟨b, arr, opt, ext⟩ := r
    refine .inr ⟨fun hs => ?_, b, arr, ext, opt, (parse_spelled ..).1 h, fun b' arr' ext' opt' hs => ?_⟩
    · rw [(parse_short n).2 hs] at h; cases h
    · rw [(parse_spelled ..).2 hs] at h
      cases h
      exact ⟨rfl, rfl, rfl, rfl⟩
theorem C46_unique (a : Abi) (n : Bytes) (t t' : Resolved) (h : Describes a n t) (h' : Describes a n t') : t = t' :=
  Option.some.inj (((describe_some a n t).2 h).symm.trans ((describe_some a n t').2 h'))

/-- Short names panic: the empty name, a struct called "a", a field of type "?". -/
theorem C46_violated :
    resolve {} (asc "") = .panic ∧ resolve { structs := [⟨asc "a", [], [⟨asc "x", asc "uint8"⟩]⟩] } (asc "a") = .panic ∧
    resolve { structs := [⟨asc "ab", [], [⟨asc "x", asc "?"⟩]⟩] } (asc "ab") = .panic := by
  decide +kernel

/-- Mutually recursive structs, with a variant, an alias and a base:
node { value uint8; next list? }, list : base node { items item[] }, item = variant(node, int), int = int64. -/
def sampleAbi : Abi := {
  structs := [⟨asc "node", [], [⟨asc "value", asc "uint8"⟩, ⟨asc "next", asc "list?"⟩]⟩, ⟨asc "list", asc "node", [⟨asc "items", asc "item[]"⟩]⟩],
  variants := [⟨asc "item", [asc "node", asc "int"]⟩],
  types := [⟨asc "int", asc "int64"⟩] }

example : ∃ ts, resolve sampleAbi (asc "node") = .val ts ∧ ts.map Prod.fst = [asc "int64", asc "int", asc "item[]", asc "list?", asc "uint8", asc "node"] := by
  refine ⟨_, rfl, ?_⟩
  decide +kernel

/-- struct ab { x ? }: no value can be encoded and no input decoded -/
example (fuel : Nat) (v : AV) : ∃ w, ({ structs := [⟨asc "ab", [], [⟨asc "x", asc "?"⟩]⟩] } : Abi).encode fuel (asc "ab") v = .panic w := by
  obtain ⟨m, h, hs⟩ := (C46_panics_iff { structs := [⟨asc "ab", [], [⟨asc "x", asc "?"⟩]⟩] } (asc "ab")).1 C46_violated.2.2
  exact (C46_short _ _ m h hs fuel).1 v

/-! ## C53 -/

/-- Each lookup returns the first entry with the name. -/
theorem C53_first (a : Abi) :
    (∀ n t, a.getTable n = some t ↔ First a.tables (fun t => t.name = n) t) ∧ (∀ n t, a.getAction n = some t ↔ First a.actions (fun t => t.name = n) t) ∧
    (∀ n t, a.getStruct n = some t ↔ First a.structs (fun t => t.name = n) t) ∧ (∀ n t, a.getType n = some t ↔ First a.types (fun t => t.newTypeName = n) t) ∧
    (∀ n t, a.getVariant n = some t ↔ First a.variants (fun t => t.name = n) t) :=
  ⟨fun _ _ => find_decide _ _ _, fun _ _ => find_decide _ _ _, fun _ _ => find_decide _ _ _, fun _ _ => find_decide _ _ _, fun _ _ => find_decide _ _ _⟩

/-- It returns nil exactly if there is none. -/
theorem C53_nil (a : Abi) :
    (∀ n, a.getTable n = none ↔ ∀ t ∈ a.tables, t.name ≠ n) ∧ (∀ n, a.getAction n = none ↔ ∀ t ∈ a.actions, t.name ≠ n) ∧
    (∀ n, a.getStruct n = none ↔ ∀ t ∈ a.structs, t.name ≠ n) ∧ (∀ n, a.getType n = none ↔ ∀ t ∈ a.types, t.newTypeName ≠ n) ∧
    (∀ n, a.getVariant n = none ↔ ∀ t ∈ a.variants, t.name ≠ n) :=
  ⟨fun _ => find_decide_none _ _, fun _ => find_decide_none _ _, fun _ => find_decide_none _ _, fun _ => find_decide_none _ _, fun _ => find_decide_none _ _⟩

/-- Actions are coded as the type of the first action with the name; without one, nothing is written or read and there is an error. -/
theorem C53_actions (a : Abi) (fuel : Nat) (n : UInt64) :
    (∀ act, First a.actions (fun t => t.name = n) act → (∀ v, a.encodeAction fuel n v = a.encode fuel act.type v) ∧ a.decodeAction fuel n = a.decode fuel act.type) ∧
    ((∀ act ∈ a.actions, act.name ≠ n) → (∀ v, ∃ e, (a.encodeAction fuel n v).run = .ok (some e) []) ∧ ∀ fin bs, ∃ v e, (a.decodeAction fuel n).runE fin bs = .ok (v, some e) bs) := by
  constructor
  · intro act h
    have : a.getAction n = some act := (find_decide _ _ _).2 h
    unfold Abi.encodeAction Abi.decodeAction
    rw [this]
    exact ⟨fun _ => rfl, rfl⟩
  · intro h
    have : a.getAction n = none := (find_decide_none _ _).2 h
    unfold Abi.encodeAction Abi.decodeAction
    rw [this]
    exact ⟨fun _ => ⟨_, rfl⟩, fun _ _ => ⟨_, _, rfl⟩⟩

example : First [AbiAction.mk 1 (asc "x") [], ⟨2, asc "y", []⟩, ⟨2, asc "z", []⟩] (fun t => t.name = 2) ⟨2, asc "y", []⟩ :=
  ⟨rfl, [⟨1, asc "x", []⟩], [⟨2, asc "z", []⟩], rfl, by simp⟩

end Verif
