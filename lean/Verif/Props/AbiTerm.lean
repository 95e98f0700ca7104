import Verif.Lemmas.AbiTerm
import Verif.Props.AbiCodec
/-! # C49: does decoding an ABI type terminate? -/
namespace Verif

/-- If no type that n mentions leads back to itself without consuming input, decoding terminates on every input: with enough depth the outcome is always the same and
is not running out of depth.
Missing for C49: the condition on the ABI, see C49_diverges. -/
theorem C49_terminates_partial (a : Abi) (n : Bytes) (hg : ∀ m, Reach a n m → Grounded a m) (fin : Err) (bs : Bytes) :
    ∃ N out, out ≠ .diverge ∧ ∀ fuel, N ≤ fuel → (a.decode fuel n).runE fin bs = out := by
  unfold Abi.decode
  cases hts : resolve a n with
  | panic => exact ⟨0, .panic "index out of range", (fun h => nomatch h), fun _ _ => rfl⟩
  | diverge => exact absurd hts (C46_terminates a n).1
  | val ts =>
    obtain ⟨hr, t, ht⟩ := resolve_ready hts
    exact type_halts hr (fun m u hu => hg m (((C46_describes a n ts hts).1 m).1 ⟨u, hu⟩)) fin _ n t ht bs rfl

theorem isBuiltin_cases {b : Bytes} (h : IsBuiltin b) : ∃ c ∈ decCases, c.1 = b := by
  have : b ∈ decCases.map Prod.fst := by
    rcases h with ⟨ty, h⟩ | ⟨c, h⟩ | rfl
    · have h' : b ∈ abiBasics.map Prod.fst := List.mem_map.2 ⟨_, h, rfl⟩
      exact (by decide +kernel : ∀ b ∈ abiBasics.map Prod.fst, b ∈ decCases.map Prod.fst) b h'
    · have h' : b ∈ abiChains.map Prod.fst := List.mem_map.2 ⟨_, h, rfl⟩
      exact (by decide +kernel : ∀ b ∈ abiChains.map Prod.fst, b ∈ decCases.map Prod.fst) b h'
    · decide +kernel
  obtain ⟨c, hc, e⟩ := List.mem_map.1 this
  exact ⟨c, hc, e⟩

/-- The condition is needed: a type that is not grounded makes Decode recurse forever even on the empty input. -/
theorem C49_diverges (a : Abi) (n : Bytes) (hn : a.NoShort n) (hc : a.Closed n) (hg : ¬ Grounded a n) (fuel : Nat) : (a.decode fuel n).run [] = .diverge := by
  obtain ⟨ts, hts⟩ := noShort_resolves hn
  obtain ⟨hr, t, ht⟩ := resolve_ready hts
  unfold Abi.decode
  rw [hts]
  refine type_diverges hr (fun m u hu h1 h2 h3 => ?_) fuel n t ht hg
  rcases hc m u.baseName u.isArray u.isExtension u.isOptional (((C46_describes a n ts hts).1 m).1 ⟨u, hu⟩) (hr m u hu).1.2.1 with ⟨v, h⟩ | ⟨ty, h⟩ | ⟨f, fs, h⟩ | h
  · rw [(table_variant hr hu h).2.2.1] at h3; cases h3
  · rw [(table_alias hr hu h).1] at h2; cases h2
  · cases h1 _ h
  · exact isBuiltin_cases h

/-- Each name in S is an alias of one in S, or a struct whose first field has a type in S, without "[]" and '?'. -/
def Cyclic (a : Abi) (S : Bytes → Prop) : Prop := ∀ n, S n → ∃ b ext, Spelled n b false ext false ∧
  ((∃ t, IsAlias a b t ∧ S t.type) ∨ ∃ f fs, FieldsOf a b (f :: fs) ∧ S f.type)

/-- Cyclic definitions make Decode recurse forever on every input, at whatever depth. -/
theorem C49_violated (a : Abi) (S : Bytes → Prop) (hS : Cyclic a S) (n : Bytes) (hn : a.NoShort n) (h : S n) (fin : Err) (bs : Bytes) (fuel : Nat) :
    (a.decode fuel n).runE fin bs = .diverge := by
  obtain ⟨ts, hts⟩ := noShort_resolves hn
  obtain ⟨hr, t, ht⟩ := resolve_ready hts
  unfold Abi.decode
  rw [hts]
  show (decodeTypeF ts fuel n).runE fin bs = .diverge
  clear hts hn
  induction fuel generalizing n t with
  | zero => rfl
  | succ fuel ih =>
    obtain ⟨b, ext, hs, hb⟩ := hS n h
    obtain ⟨rfl, ha, _, ho⟩ := spelled_unique hs (hr n t ht).1.2.1
    simp only [decodeTypeF, ht, ← ho, Bool.false_eq_true, if_false, decodeBody, ← ha]
    rw [Dec.runE_bind]
    have : (decodeInner ts (decodeTypeF ts fuel) t).runE fin bs = .diverge := by
      rcases hb with ⟨ty, hi, hm⟩ | ⟨f, fs, hf, hm⟩
      · obtain ⟨g1, u, hu⟩ := table_alias hr ht hi
        simp only [decodeInner, g1]
        exact ih _ hm u hu
      · obtain ⟨g1, g2, g3⟩ := table_struct hr ht hf
        obtain ⟨u, hu⟩ := g3 f (by simp)
        simp only [decodeInner, g1, g2]
        rw [if_pos (by simp [fieldPairs])]
        show (decodeStruct _ ((f.name, f.type) :: fieldPairs fs) []).runE fin bs = _
        rw [decodeStruct, Dec.runE_bind, ih _ hm u hu]
        rfl
    rw [this]
    rfl

/-- So do cyclic aliases for Encode of anything but nil. -/
theorem C49_encode_violated (a : Abi) (S : Bytes → Prop) (hS : ∀ n, S n → ∃ b ext t, Spelled n b false ext false ∧ IsAlias a b t ∧ S t.type) (n : Bytes) (hn : a.NoShort n)
    (h : S n) (v : AV) (hv : v ≠ .nil) (fuel : Nat) : a.encode fuel n v = .diverge := by
  obtain ⟨ts, hts⟩ := noShort_resolves hn
  obtain ⟨hr, t, ht⟩ := resolve_ready hts
  unfold Abi.encode
  rw [hts]
  show encodeTypeF ts fuel n v = .diverge
  clear hts hn
  induction fuel generalizing n t with
  | zero => rfl
  | succ fuel ih =>
    obtain ⟨b, ext, ty, hs, hi, hm⟩ := hS n h
    obtain ⟨rfl, ha, _, ho⟩ := spelled_unique hs (hr n t ht).1.2.1
    obtain ⟨g1, u, hu⟩ := table_alias hr ht hi
    simp only [encodeTypeF, ht, ← ho, isNil_false hv, Bool.false_eq_true, if_false, encodeBody, ← ha, encodeInner, g1]
    exact ih _ hm u hu

def cyclicAbi : Abi := { types := [⟨asc "aa", asc "bb"⟩, ⟨asc "bb", asc "aa"⟩], structs := [⟨asc "tree", [], [⟨asc "left", asc "tree"⟩, ⟨asc "right", asc "tree"⟩]⟩] }

example (fin : Err) (bs : Bytes) (fuel : Nat) : (cyclicAbi.decode fuel (asc "aa")).runE fin bs = .diverge ∧ cyclicAbi.encode fuel (asc "aa") (.basic .u8 (1 : UInt8)) = .diverge := by
  have h : ∀ n, (n = asc "aa" ∨ n = asc "bb") → ∃ b ext t, Spelled n b false ext false ∧ IsAlias cyclicAbi b t ∧ (t.type = asc "aa" ∨ t.type = asc "bb") := by
    rintro n (rfl | rfl)
    · exact ⟨asc "aa", false, ⟨asc "aa", asc "bb"⟩, (parse_spelled ..).1 (by decide +kernel), ⟨⟨by unfold NoStruct; decide +kernel, by decide +kernel⟩, (find_decide ..).1 (by decide +kernel)⟩, .inr rfl⟩
    · exact ⟨asc "bb", false, ⟨asc "bb", asc "aa"⟩, (parse_spelled ..).1 (by decide +kernel), ⟨⟨by unfold NoStruct; decide +kernel, by decide +kernel⟩, (find_decide ..).1 (by decide +kernel)⟩, .inl rfl⟩
  exact ⟨C49_violated cyclicAbi (fun n => n = asc "aa" ∨ n = asc "bb") (fun n hn => by obtain ⟨b, ext, t, h1, h2, h3⟩ := h n hn; exact ⟨b, ext, h1, .inl ⟨t, h2, h3⟩⟩) (asc "aa")
      (noShort_of (by decide +kernel)) (.inl rfl) fin bs fuel,
    C49_encode_violated cyclicAbi (fun n => n = asc "aa" ∨ n = asc "bb") h (asc "aa") (noShort_of (by decide +kernel)) (.inl rfl) (.basic .u8 (1 : UInt8)) (fun h => nomatch h) fuel⟩

theorem tree_fields : FieldsOf cyclicAbi (asc "tree") [⟨asc "left", asc "tree"⟩, ⟨asc "right", asc "tree"⟩] :=
  .root (s := ⟨asc "tree", [], _⟩) ((getStruct_iff ..).1 (by decide +kernel)) rfl

example (fin : Err) (bs : Bytes) (fuel : Nat) : (cyclicAbi.decode fuel (asc "tree")).runE fin bs = .diverge :=
  C49_violated cyclicAbi (fun n => n = asc "tree") (by
    rintro n rfl
    exact ⟨asc "tree", false, (parse_spelled ..).1 (by decide +kernel), .inr ⟨_, _, tree_fields, rfl⟩⟩) (asc "tree") (noShort_of (by decide +kernel)) rfl fin bs fuel

/-- A type that leads back to itself is not grounded. -/
theorem not_grounded_of_loop {a : Abi} {n : Bytes} (h : Unguarded a n n) : ¬ Grounded a n := by
  intro hg
  unfold Grounded at hg
  induction hg with
  | intro n _ ih => exact ih n h h

example (fuel : Nat) : (cyclicAbi.decode fuel (asc "tree")).run [] = .diverge := by
  have hr : ∀ m, Reach cyclicAbi (asc "tree") m → m = asc "tree" := by
    have : ∃ ts, resolve cyclicAbi (asc "tree") = .val ts ∧ ts.map Prod.fst = [asc "tree"] := ⟨_, rfl, by decide +kernel⟩
    obtain ⟨ts, h1, h2⟩ := this
    intro m hm
    obtain ⟨t, ht⟩ := ((C46_describes _ _ ts h1).1 m).2 hm
    have : m ∈ ts.map Prod.fst := by
      simp only [Types.get, Option.map_eq_some_iff] at ht
      obtain ⟨e, he, _⟩ := ht
      have := List.find?_some he
      simp only [decide_eq_true_eq] at this
      exact List.mem_map.2 ⟨e, List.mem_of_find?_eq_some he, this⟩
    simpa [h2] using this
  refine C49_diverges cyclicAbi (asc "tree") (noShort_of (by decide +kernel)) (fun m b arr ext opt h hs => ?_) (not_grounded_of_loop ⟨asc "tree", false, (parse_spelled ..).1 (by decide +kernel),
    .field (pre := []) tree_fields (by simp)⟩) fuel
  rw [hr m h] at hs
  obtain ⟨rfl, _⟩ := spelled_unique hs ((parse_spelled (asc "tree") (asc "tree") false false false).1 (by decide +kernel))
  exact .inr (.inr (.inl ⟨_, _, tree_fields⟩))

/-- A sufficient condition: the types in the definition of n can be ranked such that aliases and structs (but not arrays and optional types) have a higher rank than
what they are made of. -/
theorem grounded_of_rank {a : Abi} {n : Bytes} {ts : Types} (h : resolve a n = .val ts) (rank : Bytes → Nat)
    (hrank : ∀ e ∈ ts, e.2.isArray = false → e.2.isOptional = false → ∀ k ∈ e.2.ref.toList ++ (e.2.allFields ts).map Prod.snd, rank k < rank e.1) :
    ∀ m, Reach a n m → Grounded a m := by
  obtain ⟨hr, _⟩ := resolve_ready h
  have key : ∀ r m t, ts.get m = some t → rank m = r → Grounded a m := by
    intro r
    induction r using Nat.strongRecOn with
    | ind r ih =>
      intro m t ht hm
      refine Acc.intro m fun k hk => ?_
      obtain ⟨b, ext, hs, hk⟩ := hk
      obtain ⟨rfl, ha, _, ho⟩ := spelled_unique hs (hr m t ht).1.2.1
      have hmem : (m, t) ∈ ts := by
        simp only [Types.get, Option.map_eq_some_iff] at ht
        obtain ⟨e, he, rfl⟩ := ht
        have := List.find?_some he
        simp only [decide_eq_true_eq] at this
        rw [← this]
        exact List.mem_of_find?_eq_some he
      have hlt := hrank _ hmem ha.symm ho.symm
      cases hk with
      | «alias» hi =>
        obtain ⟨g1, u, hu⟩ := table_alias hr ht hi
        exact ih _ (hm ▸ hlt _ (by simp [g1])) _ u hu rfl
      | @field pre post f hf _ =>
        obtain ⟨g1, g2, g3⟩ := table_struct hr ht hf
        obtain ⟨u, hu⟩ := g3 f (by simp)
        exact ih _ (hm ▸ hlt _ (by simp [g2, fieldPairs])) _ u hu rfl
  intro m hm
  obtain ⟨t, ht⟩ := ((C46_describes a n ts h).1 m).2 hm
  exact key _ m t ht rfl

/-- The linked lists of the example, whose struct node contains an optional list which is a node -/
example (fin : Err) (bs : Bytes) : ∃ N out, out ≠ .diverge ∧ ∀ fuel, N ≤ fuel → (sampleAbi.decode fuel (asc "node")).runE fin bs = out := by
  have : ∃ ts, resolve sampleAbi (asc "node") = .val ts ∧ ∀ e ∈ ts, e.2.isArray = false → e.2.isOptional = false → ∀ k ∈ e.2.ref.toList ++ (e.2.allFields ts).map Prod.snd,
      (if k = asc "node" ∨ k = asc "int" then 1 else 0) < if e.1 = asc "node" ∨ e.1 = asc "int" then 1 else 0 := ⟨_, rfl, by decide +kernel⟩
  obtain ⟨ts, h1, h2⟩ := this
  exact C49_terminates_partial sampleAbi (asc "node") (grounded_of_rank h1 (fun k => if k = asc "node" ∨ k = asc "int" then 1 else 0) h2) fin bs

end Verif
