import Verif.Lemmas.AbiFails
import Verif.Props.AbiEnds
import Verif.Props.ActionDecode
import Verif.Props.AbiTerm
/-! C95: how Abi.Decode refuses an input, for all ABIs, types and inputs. -/
namespace Verif
open Dec

/-- Decode fails in some way, given enough stack, exactly if the type refuses the input in this way; or if its parts call each other without end, and then it recurses without end. -/
theorem C95_decode (a : Abi) (n : Bytes) (hn : a.NoShort n) (fin : Err) (s : Bytes) (x : Failure) :
    (∃ N, ∀ fuel, N ≤ fuel → ((a.decode fuel n).runE fin s).Faults x) ↔ FailsIn a fin n s x ∨ x = .endless ∧ Endless a fin n s := by
  obtain ⟨ts, hts⟩ := noShort_resolves hn
  obtain ⟨hr, t, ht⟩ := resolve_ready hts
  simp only [Abi.decode, hts]
  constructor
  · rintro ⟨N, h⟩
    by_cases hx : x = .endless
    · subst hx
      refine .inr ⟨rfl, diverges_endless hr ht fun k => ?_⟩
      rcases Rising.le (p := fun k => decodeTypeF ts k n) (fun k => type_rises k n) (Nat.le_add_left k N) fin s with h1 | h1
      · exact h1
      · exact h1.symm.trans (h (N + k) (by omega))
    · exact .inl (type_fails hr N n t ht s x hx (h N (Nat.le_refl _)))
  · rintro (h | ⟨rfl, h⟩)
    · exact fails_run hr h t ht
    · exact ⟨0, fun k _ => endless_diverges hr ht h k⟩

/-- A failure at any depth of the stack is the failure, unless the stack overflows. -/
theorem C95_sound (a : Abi) (n : Bytes) (hn : a.NoShort n) (fin : Err) (fuel : Nat) (s : Bytes) (x : Failure) (h : ((a.decode fuel n).runE fin s).Faults x) : x = .endless ∨ FailsIn a fin n s x := by
  obtain ⟨ts, hts⟩ := noShort_resolves hn
  obtain ⟨hr, t, ht⟩ := resolve_ready hts
  simp only [Abi.decode, hts] at h
  exact or_iff_not_imp_left.2 fun hx => type_fails hr fuel n t ht s x hx h

/-- Decode recurses without end exactly if the calls do. -/
theorem C95_endless (a : Abi) (n : Bytes) (hn : a.NoShort n) (fin : Err) (s : Bytes) : (∀ fuel, (a.decode fuel n).runE fin s = .diverge) ↔ Endless a fin n s := by
  obtain ⟨ts, hts⟩ := noShort_resolves hn
  obtain ⟨hr, t, ht⟩ := resolve_ready hts
  simp only [Abi.decode, hts]
  exact ⟨diverges_endless hr ht, fun h k => endless_diverges hr ht h k⟩

/-- Every input gives one value, or is refused in one way, or leads to recursion without end. -/
theorem C95_total (a : Abi) (n : Bytes) (hn : a.NoShort n) (fin : Err) (s : Bytes) :
    (∃ v r, Gives a fin n s v r ∧ (∀ v' r', Gives a fin n s v' r' → v' = v ∧ r' = r) ∧ (∀ x, ¬ FailsIn a fin n s x) ∧ ¬ Endless a fin n s) ∨
    (∃ x, FailsIn a fin n s x ∧ (∀ x', FailsIn a fin n s x' → x' = x) ∧ (∀ v r, ¬ Gives a fin n s v r) ∧ ¬ Endless a fin n s) ∨
    (Endless a fin n s ∧ (∀ v r, ¬ Gives a fin n s v r) ∧ ∀ x, ¬ FailsIn a fin n s x) := by
  have hg := C89_decode a n hn fin s
  have hf : ∀ x, FailsIn a fin n s x → ∃ N, ∀ fuel, N ≤ fuel → ((a.decode fuel n).runE fin s).Faults x := fun x h => (C95_decode a n hn fin s x).2 (.inl h)
  have he := C95_endless a n hn fin s
  by_cases hd : ∀ fuel, (a.decode fuel n).runE fin s = .diverge
  · refine .inr (.inr ⟨he.1 hd, fun v r h => ?_, fun x h => ?_⟩)
    · obtain ⟨N, h⟩ := (hg v r).2 h
      exact nomatch (hd N).symm.trans (h N (Nat.le_refl _))
    · obtain ⟨N, h'⟩ := hf x h
      have h' := h' N (Nat.le_refl _)
      rw [hd N, Out.faults_diverge] at h'
      subst h'
      exact fails_told h
  · have hd' : ¬ Endless a fin n s := fun h => hd (he.2 h)
    obtain ⟨N, hN⟩ := not_forall.1 hd
    rcases Out.faults_or ((a.decode N n).runE fin s) with ⟨v, r, h⟩ | ⟨x, h⟩
    · have h0 := (C89_sound a n hn fin N s v r).1 h
      refine .inl ⟨v, r, h0, fun v' r' h' => ?_, fun x h' => ?_, hd'⟩
      · obtain ⟨M, h1⟩ := (hg v r).2 h0
        obtain ⟨M', h2⟩ := (hg v' r').2 h'
        have := (h1 (M + M') (by omega)).symm.trans (h2 (M + M') (by omega))
        cases this
        exact ⟨rfl, rfl⟩
      · obtain ⟨M, h1⟩ := (hg v r).2 h0
        obtain ⟨M', h2⟩ := hf x h'
        have h3 := h2 (M + M') (by omega)
        rw [h1 (M + M') (by omega)] at h3
        exact Out.faults_ok x h3
    · have h0 : FailsIn a fin n s x := (C95_sound a n hn fin N s x h).resolve_left fun hx => by subst hx; exact hN h
      obtain ⟨M, h1⟩ := hf x h0
      refine .inr (.inl ⟨x, h0, fun x' h' => ?_, fun v r h' => ?_, hd'⟩)
      · obtain ⟨M', h2⟩ := hf x' h'
        exact Out.faults_unique (h2 (M + M') (by omega)) (h1 (M + M') (by omega))
      · obtain ⟨M', h2⟩ := (hg v r).2 h'
        have h3 := h1 (M + M') (by omega)
        rw [h2 (M + M') (by omega)] at h3
        exact Out.faults_ok x h3

/-- io.EOF is the failure exactly of the inputs that C89 says stop. -/
theorem C95_eof (a : Abi) (n : Bytes) (hn : a.NoShort n) (fin : Err) (s : Bytes) : FailsIn a fin n s (.err .eof) ↔ ∃ v, StopsIn a fin n s v := by
  constructor
  · intro h
    obtain ⟨N, h⟩ := (C95_decode a n hn fin s _).2 (.inl h)
    obtain ⟨v, r, h⟩ := h N (Nat.le_refl _)
    exact ⟨v, ((C89_sound a n hn fin N s v r).2 h).1⟩
  · rintro ⟨v, h⟩
    obtain ⟨N, h⟩ := (C89_stops a n hn fin s v []).2 ⟨h, rfl⟩
    exact (C95_sound a n hn fin N s (.err .eof) ⟨v, [], h N (Nat.le_refl _)⟩).resolve_left nofun

/-- The errors that Decode returns, at any depth: that of the reader, io.ErrUnexpectedEOF in place of io.EOF, or one of five messages. -/
theorem C95_errors (a : Abi) (n : Bytes) (hn : a.NoShort n) (fin : Err) (fuel : Nat) (s : Bytes) (v : AV) (e : Err) (r : Bytes) (h : (a.decode fuel n).runE fin s = .ok (v, some e) r) :
    e = fin ∨ fin = .eof ∧ e = .unexpectedEOF ∨ ∃ msg ∈ abiDecodeMessages, e = .msg msg :=
  fails_told ((C95_sound a n hn fin fuel s (.err e) ⟨v, r, h⟩).resolve_left nofun)

/-- DecodeAction refuses names that are no actions, and otherwise as the type of the action does. -/
theorem C95_action (a : Abi) (name : UInt64) (fin : Err) (s : Bytes) (x : Failure) :
    (a.getAction name = none → ∀ fuel, ((a.decodeAction fuel name).runE fin s).Faults x ↔ x = .err errUnknownAction) ∧
    ∀ act, a.getAction name = some act → a.NoShort act.type →
      ((∃ N, ∀ fuel, N ≤ fuel → ((a.decodeAction fuel name).runE fin s).Faults x) ↔ FailsIn a fin act.type s x ∨ x = .endless ∧ Endless a fin act.type s) := by
  constructor
  · intro h fuel
    unfold Abi.decodeAction
    rw [h]
    exact Out.faults_err _ x
  · intro act h hn
    simp only [Abi.decodeAction, h]
    exact C95_decode a act.type hn fin s x

/-- Action.Decode returns an error, given enough stack, exactly if the type of the action refuses the data with it or what was decoded is no map; it panics exactly if the type does. -/
theorem C95_action_decode (a : Abi) (x : Action) (act : AbiAction) (ha : a.getAction x.name = some act) (hn : a.NoShort act.type) :
    (∀ e, (∃ N, ∀ fuel, N ≤ fuel → ∃ r, x.decode a fuel = .ok (none, some e) r) ↔
      FailsIn a .eof act.type x.data (.err e) ∨ e = errNotMap ∧ ∃ v r, Gives a .eof act.type x.data v r ∧ ∀ m, v ≠ .map m) ∧
    ((∃ N, ∀ fuel, N ≤ fuel → ∃ w, x.decode a fuel = .panic w) ↔ FailsIn a .eof act.type x.data .panic) ∧
    ((∀ fuel, x.decode a fuel = .diverge) ↔ Endless a .eof act.type x.data) := by
  have hd : ∀ fuel, x.decode a fuel = match (a.decode fuel act.type).runE .eof x.data with
      | .panic w => .panic w
      | .diverge => .diverge
      | .ok (_, some e) r => .ok (none, some e) r
      | .ok (.map m, none) r => .ok (some m, none) r
      | .ok (_, none) r => .ok (none, some errNotMap) r := by
    intro fuel
    simp only [Action.decode, Abi.decodeAction, ha, Dec.run]
    rfl
  refine ⟨fun e => ⟨?_, ?_⟩, ⟨?_, ?_⟩, ?_⟩
  · rintro ⟨N, h⟩
    obtain ⟨r, h⟩ := h N (Nat.le_refl _)
    rw [hd] at h
    split at h
    · cases h
    · cases h
    · next v e' r' hr => cases h; exact .inl ((C95_sound a act.type hn .eof N x.data (.err e) ⟨v, r, hr⟩).resolve_left nofun)
    · cases h
    · next v r' hv hr => cases h; exact .inr ⟨rfl, v, r, (C89_sound a act.type hn .eof N x.data v r).1 hr, fun m hm => hv m hm⟩
  · rintro (h | ⟨rfl, v, r, h, hv⟩)
    · obtain ⟨N, h⟩ := (C95_decode a act.type hn .eof x.data _).2 (.inl h)
      refine ⟨N, fun fuel hf => ?_⟩
      obtain ⟨v, r, h⟩ := h fuel hf
      exact ⟨r, by rw [hd, h]⟩
    · obtain ⟨N, h⟩ := (C89_decode a act.type hn .eof x.data v r).2 h
      refine ⟨N, fun fuel hf => ⟨r, ?_⟩⟩
      rw [hd, h fuel hf]
      cases v <;> first | rfl | exact absurd rfl (hv _)
  · rintro ⟨N, h⟩
    obtain ⟨w, h⟩ := h N (Nat.le_refl _)
    rw [hd] at h
    split at h <;> cases h
    next hr => exact (C95_sound a act.type hn .eof N x.data .panic ⟨w, hr⟩).resolve_left nofun
  · intro h
    obtain ⟨N, h⟩ := (C95_decode a act.type hn .eof x.data _).2 (.inl h)
    refine ⟨N, fun fuel hf => ?_⟩
    obtain ⟨w, h⟩ := h fuel hf
    exact ⟨w, by rw [hd, h]⟩
  · rw [← C95_endless a act.type hn .eof x.data]
    refine forall_congr' fun fuel => ?_
    rw [hd]
    constructor
    · intro h
      split at h <;> first | assumption | cases h
    · intro h
      rw [h]

/-- Recursion without end needs a type that leads back to itself with no input in between (C49). -/
theorem C95_grounded (a : Abi) (n : Bytes) (hn : a.NoShort n) (hg : ∀ m, Reach a n m → Grounded a m) (fin : Err) (s : Bytes) : ¬ Endless a fin n s := by
  intro h
  obtain ⟨N, out, h1, h2⟩ := C49_terminates_partial a n hg fin s
  exact h1 ((h2 N (Nat.le_refl _)).symm.trans ((C95_endless a n hn fin s).2 h N))

/-- A type that begins with itself leads to it on every input. -/
theorem C95_cyclic (a : Abi) (S : Bytes → Prop) (hS : Cyclic a S) (n : Bytes) (hn : a.NoShort n) (h : S n) (fin : Err) (s : Bytes) : Endless a fin n s :=
  (C95_endless a n hn fin s).1 fun fuel => C49_violated a S hS n hn h fin s fuel

/-! ## Examples -/

theorem ends_noShort : endsAbi.NoShort (asc "row") := noShort_of (by decide +kernel)
/- the first field is missing; the asset is cut off within its amount; the second element of the array is missing -/
example : FailsIn endsAbi .eof (asc "row") [] (.err .eof) := (C95_sound endsAbi (asc "row") ends_noShort .eof 3 _ (.err .eof) ⟨.nil, [], rfl⟩).resolve_left nofun
example : FailsIn endsAbi .eof (asc "row") (7 :: endsAsset.take 5) (.err .unexpectedEOF) := (C95_sound endsAbi (asc "row") ends_noShort .eof 3 _ (.err .unexpectedEOF) ⟨_, [], rfl⟩).resolve_left nofun
example : FailsIn endsAbi .eof (asc "row") (7 :: (endsAsset ++ [2, 5])) (.err .eof) := (C95_sound endsAbi (asc "row") ends_noShort .eof 3 _ (.err .eof) ⟨_, [], rfl⟩).resolve_left nofun
/- 2^62 elements are announced -/
example : FailsIn endsAbi .eof (asc "row") (7 :: (endsAsset ++ [128, 128, 128, 128, 128, 128, 128, 128, 64])) .panic :=
  (C95_sound endsAbi (asc "row") ends_noShort .eof 3 _ .panic ⟨_, by rfl⟩).resolve_left nofun
/- a reader that breaks excuses no extension -/
example : FailsIn endsAbi (.io 5) (asc "row") [7] (.err (.io 5)) := (C95_sound endsAbi (asc "row") ends_noShort (.io 5) 3 _ (.err (.io 5)) ⟨.nil, [], rfl⟩).resolve_left nofun
/- variants, optional types, unknown types -/
def failsAbi : Abi := { variants := [⟨asc "vv", [asc "uint8", asc "ww"]⟩], types := [⟨asc "oo", asc "uint8?"⟩] }
theorem fails_noShort : ∀ n ∈ [asc "vv", asc "oo", asc "public_key"], failsAbi.NoShort n := by
  intro n hn
  simp only [List.mem_cons, List.not_mem_nil, or_false] at hn
  rcases hn with rfl | rfl | rfl <;> exact noShort_of (by decide +kernel)
example : FailsIn failsAbi .eof (asc "vv") [2] (.err (.msg "invalid variant index")) := (C95_sound failsAbi (asc "vv") (fails_noShort _ (by simp)) .eof 3 _ (.err (.msg "invalid variant index")) ⟨.nil, [], rfl⟩).resolve_left nofun
example : FailsIn failsAbi .eof (asc "vv") [1] (.err (.msg "unknown type")) := (C95_sound failsAbi (asc "vv") (fails_noShort _ (by simp)) .eof 3 _ (.err (.msg "unknown type")) ⟨.nil, [], rfl⟩).resolve_left nofun
example : FailsIn failsAbi .eof (asc "vv") [128, 128, 128, 128, 128, 128, 128, 128, 128, 1] .panic :=
  (C95_sound failsAbi (asc "vv") (fails_noShort _ (by simp)) .eof 3 _ .panic ⟨_, by rfl⟩).resolve_left nofun
example : FailsIn failsAbi .eof (asc "oo") [1] (.err .eof) := (C95_sound failsAbi (asc "oo") (fails_noShort _ (by simp)) .eof 3 _ (.err .eof) ⟨_, [], rfl⟩).resolve_left nofun
example : FailsIn failsAbi .eof (asc "public_key") [9, 9] (.err (.msg "unknown key type")) := (C95_sound failsAbi (asc "public_key") (fails_noShort _ (by simp)) .eof 3 _ (.err (.msg "unknown key type")) ⟨_, [9], rfl⟩).resolve_left nofun
/- a struct that begins with itself -/
example (fin : Err) (s : Bytes) : Endless cyclicAbi fin (asc "tree") s := by
  refine C95_cyclic cyclicAbi (fun n => n = asc "tree") ?_ (asc "tree") (noShort_of (by decide +kernel)) rfl fin s
  rintro n rfl
  exact ⟨asc "tree", false, (parse_spelled ..).1 (by decide +kernel), .inr ⟨_, _, tree_fields, rfl⟩⟩
/- the action of goAbi that is a number: decoded, but no map; the action that is a struct, without its byte -/
example : ∃ N, ∀ fuel, N ≤ fuel → ∃ r, (newAction 1 5 [] []).decode goAbi fuel = .ok (none, some .eof) r :=
  ((C95_action_decode goAbi (newAction 1 5 [] []) ⟨5, asc "gogo", []⟩ rfl (noShort_of (by decide +kernel))).1 .eof).2
    (.inl ((C95_sound goAbi (asc "gogo") (noShort_of (by decide +kernel)) .eof 3 [] (.err .eof) ⟨_, [], rfl⟩).resolve_left nofun))

end Verif
