import Verif.Lemmas.AbiCanon
import Verif.Props.AbiTakes
/-! # C88: Abi.Encode of what Abi.Decode returned -/
namespace Verif

/-- Decode after Encode after Decode is Decode: what Encode writes for a decoded value decodes to the same value, and is no longer than what was decoded. -/
theorem C88_normalises (a : Abi) (ha : a.Real) (hr : a.RealNames) (hd : a.DistinctFields) (n : Bytes) (hn : a.NoShort n) (hx : a.NoExtension n) (fuel : Nat) (fin : Err) (bs r : Bytes) (v : AV)
    (h : (a.decode fuel n).runE fin bs = .ok (v, none) r) (out : Bytes) (fuel' : Nat) (ho : (a.encode fuel' n v).Writes out) :
    ∃ w, bs = w ++ r ∧ out.length ≤ w.length ∧ a.Reads n out v := by
  obtain ⟨w, e, hw⟩ := C82_sound a n hn hx fuel fin bs v r h
  obtain ⟨h1, h2⟩ := accepts_again hd hw out (wire_of_writes ha builtin_sends (accepts_real hr hw) ho)
  refine ⟨w, e, h2, ?_⟩
  obtain ⟨g1, g2⟩ := decode_steps hn hx
  obtain ⟨N, hN⟩ := g2 v out h1
  exact ⟨N, fun k hk => (g1 k).reads (hN k hk)⟩

/-- Encode does write something if the value keeps to the bounds of WriteVaruint and the definition mentions neither bytes nor an alias for an optional type. -/
theorem C88_writes (a : Abi) (hd : a.DistinctFields) (hf : a.FewTypes) (n : Bytes) (hn : a.NoShort n) (hx : a.NoExtension n) (hb : a.NoBytes n) (ho : a.NoOptionalAlias n) (fuel : Nat)
    (fin : Err) (bs r : Bytes) (v : AV) (h : (a.decode fuel n).runE fin bs = .ok (v, none) r) (hv : v.Small) : ∃ out, a.Writes n v out := by
  obtain ⟨w, _, hw⟩ := C82_sound a n hn hx fuel fin bs v r h
  obtain ⟨⟨out, h1⟩, _⟩ := accepts_sent hd hb ho hf hw .refl hv
  exact ⟨out, writes_of_wire sends_builtin hn h1⟩

/-! ## Examples -/

/-- A boolean test of a property of all types that n reaches -/
theorem reach_all {a : Abi} {n : Bytes} (p : Resolved → Bool) (h : (match resolve a n with
    | .val ts => ts.all fun e => p e.2
    | _ => false) = true) : ∀ m, Reach a n m → ∃ t, Describes a m t ∧ p t = true := by
  intro m hm
  match hr : resolve a n with
  | .val ts =>
    rw [hr] at h
    obtain ⟨h1, h2⟩ := C46_describes a n ts hr
    obtain ⟨t, ht⟩ := (h1 m).2 hm
    refine ⟨t, h2 m t ht, ?_⟩
    unfold Types.get at ht
    obtain ⟨e, he', rfl⟩ := Option.map_eq_some_iff.1 ht
    exact List.all_eq_true.1 h e (List.mem_of_find?_eq_some he')
  | .panic => rw [hr] at h; cases h
  | .diverge => rw [hr] at h; cases h

theorem noBytes_of {a : Abi} {n : Bytes} (h : (match resolve a n with
    | .val ts => ts.all fun e => e.2.baseName != asc "bytes"
    | _ => false) = true) : a.NoBytes n := by
  intro m b arr ext opt hm hs
  obtain ⟨t, h1, h2⟩ := reach_all (fun t => t.baseName != asc "bytes") h m hm
  rw [(spelled_unique hs h1.2.1).1]
  simpa using h2

example : takesAbi.Real ∧ takesAbi.RealNames ∧ takesAbi.FewTypes ∧ takesAbi.NoShort (asc "vv") ∧ takesAbi.NoExtension (asc "vv") ∧ takesAbi.NoBytes (asc "vv") ∧ takesAbi.NoOptionalAlias (asc "vv") := by
  refine ⟨by unfold Abi.Real; decide +kernel, by unfold Abi.RealNames; decide +kernel, by unfold Abi.FewTypes; decide +kernel, noShort_of (by decide +kernel), noExtension_of (by decide +kernel),
    noBytes_of (by decide +kernel), fun _ _ _ _ _ t _ _ ht => ?_⟩
  exact nomatch mem_of_first ht.2
theorem takes_distinct : takesAbi.DistinctFields := by
  intro b fs h
  cases h with
  | root h _ =>
    have := mem_of_first h
    simp only [takesAbi, List.mem_singleton] at this
    subst this
    decide +kernel
  | derived h he =>
    have := mem_of_first h
    simp only [takesAbi, List.mem_singleton] at this
    subst this
    exact absurd rfl he
/-- Twelve bytes with long counts and odd booleans are written again in nine. -/
example : (takesAbi.decode 6 (asc "vv")).runE .eof (takesBytes ++ [3]) = .ok (takesValue, none) [3] ∧ (takesAbi.encode 6 (asc "vv") takesValue).Writes [1, 2, 1, 1, 1, 104, 0, 1, 105] := ⟨rfl, by decide +kernel⟩
example : takesValue.Small := by simp [takesValue, AV.Small, smallAll, smallEntries, Basic.Wf, asc]

/-! ## Where it fails -/

/-- An alias for an optional type -/
def aliasAbi : Abi := { types := [⟨asc "maybe", asc "uint8?"⟩], structs := [⟨asc "pair", [], [⟨asc "x", asc "maybe"⟩]⟩, ⟨asc "twice", [], [⟨asc "x", asc "uint8"⟩, ⟨asc "x", asc "string"⟩]⟩] }

theorem reads_of_run {a : Abi} {n : Bytes} (hn : a.NoShort n) (hx : a.NoExtension n) (fuel : Nat) {w : Bytes} {v : AV} (h : (a.decode fuel n).runE .eof w = .ok (v, none) []) : a.Reads n w v := by
  obtain ⟨w', e, hw⟩ := C82_sound a n hn hx fuel .eof w v [] h
  rw [List.append_nil] at e
  obtain ⟨g1, g2⟩ := decode_steps hn hx
  obtain ⟨N, hN⟩ := g2 v w (e ▸ hw)
  exact ⟨N, fun k hk => (g1 k).reads (hN k hk)⟩

/-- A field whose type is an alias for an optional: absent values are decoded as nil, which Encode refuses for every type not itself spelled with '?'. -/
theorem C88_alias_violated : aliasAbi.Reads (asc "pair") [0] (.map [(asc "x", .nil)]) ∧ ∀ fuel out, ¬ (aliasAbi.encode fuel (asc "pair") (.map [(asc "x", .nil)])).Writes out := by
  refine ⟨reads_of_run (noShort_of (by decide +kernel)) (noExtension_of (by decide +kernel)) 5 rfl, fun fuel out => ?_⟩
  refine C52_missing aliasAbi (by unfold Abi.Real; decide +kernel) fuel _ (asc "pair") false false ((parse_spelled ..).1 (by decide)) _ (.root (s := ⟨asc "pair", [], [⟨asc "x", asc "maybe"⟩]⟩)
    ((getStruct_iff ..).1 (by decide +kernel)) rfl) ⟨asc "x", asc "maybe"⟩ (List.mem_singleton.2 rfl) (asc "maybe") false false ((parse_spelled ..).1 (by decide)) [(asc "x", .nil)] ⟨trivial, trivial⟩ ?_ out
  exact (entry_mapGet ..).2 rfl

/-- With two fields of the same name only the second value is kept, and Encode refuses it for the first. -/
theorem C88_duplicate_violated : aliasAbi.Reads (asc "twice") [7, 0] (.map [(asc "x", .basic .string [])]) ∧
    ∀ fuel out, ¬ (aliasAbi.encode fuel (asc "twice") (.map [(asc "x", .basic .string [])])).Writes out := by
  refine ⟨reads_of_run (noShort_of (by decide +kernel)) (noExtension_of (by decide +kernel)) 5 rfl, fun fuel out h => ?_⟩
  match fuel, h with
  | 0, h => exact nomatch (show EOut.diverge = _ from h)
  | 1, h => exact nomatch (show EOut.diverge = _ from h)
  | fuel + 2, h => exact nomatch (show EOut.ok _ _ = _ from h)

end Verif
