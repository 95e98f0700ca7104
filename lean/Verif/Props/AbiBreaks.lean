import Verif.Lemmas.AbiBreaks
import Verif.Props.AbiTerm
/-! # C90: how Abi.Encode refuses a value -/
namespace Verif

/-- `a.Encode(w, n, v)` ends as b says, at every large enough depth. -/
def Abi.Ends (a : Abi) (n : Bytes) (v : AV) (b : Break) : Prop := ∃ N, ∀ fuel, N ≤ fuel → (a.encode fuel n v).Broke b

/-- Every value is written in its wire form or has a first thing that cannot be written. -/
theorem C90_total (a : Abi) (n : Bytes) (hn : a.NoShort n) (v : AV) (hv : v.Real) : (∃ bs, Wire a SendsAs false n v bs) ∨ ∃ w, Breaks a n v w := by
  obtain ⟨ts, hts⟩ := noShort_resolves hn
  obtain ⟨hr, t, ht⟩ := resolve_ready hts
  exact settled hr _ v rfl hv n t ht

/-- That decides how Encode ends: the error and the bytes written before it, a panic, or endless recursion. -/
theorem C90_breaks (a : Abi) (ha : a.Real) (n : Bytes) (hn : a.NoShort n) (v : AV) (hv : v.Real) (w : Break) (h : Breaks a n v w) : a.Ends n v w := by
  obtain ⟨ts, hts⟩ := noShort_resolves hn
  obtain ⟨hr, t, ht⟩ := resolve_ready hts
  obtain ⟨N, h⟩ := breaks_broke hr ha h hv t ht
  refine ⟨N, fun fuel hf => ?_⟩
  unfold Abi.encode
  rw [hts]
  exact h fuel hf

theorem broke_writes {p : Enc (Option Err)} {w : Break} {bs : Bytes} (h : p.Broke w) (h' : p.Writes bs) : False := by
  have h' : p.run = .ok none bs := h'
  cases w with
  | error e out => rw [show p.run = _ from h] at h'; cases h'
  | panics => obtain ⟨x, h⟩ := h; rw [h] at h'; cases h'
  | endless => rw [show p.run = _ from h] at h'; cases h'
theorem broke_unique {p : Enc (Option Err)} {w w' : Break} (h : p.Broke w) (h' : p.Broke w') : w = w' := by
  cases w with
  | error e out =>
    have h : p.run = _ := h
    cases w' with
    | error e' out' => have h' : p.run = _ := h'; rw [h] at h'; cases h'; rfl
    | panics => obtain ⟨x, h'⟩ := h'; rw [h] at h'; cases h'
    | endless => have h' : p.run = _ := h'; rw [h] at h'; cases h'
  | panics =>
    obtain ⟨x, h⟩ := h
    cases w' with
    | error e' out' => have h' : p.run = _ := h'; rw [h] at h'; cases h'
    | panics => rfl
    | endless => have h' : p.run = _ := h'; rw [h] at h'; cases h'
  | endless =>
    have h : p.run = _ := h
    cases w' with
    | error e' out' => have h' : p.run = _ := h'; rw [h] at h'; cases h'
    | panics => obtain ⟨x, h'⟩ := h'; rw [h] at h'; cases h'
    | endless => rfl

/-- Encode ends without success in exactly the ways of `Breaks`. -/
theorem C90_iff (a : Abi) (ha : a.Real) (n : Bytes) (hn : a.NoShort n) (v : AV) (hv : v.Real) (w : Break) : a.Ends n v w ↔ Breaks a n v w := by
  refine ⟨fun ⟨N, h⟩ => ?_, C90_breaks a ha n hn v hv w⟩
  rcases C90_total a n hn v hv with ⟨bs, h'⟩ | ⟨w', h'⟩
  · obtain ⟨M, h'⟩ := writes_of_wire sends_builtin hn h'
    exact (broke_writes (h (N + M) (by omega)) (h' (N + M) (by omega))).elim
  · obtain ⟨M, h2⟩ := C90_breaks a ha n hn v hv w' h'
    rw [broke_unique (h (N + M) (by omega)) (h2 (N + M) (by omega))]
    exact h'

/-- There is one such way, and none for a value that is written. -/
theorem C90_unique (a : Abi) (ha : a.Real) (n : Bytes) (hn : a.NoShort n) (v : AV) (hv : v.Real) (w : Break) (h : Breaks a n v w) :
    (∀ w', Breaks a n v w' → w' = w) ∧ ∀ bs, ¬ Wire a SendsAs false n v bs := by
  obtain ⟨N, h⟩ := C90_breaks a ha n hn v hv w h
  refine ⟨fun w' h' => ?_, fun bs h' => ?_⟩
  · obtain ⟨M, h'⟩ := C90_breaks a ha n hn v hv w' h'
    exact broke_unique (h' (N + M) (by omega)) (h (N + M) (by omega))
  · obtain ⟨M, h'⟩ := writes_of_wire sends_builtin hn h'
    exact broke_writes (h (N + M) (by omega)) (h' (N + M) (by omega))

theorem after_ne_endless {p : Bytes} {w : Break} (h : w.after p = .endless) : w = .endless := by cases w <;> first | rfl | cases h

theorem fields_reach {a : Abi} {b : Bytes} {fs : List AbiField} (h : FieldsOf a b fs) : ∀ {n : Bytes} {arr ext opt : Bool}, Spelled n b arr ext opt → ∀ f ∈ fs, Reach a n f.type := by
  induction h with
  | root hs _ => intro n arr ext opt hn f hf; exact .step .refl (.field hn hs hf)
  | derived hs hne hb _ ih =>
    intro n arr ext opt hn f hf
    rcases List.mem_append.1 hf with hf | hf
    · exact reach_trans (.step .refl (.base hn hs hne)) (ih hb f hf)
    · exact .step .refl (.field hn hs hf)

mutual
theorem endless_circle {a : Abi} {n : Bytes} {v : AV} {w : Break} (h : Breaks a n v w) (hw : w = .endless) : ∃ m, Reach a n m ∧ AliasCircle a m := by
  match h with
  | .circle hc _ => exact ⟨n, .refl, hc⟩
  | .present hs _ hb =>
    obtain ⟨m, h1, h2⟩ := endless_body hb (after_ne_endless hw)
    exact ⟨m, h1 n _ _ _ hs, h2⟩
  | .plain hs _ hb =>
    obtain ⟨m, h1, h2⟩ := endless_body hb hw
    exact ⟨m, h1 n _ _ _ hs, h2⟩
theorem endless_body {a : Abi} {b : Bytes} {arr : Bool} {v : AV} {w : Break} (h : BreaksBody a b arr v w) (hw : w = .endless) :
    ∃ m, (∀ n arr ext opt, Spelled n b arr ext opt → Reach a n m) ∧ AliasCircle a m := by
  match h with
  | .one hi => exact endless_inner hi hw
  | .notSlice _ => cases hw
  | .long _ => cases hw
  | .many _ hi => exact endless_items hi (after_ne_endless hw)
theorem endless_items {a : Abi} {b : Bytes} {xs : List AV} {w : Break} (h : BreaksItems a b xs w) (hw : w = .endless) :
    ∃ m, (∀ n arr ext opt, Spelled n b arr ext opt → Reach a n m) ∧ AliasCircle a m := by
  match h with
  | .here hi => exact endless_inner hi hw
  | .later _ hi => exact endless_items hi (after_ne_endless hw)
theorem endless_inner {a : Abi} {b : Bytes} {v : AV} {w : Break} (h : BreaksInner a b v w) (hw : w = .endless) :
    ∃ m, (∀ n arr ext opt, Spelled n b arr ext opt → Reach a n m) ∧ AliasCircle a m := by
  match h with
  | .alias hi hb =>
    obtain ⟨m, h1, h2⟩ := endless_circle hb hw
    exact ⟨m, fun n _ _ _ hs => reach_trans (.step .refl (.alias hs hi)) h1, h2⟩
  | .notMap _ _ => cases hw
  | .struct hf hm =>
    obtain ⟨f, hmem, m, h1, h2⟩ := endless_members hm hw
    exact ⟨m, fun n _ _ _ hs => reach_trans (fields_reach hf hs f hmem) h1, h2⟩
  | .notPair _ _ => cases hw
  | .notTwo _ _ => cases hw
  | .notName _ _ => cases hw
  | .notMember _ _ => cases hw
  | .farMember _ _ _ _ => cases hw
  | .variant hi hk _ _ hb =>
    obtain ⟨m, h1, h2⟩ := endless_circle hb (after_ne_endless hw)
    exact ⟨m, fun n _ _ _ hs => reach_trans (.step .refl (.member hs hi (by rw [hk]; simp))) h1, h2⟩
  | .builtin _ hb => cases hb <;> cases hw
  | .hollow _ _ hb => cases hb <;> cases hw
theorem endless_members {a : Abi} {fs : List AbiField} {m : List (Bytes × AV)} {w : Break} (h : BreaksMembers a fs m w) (hw : w = .endless) :
    ∃ f ∈ fs, ∃ m, Reach a f.type m ∧ AliasCircle a m := by
  match h with
  | .here _ hb =>
    obtain ⟨m, h1, h2⟩ := endless_circle hb hw
    exact ⟨_, by simp, m, h1, h2⟩
  | .later _ _ hb =>
    obtain ⟨f, hf, h⟩ := endless_members hb (after_ne_endless hw)
    exact ⟨f, by simp [hf], h⟩
end

/-- Encode does not recurse without end for any value if no type in the definition of n is an alias without end. -/
theorem C90_terminates (a : Abi) (ha : a.Real) (n : Bytes) (hn : a.NoShort n) (hc : ∀ m, Reach a n m → ¬ AliasCircle a m) (v : AV) (hv : v.Real) : ¬ a.Ends n v .endless := by
  intro h
  obtain ⟨m, h1, h2⟩ := endless_circle ((C90_iff a ha n hn v hv _).1 h) rfl
  exact hc m h1 h2

/-- The errors of Encode when the writer has none -/
def encodeErrors : List Err := [errFoundNil, errExpectedSlice, errExpectedMap, errExpectedTwo, errVariantName, errUnknownVariant, errExpectedType]

theorem after_error {p out : Bytes} {w : Break} {e : Err} (h : w.after p = .error e out) : ∃ out', w = .error e out' ∧ out = p ++ out' := by
  cases w with
  | error e' o => cases h; exact ⟨o, rfl, rfl⟩
  | panics => cases h
  | endless => cases h

theorem builtin_errors {b : Bytes} {v : AV} {w : Break} (h : BreaksBuiltin b v w) {e : Err} {out : Bytes} (hw : w = .error e out) : e ∈ encodeErrors := by
  cases h <;> cases hw
  decide

mutual
theorem breaks_errors {a : Abi} {n : Bytes} {v : AV} {w : Break} (h : Breaks a n v w) {e : Err} {out : Bytes} (hw : w = .error e out) : e ∈ encodeErrors := by
  match h with
  | .circle _ _ => cases hw
  | .missing _ => cases hw; decide
  | .present _ _ hb => obtain ⟨o, hw, _⟩ := after_error hw; exact body_errors hb hw
  | .plain _ _ hb => exact body_errors hb hw
theorem body_errors {a : Abi} {b : Bytes} {arr : Bool} {v : AV} {w : Break} (h : BreaksBody a b arr v w) {e : Err} {out : Bytes} (hw : w = .error e out) : e ∈ encodeErrors := by
  match h with
  | .one hi => exact inner_errors hi hw
  | .notSlice _ => cases hw; decide
  | .long _ => cases hw
  | .many _ hi => obtain ⟨o, hw, _⟩ := after_error hw; exact items_errors hi hw
theorem items_errors {a : Abi} {b : Bytes} {xs : List AV} {w : Break} (h : BreaksItems a b xs w) {e : Err} {out : Bytes} (hw : w = .error e out) : e ∈ encodeErrors := by
  match h with
  | .here hi => exact inner_errors hi hw
  | .later _ hi => obtain ⟨o, hw, _⟩ := after_error hw; exact items_errors hi hw
theorem inner_errors {a : Abi} {b : Bytes} {v : AV} {w : Break} (h : BreaksInner a b v w) {e : Err} {out : Bytes} (hw : w = .error e out) : e ∈ encodeErrors := by
  match h with
  | .alias _ hb => exact breaks_errors hb hw
  | .notMap _ _ => cases hw; decide
  | .struct _ hm => exact members_errors hm hw
  | .notPair _ _ => cases hw; decide
  | .notTwo _ _ => cases hw; decide
  | .notName _ _ => cases hw; decide
  | .notMember _ _ => cases hw; decide
  | .farMember _ _ _ _ => cases hw
  | .variant _ _ _ _ hb => obtain ⟨o, hw, _⟩ := after_error hw; exact breaks_errors hb hw
  | .builtin _ hb => exact builtin_errors hb hw
  | .hollow _ _ hb => exact builtin_errors hb hw
theorem members_errors {a : Abi} {fs : List AbiField} {m : List (Bytes × AV)} {w : Break} (h : BreaksMembers a fs m w) {e : Err} {out : Bytes} (hw : w = .error e out) : e ∈ encodeErrors := by
  match h with
  | .here _ hb => exact breaks_errors hb hw
  | .later _ _ hb => obtain ⟨o, hw, _⟩ := after_error hw; exact members_errors hb hw
end

/-- Encode to a writer without errors returns none but seven errors. -/
theorem C90_errors (a : Abi) (ha : a.Real) (n : Bytes) (hn : a.NoShort n) (v : AV) (hv : v.Real) (e : Err) (out : Bytes) (h : a.Ends n v (.error e out)) : e ∈ encodeErrors :=
  breaks_errors ((C90_iff a ha n hn v hv _).1 h) rfl

/-- A string that is not the name of a member of the variant, in the second element of the items of the second node of a list: the bytes before it are written. -/
example : sampleAbi.Ends (asc "node") (.map [(asc "value", .basic .u8 (7 : UInt8)), (asc "next", .map [(asc "value", .basic .u8 (1 : UInt8)),
    (asc "items", .slice [.slice [.basic .string (asc "int"), .basic .i64 (5 : Int64)], .slice [.basic .string (asc "bool"), .other]])])])
    (.error errUnknownVariant [7, 1, 1, 0, 2, 1, 5, 0, 0, 0, 0, 0, 0, 0]) := ⟨9, fun fuel hf => by
  obtain ⟨k, rfl⟩ := Nat.exists_eq_add_of_le hf
  rw [Nat.add_comm]
  rfl⟩

/-- nil in the place of the number; two elements too many; and the value of another Go type -/
example : sampleAbi.Ends (asc "node") (.map [(asc "next", .nil)]) (.error errFoundNil []) ∧
    sampleAbi.Ends (asc "item[]") (.slice [.slice [.basic .string (asc "int"), .nil, .nil, .nil]]) (.error errExpectedTwo [1]) ∧
    sampleAbi.Ends (asc "item[]") (.slice [.slice [.basic .string (asc "int"), .basic .u8 (5 : UInt8)]]) (.error errExpectedType [1, 1]) := by
  refine ⟨⟨9, fun fuel hf => ?_⟩, ⟨9, fun fuel hf => ?_⟩, ⟨9, fun fuel hf => ?_⟩⟩ <;>
  · obtain ⟨k, rfl⟩ := Nat.exists_eq_add_of_le hf
    rw [Nat.add_comm]
    rfl

/-- In an array, nil is not taken for an absent element, but for a struct of another Go type. -/
example : sampleAbi.Ends (asc "node[]") (.slice [.nil]) (.error errExpectedMap [1]) := ⟨9, fun fuel hf => by
  obtain ⟨k, rfl⟩ := Nat.exists_eq_add_of_le hf
  rw [Nat.add_comm]
  rfl⟩

example : cyclicAbi.Ends (asc "aa") (.basic .u8 (1 : UInt8)) .endless := by
  refine C90_breaks _ (by unfold Abi.Real; decide +kernel) _ (noShort_of (by decide +kernel)) _ (by simp [AV.Real]) _ (.circle ⟨fun n => n = asc "aa" ∨ n = asc "bb", .inl rfl, ?_⟩ fun h => nomatch h)
  rintro n (rfl | rfl)
  · exact ⟨asc "aa", false, false, ⟨asc "aa", asc "bb"⟩, (parse_spelled ..).1 (by decide +kernel), ⟨⟨by unfold NoStruct; decide +kernel, by decide +kernel⟩, (find_decide ..).1 (by decide +kernel)⟩, .inr rfl⟩
  · exact ⟨asc "bb", false, false, ⟨asc "bb", asc "aa"⟩, (parse_spelled ..).1 (by decide +kernel), ⟨⟨by unfold NoStruct; decide +kernel, by decide +kernel⟩, (find_decide ..).1 (by decide +kernel)⟩, .inl rfl⟩

/-- There is no alias without end if aliases have a higher rank than what they stand for. -/
theorem no_circle {a : Abi} {n : Bytes} {ts : Types} (h : resolve a n = .val ts) (rank : Bytes → Nat) (hrank : ∀ e ∈ ts, e.2.isArray = false → ∀ k ∈ e.2.ref.toList, rank k < rank e.1) :
    ∀ m, Reach a n m → ¬ AliasCircle a m := by
  obtain ⟨hr, _⟩ := resolve_ready h
  rintro m hm ⟨S, h1, h2⟩
  obtain ⟨t, ht⟩ := ((C46_describes a n ts h).1 m).2 hm
  have key : ∀ r m t, S m → ts.get m = some t → rank m = r → False := by
    intro r
    induction r using Nat.strongRecOn with
    | ind r ih =>
      intro m t hm ht hrm
      obtain ⟨b, ext, opt, ty, hs, hi, hty⟩ := h2 m hm
      obtain ⟨rfl, har, _, _⟩ := spelled_unique hs (hr m t ht).1.2.1
      obtain ⟨g1, u, hu⟩ := table_alias hr ht hi
      have hmem : (m, t) ∈ ts := by
        simp only [Types.get, Option.map_eq_some_iff] at ht
        obtain ⟨e, he, rfl⟩ := ht
        have := List.find?_some he
        simp only [decide_eq_true_eq] at this
        rw [← this]
        exact List.mem_of_find?_eq_some he
      exact ih _ (hrm ▸ hrank _ hmem har.symm _ (by simp [g1])) _ u hty hu rfl
  exact key _ m t h1 ht rfl

/-- The linked lists have none. -/
example : ∀ m, Reach sampleAbi (asc "node") m → ¬ AliasCircle sampleAbi m := by
  have : ∃ ts, resolve sampleAbi (asc "node") = .val ts ∧ ∀ e ∈ ts, e.2.isArray = false → ∀ k ∈ e.2.ref.toList, (if k = asc "int" then 1 else 0) < if e.1 = asc "int" then 1 else 0 :=
    ⟨_, rfl, by decide +kernel⟩
  obtain ⟨ts, h1, h2⟩ := this
  exact no_circle h1 (fun k => if k = asc "int" then 1 else 0) h2

end Verif
