import Verif.Props.AbiTerm
import Verif.Lemmas.AbiStrict
/-! # C54: suffixes of type names, and binary extensions of ABI types -/
namespace Verif

/-! ## Suffixes -/

/-- A type name without suffixes -/
def Bare (b : Bytes) : Prop := 2 ≤ b.length ∧ ¬ asc "?" <:+ b ∧ ¬ asc "$" <:+ b ∧ ¬ asc "[]" <:+ b

theorem suffix_last {x y s : Bytes} {c d : UInt8} (h : (x ++ [c]) <:+ (y ++ [d])) : c = d := by
  obtain ⟨t, ht⟩ := h
  rw [← List.append_assoc] at ht
  have := (List.append_inj' ht rfl).2
  simpa using this

theorem asc_q : asc "?" = [63] := by decide
theorem asc_d : asc "$" = [36] := by decide
theorem asc_b : asc "[]" = [91, 93] := by decide

theorem spelled_of (b : Bytes) (hb : Bare b) (arr ext opt : Bool) : Spelled (b ++ brackets arr ++ dollar ext ++ questionMark opt) b arr ext opt := by
  obtain ⟨h1, h2, h3, h4⟩ := hb
  refine ⟨b ++ brackets arr, ⟨rfl, ?_, ?_⟩, by simp; omega, rfl, fun _ => h4⟩
  · rintro rfl
    simp only [questionMark, Bool.false_eq_true, if_false, List.append_nil]
    cases ext with
    | true => intro h; exact absurd (suffix_last (s := []) (x := []) (y := b ++ brackets arr) (by simpa [dollar, asc_q, asc_d] using h)) (by decide)
    | false =>
      simp only [dollar, Bool.false_eq_true, if_false, List.append_nil]
      cases arr with
      | true => intro h; exact absurd (suffix_last (s := []) (x := []) (y := b ++ [91]) (by simpa [brackets, asc_q, asc_b] using h)) (by decide)
      | false => simpa [brackets] using h2
  · rintro rfl
    cases arr with
    | true => intro h; exact absurd (suffix_last (s := []) (x := []) (y := b ++ [91]) (by simpa [brackets, asc_d, asc_b] using h)) (by decide)
    | false => simpa [brackets] using h3

/-- The type name that is written as EOSIO does, `T`, `T[]`, `T?`, `T[]?`, `T$`, `T[]$`, is taken apart as EOSIO does.
Missing for C54: both '?' and '$', see C54_suffix_violated; arrays of optional elements, `T?[]`, see C54_inner_violated. -/
theorem C54_suffixes_partial (a : Abi) (b : Bytes) (hb : Bare b) (arr opt ext : Bool) (hx : ¬ (opt = true ∧ ext = true)) (ts : Types)
    (h : resolve a (b ++ brackets arr ++ questionMark opt ++ dollar ext) = .val ts) :
    ∃ t, ts.get (b ++ brackets arr ++ questionMark opt ++ dollar ext) = some t ∧ t.baseName = b ∧ t.isArray = arr ∧ t.isOptional = opt ∧ t.isExtension = ext := by
  obtain ⟨hr, t, ht⟩ := resolve_ready h
  have hs : Spelled (b ++ brackets arr ++ questionMark opt ++ dollar ext) b arr ext opt := by
    have := spelled_of b hb arr ext opt
    cases opt <;> cases ext <;> simp_all [questionMark, dollar]
  obtain ⟨e1, e2, e3, e4⟩ := spelled_unique hs (hr _ t ht).1.2.1
  exact ⟨t, ht, e1.symm, e2.symm, e4.symm, e3.symm⟩

example : Bare (asc "uint8") ∧ ∃ ts, resolve {} (asc "uint8" ++ brackets true ++ questionMark false ++ dollar true) = .val ts ∧ asc "uint8" ++ brackets true ++ questionMark false ++ dollar true = asc "uint8[]$" := by
  refine ⟨⟨by decide, by decide, by decide, by decide⟩, _, rfl, by decide⟩

theorem noQuestion : ∀ c ∈ decCases.map Prod.fst ++ encCases.map Prod.fst, ¬ asc "?" <:+ c := by decide +kernel

/-- A name that ends in '?' is not a builtin. -/
theorem question_unknown (b : Bytes) (hq : asc "?" <:+ b) : decodeBuiltin b = pure (.nil, some errUnknownType) ∧ ∀ v, encodeBuiltin b v = pure (some errExpectedType) := by
  have h1 : decCases.find? (fun c => c.1 = b) = none := by
    rw [List.find?_eq_none]
    intro c hc he
    simp only [decide_eq_true_eq] at he
    exact noQuestion c.1 (by simp only [List.mem_append, List.mem_map]; exact .inl ⟨c, hc, rfl⟩) (he ▸ hq)
  have h2 : encCases.find? (fun c => c.1 = b) = none := by
    rw [List.find?_eq_none]
    intro c hc he
    simp only [decide_eq_true_eq] at he
    exact noQuestion c.1 (by simp only [List.mem_append, List.mem_map]; exact .inr ⟨c, hc, rfl⟩) (he ▸ hq)
  unfold decodeBuiltin encodeBuiltin
  rw [h1, h2]
  exact ⟨rfl, fun _ => rfl⟩

theorem spelled_odd (b : Bytes) (hb : b ≠ []) : Spelled (b ++ asc "?" ++ asc "$") (b ++ asc "?") false true false ∧ Spelled (b ++ asc "?" ++ asc "[]") (b ++ asc "?") true false false := by
  have hl : 0 < b.length := List.length_pos_iff.2 hb
  have nb : ¬ asc "[]" <:+ b ++ asc "?" := fun h => absurd (suffix_last (s := []) (x := [91]) (y := b) (by simpa [asc_b, asc_q] using h)) (by decide)
  refine ⟨⟨b ++ asc "?", ⟨by simp [dollar, questionMark], fun _ h => ?_, fun h => nomatch h⟩, by simp [asc_q]; omega, by simp [brackets], fun _ => nb⟩,
    ⟨b ++ asc "?" ++ asc "[]", ⟨by simp [dollar, questionMark], fun _ h => ?_, fun _ h => ?_⟩, by simp [asc_q]; omega, by simp [brackets], fun h => nomatch h⟩⟩
  · exact absurd (suffix_last (s := []) (x := []) (y := b ++ [63]) (by simpa [asc_q, asc_d] using h)) (by decide)
  · exact absurd (suffix_last (s := []) (x := []) (y := b ++ [63, 91]) (by simpa [asc_q, asc_b] using h)) (by decide)
  · exact absurd (suffix_last (s := []) (x := []) (y := b ++ [63, 91]) (by simpa [asc_q, asc_d, asc_b] using h)) (by decide)

theorem resolve_undefined {a : Abi} {n b : Bytes} {arr ext opt : Bool} (hs : Spelled n b arr ext opt) (hd : NotDefined a b) : a.NoShort n := by
  have key : ∀ m, Reach a n m → m = n := by
    intro m hm
    induction hm with
    | refl => rfl
    | step _ h ih =>
      subst ih
      cases h with
      | base h1 h2 _ => obtain ⟨rfl, _⟩ := spelled_unique hs h1; exact (noStruct_isStruct hd.1.1 h2).elim
      | field h1 h2 _ => obtain ⟨rfl, _⟩ := spelled_unique hs h1; exact (noStruct_isStruct hd.1.1 h2).elim
      | member h1 h2 _ =>
        obtain ⟨rfl, _⟩ := spelled_unique hs h1
        obtain ⟨hv, pre, post, hl, _⟩ := h2.2
        exact absurd hv (hd.1.2 _ (by rw [hl]; simp))
      | «alias» h1 h2 =>
        obtain ⟨rfl, _⟩ := spelled_unique hs h1
        obtain ⟨hv, pre, post, hl, _⟩ := h2.2
        exact absurd hv (hd.2 _ (by rw [hl]; simp))
  intro m hm hshort
  rw [key m hm] at hshort
  have h1 := (parse_short n).2 hshort
  have h2 := (parse_spelled n b arr ext opt).2 hs
  rw [h1] at h2
  cases h2

/-- An optional extension, `T?$`, is not understood: it is taken for an extension of a type called "T?". Nothing is decoded or encoded. -/
theorem C54_suffix_violated (a : Abi) (b : Bytes) (hb : b ≠ []) (hd : NotDefined a (b ++ asc "?")) (fuel : Nat) :
    (∀ fin bs, (a.decode (fuel + 1) (b ++ asc "?" ++ asc "$")).runE fin bs = .ok (.nil, some errUnknownType) bs) ∧
    ∀ v, ∃ e, (a.encode (fuel + 1) (b ++ asc "?" ++ asc "$") v).run = .ok (some e) [] := by
  have hs := (spelled_odd b hb).1
  obtain ⟨ts, hts⟩ := noShort_resolves (resolve_undefined hs hd)
  obtain ⟨hr, t, ht⟩ := resolve_ready hts
  obtain ⟨e1, e2, e3, e4⟩ := spelled_unique hs (hr _ t ht).1.2.1
  obtain ⟨g1, g2, g3⟩ := table_notDefined hr ht (e1 ▸ hd)
  obtain ⟨q1, q2⟩ := question_unknown (b ++ asc "?") ⟨b, rfl⟩
  constructor
  · intro fin bs
    simp only [Abi.decode, hts, decodeTypeF, ht, ← e4, Bool.false_eq_true, if_false, decodeBody, ← e2, decodeInner, g1, g2, g3, ne_eq, not_true_eq_false, ← e1, q1]
    rw [Dec.runE_bind]
    simp only [Pure.pure, Dec.runE, Out.bind]
    rw [if_neg (fun h => absurd h.1 (by decide))]
  · intro v
    simp only [Abi.encode, hts, encodeTypeF, ht, ← e4, Bool.false_eq_true, if_false, encodeBody, ← e2, encodeInner, g1, g2, g3, ne_eq, not_true_eq_false, ← e1, q2]
    split
    · exact ⟨_, rfl⟩
    · exact ⟨_, rfl⟩

/-- Likewise arrays of optional elements, `T?[]`: only empty ones can be decoded or encoded. -/
theorem C54_inner_violated (a : Abi) (b : Bytes) (hb : b ≠ []) (hd : NotDefined a (b ++ asc "?")) (fuel : Nat) (x : AV) (xs : List AV) (p : Bytes) (hp : Count p (xs.length + 1)) :
    (∀ fin rest, (a.decode (fuel + 1) (b ++ asc "?" ++ asc "[]")).runE fin (p ++ rest) = .ok (.nil, some errUnknownType) rest) ∧
    (a.encode (fuel + 1) (b ++ asc "?" ++ asc "[]") (.slice (x :: xs))).run = .ok (some errExpectedType) p := by
  have hs := (spelled_odd b hb).2
  obtain ⟨ts, hts⟩ := noShort_resolves (resolve_undefined hs hd)
  obtain ⟨hr, t, ht⟩ := resolve_ready hts
  obtain ⟨e1, e2, e3, e4⟩ := spelled_unique hs (hr _ t ht).1.2.1
  obtain ⟨g1, g2, g3⟩ := table_notDefined hr ht (e1 ▸ hd)
  obtain ⟨q1, q2⟩ := question_unknown (b ++ asc "?") ⟨b, rfl⟩
  constructor
  · intro fin rest
    simp only [Abi.decode, hts, decodeTypeF, ht, ← e4, Bool.false_eq_true, if_false, decodeBody, ← e2, if_true]
    rw [Dec.runE_bind, (count_reads hp) fin rest]
    simp only [Out.bind]
    obtain ⟨c1, c2⟩ := count_goInt hp
    unfold makeSlice
    have hl := hp.2
    rw [c2, if_neg (by omega), if_neg (by unfold maxAlloc; omega), c1, List.replicate_succ]
    rw [Dec.runE_bind]
    unfold decEach
    simp only [decodeInner, g1, g2, g3, ne_eq, not_true_eq_false, if_false, ← e1, q1]
    rfl
  · have hw := count_writes hp
    simp only [Abi.encode, hts, encodeTypeF, ht, ← e4, Bool.false_eq_true, if_false, encodeBody, ← e2, if_true, AV.isNil]
    simp only [List.length_cons]
    unfold Enc.Writes at hw
    rw [Enc.run_bind, hw]
    simp only [encEach, encodeInner, g1, g2, g3, ne_eq, not_true_eq_false, if_false, ← e1, q2]
    simp [Enc.run_bind, Pure.pure, Enc.run, EOut.bind]

example : (∀ fin bs, (Abi.decode {} 1 (asc "name?$")).runE fin bs = .ok (.nil, some errUnknownType) bs) ∧ Count [2] ([AV.nil].length + 1) :=
  ⟨(C54_suffix_violated {} (asc "name") (by decide) ⟨⟨by simp [NoStruct], by simp⟩, by simp⟩ 0).1, varuintBytes_minLeb 2 (by decide), by decide⟩

/-! ## Absent extensions -/

/-- What stands for an extension that is absent: nil for arrays, variants and for structs with a part that cannot be empty; zero for builtin types. -/
def Missing (a : Abi) (n : Bytes) (v : AV) : Prop := ∀ b arr, Spelled n b arr true false →
  ((arr = true ∨ (∃ w, IsVariant a b w) ∨ ∃ fs f, FieldsOf a b fs ∧ f ∈ fs ∧ Solid a f.type) → v = .nil) ∧
  ∀ ty, arr = false → NotDefined a b → (b, ty) ∈ abiBasics → v = .basic ty ty.zero

theorem known_of {a : Abi} {n : Bytes} {ts : Types} (hts : resolve a n = .val ts) (hc : a.Closed n) : Known a ts := by
  obtain ⟨hr, _⟩ := resolve_ready hts
  intro m u hu h1 h2 h3
  rcases hc m u.baseName u.isArray u.isExtension u.isOptional (((C46_describes a n ts hts).1 m).1 ⟨u, hu⟩) (hr m u hu).1.2.1 with ⟨v, h⟩ | ⟨ty, h⟩ | ⟨f, fs, h⟩ | h
  · rw [(table_variant hr hu h).2.2.1] at h3; cases h3
  · rw [(table_alias hr hu h).1] at h2; cases h2
  · cases h1 _ h
  · exact isBuiltin_cases h

theorem struct_nil {rec : Bytes → Dec (AV × Option Err)} {fin : Err} : ∀ (fs : List (Bytes × Bytes)) (vs : List (Bytes × AV)) (bs r : Bytes) (v : AV) (e : Err),
    (decodeStruct rec fs vs).runE fin bs = .ok (v, some e) r → v = .nil := by
  intro fs
  induction fs with
  | nil => intro vs bs r v e h; cases h
  | cons f fs ih =>
    intro vs bs r v e h
    obtain ⟨⟨x, o⟩, m, _, h2⟩ := bind_ok h
    cases o with
    | some e' => cases h2; rfl
    | none => exact ih _ _ _ _ _ h2

theorem basics_empty {b : Bytes} {ty : Basic} (h : (b, ty) ∈ abiBasics) (fin : Err) : (decodeBuiltin b).runE fin [] = .ok (.basic ty ty.zero, some fin) [] := by
  rw [decodeBuiltin_basic h]
  refine decBasic_empty ty _ fin _ ?_
  cases ty with
  | string => exact readString_empty fin
  | int => exact readVarintD_empty fin
  | uint => exact readVaruint_empty fin
  | _ => rfl

theorem ok_fst {x v : AV} {o o' : Option Err} {r r' : Bytes} (h : Out.ok (x, o) r = .ok (v, o') r') : v = x := by cases h; rfl

section
variable {a : Abi} {ts : Types} (hr : Ready a ts) (hk : Known a ts)

include hr hk in
theorem missing_of {n : Bytes} {t : Resolved} (ht : ts.get n = some t) (fuel : Nat) (v : AV) (h : (decodeTypeF ts fuel n).runE .eof [] = .ok (v, none) []) : Missing a n v := by
  intro b arr hs
  obtain ⟨rfl, rfl, e3, e4⟩ := spelled_unique hs (hr _ t ht).1.2.1
  cases fuel with
  | zero => cases h
  | succ fuel =>
    simp only [decodeTypeF, ht, ← e4, Bool.false_eq_true, if_false, decodeBody] at h
    cases ha : t.isArray with
    | true =>
      simp only [ha, if_true] at h
      rw [Dec.runE_bind, readVaruint_empty] at h
      refine ⟨fun _ => ?_, fun _ he => nomatch he⟩
      exact ok_fst h
    | false =>
      simp only [ha, Bool.false_eq_true, if_false] at h
      rw [Dec.runE_bind] at h
      refine ⟨?_, fun ty _ hd hb => ?_⟩
      · rintro (he | ⟨w, hw⟩ | ⟨fs, f, hf, hm, hsol⟩)
        · cases he
        · obtain ⟨g1, g2, g3, _⟩ := table_variant hr ht hw
          simp only [decodeInner, g1, g2, g3, ne_eq, not_true_eq_false, if_false] at h
          rw [Dec.runE_bind, readVaruint_empty] at h
          exact ok_fst h
        · obtain ⟨g1, g2, g3⟩ := table_struct hr ht hf
          have hne : fieldPairs fs ≠ [] := by
            cases fs with
            | nil => cases hm
            | cons => simp [fieldPairs]
          simp only [decodeInner, g1, g2] at h
          rw [if_pos hne] at h
          rcases members_empty (a := a) (rec := decodeTypeF ts fuel) fs [] (fun f hf => by obtain ⟨u, hu⟩ := g3 f hf; exact type_empty hr hk fuel _ u hu) with h' | ⟨_, w, h'⟩ | ⟨h', _⟩
          · rw [h'] at h; cases h
          · rw [h', struct_nil _ _ _ _ _ _ h'] at h
            exact ok_fst h
          · exact absurd hsol (h' f hm)
      · obtain ⟨g1, g2, g3⟩ := table_notDefined hr ht hd
        simp only [decodeInner, g1, g2, g3, ne_eq, not_true_eq_false, if_false] at h
        rw [basics_empty hb] at h
        exact ok_fst h
end

/-- At the end of the input an extension is absent, without an error. -/
theorem C54_absent (a : Abi) (n b : Bytes) (arr : Bool) (hs : Spelled n b arr true false) (hn : a.NoShort n) (hc : a.Closed n) (hg : ∀ m, Reach a n m → Grounded a m) :
    ∃ N v, Missing a n v ∧ ∀ fuel, N ≤ fuel → (a.decode fuel n).run [] = .ok (v, none) [] := by
  obtain ⟨ts, hts⟩ := noShort_resolves hn
  obtain ⟨hr, t, ht⟩ := resolve_ready hts
  obtain ⟨N, out, h1, h2⟩ := C49_terminates_partial a n hg .eof []
  have hsol : ¬ Solid a n := by rw [solid_iff hs]; simp
  have h3 := type_empty hr (known_of hts hc) N n t ht
  have h4 : (a.decode N n).runE .eof [] = (decodeTypeF ts N n).runE .eof [] := by simp only [Abi.decode, hts]
  rw [h2 N (Nat.le_refl _)] at h4
  rw [← h4] at h3
  rcases h3 with h3 | ⟨h3, _⟩ | ⟨_, v, h3⟩
  · exact absurd h3 h1
  · exact absurd h3 hsol
  · subst h3
    exact ⟨N, v, missing_of hr (known_of hts hc) ht N v h4.symm, h2⟩

/-- Any other type that has no empty encoding is an error (io.EOF) there. -/
theorem C54_required (a : Abi) (n : Bytes) (hs : Solid a n) (hn : a.NoShort n) (hc : a.Closed n) (hg : ∀ m, Reach a n m → Grounded a m) :
    ∃ N v, ∀ fuel, N ≤ fuel → (a.decode fuel n).run [] = .ok (v, some .eof) [] := by
  obtain ⟨ts, hts⟩ := noShort_resolves hn
  obtain ⟨hr, t, ht⟩ := resolve_ready hts
  obtain ⟨N, out, h1, h2⟩ := C49_terminates_partial a n hg .eof []
  have h3 := type_empty hr (known_of hts hc) N n t ht
  have h4 : (a.decode N n).runE .eof [] = (decodeTypeF ts N n).runE .eof [] := by simp only [Abi.decode, hts]
  rw [h2 N (Nat.le_refl _)] at h4
  rw [← h4] at h3
  rcases h3 with h3 | ⟨_, v, h3⟩ | ⟨h3, _⟩
  · exact absurd h3 h1
  · subst h3
    exact ⟨N, v, h2⟩
  · exact absurd hs h3

/-- The other order of the suffixes, `T$?`, is accepted, but its absence is an error: the presence byte is always needed. -/
theorem C54_optional_violated (a : Abi) (n b : Bytes) (arr : Bool) (hs : Spelled n b arr true true) (hn : a.NoShort n) (fuel : Nat) :
    (a.decode (fuel + 1) n).run [] = .ok (.nil, some .eof) [] := by
  obtain ⟨ts, hts⟩ := noShort_resolves hn
  obtain ⟨hr, t, ht⟩ := resolve_ready hts
  obtain ⟨e1, e2, e3, e4⟩ := spelled_unique hs (hr _ t ht).1.2.1
  simp only [Abi.decode, hts, decodeTypeF, ht, ← e4, if_true]
  rfl

/-! ## Trailing extension fields -/

theorem struct_append {rec : Bytes → Dec (AV × Option Err)} {fin : Err} (post : List (Bytes × Bytes)) : ∀ (pre : List (Bytes × Bytes)) (vs : List (Bytes × AV)) (bs r : Bytes) (m : List (Bytes × AV)),
    (decodeStruct rec pre vs).runE fin bs = .ok (.map m, none) r → (decodeStruct rec (pre ++ post) vs).runE fin bs = (decodeStruct rec post m).runE fin r := by
  intro pre
  induction pre with
  | nil => intro vs bs r m h; cases h; rfl
  | cons f pre ih =>
    intro vs bs r m h
    obtain ⟨⟨x, o⟩, q, h1, h2⟩ := bind_ok h
    cases o with
    | some e' => cases h2
    | none =>
      show (rec f.2 >>= _).runE fin bs = _
      rw [Dec.runE_bind, h1]
      exact ih _ _ _ _ h2

theorem trailing {a : Abi} {ts : Types} (hr : Ready a ts) (hk : Known a ts) (hg : ∀ m u, ts.get m = some u → Grounded a m) : ∀ (post : List AbiField) (vs : List (Bytes × AV)),
    (∀ f ∈ post, ∃ u, ts.get f.type = some u) → (∀ f ∈ post, ∃ b arr, Spelled f.type b arr true false) → (vs.map Prod.fst ++ post.map AbiField.name).Nodup →
    ∃ N m, Forall2 (fun (f : AbiField) (e : Bytes × AV) => e.1 = f.name ∧ Missing a f.type e.2) post m ∧
      ∀ fuel, N ≤ fuel → (decodeStruct (decodeTypeF ts fuel) (fieldPairs post) vs).runE .eof [] = .ok (.map (vs ++ m), none) [] := by
  intro post
  induction post with
  | nil => intro vs _ _ _; exact ⟨0, [], .nil, fun _ _ => by simp [fieldPairs, decodeStruct, Pure.pure, Dec.runE]⟩
  | cons f post ih =>
    intro vs h1 h2 h3
    obtain ⟨u, hu⟩ := h1 f (by simp)
    obtain ⟨b, arr, hs⟩ := h2 f (by simp)
    obtain ⟨N, out, g1, g2⟩ := type_halts hr hg .eof _ _ u hu [] rfl
    have hsol : ¬ Solid a f.type := by rw [solid_iff hs]; simp
    have h4 := type_empty hr hk N _ u hu
    rw [g2 N (Nat.le_refl _)] at h4
    rcases h4 with h4 | ⟨h4, _⟩ | ⟨_, v, h4⟩
    · exact absurd h4 g1
    · exact absurd h4 hsol
    · subst h4
      have hnew : f.name ∉ vs.map Prod.fst := by
        rw [List.nodup_append] at h3
        exact fun hc => h3.2.2 f.name hc f.name (by simp) rfl
      obtain ⟨M, m, k1, k2⟩ := ih (vs ++ [(f.name, v)]) (fun g hg => h1 g (by simp [hg])) (fun g hg => h2 g (by simp [hg])) (by simpa using h3)
      refine ⟨N + M, (f.name, v) :: m, .cons ⟨rfl, missing_of hr hk hu N v (g2 N (Nat.le_refl _))⟩ k1, fun fuel hf => ?_⟩
      show (decodeTypeF ts fuel f.type >>= _).runE .eof [] = _
      rw [Dec.runE_bind, g2 fuel (by omega)]
      simp only [Out.bind]
      rw [mapPut_new _ _ _ hnew]
      rw [show (List.map (fun f : AbiField => (f.name, f.type)) post) = fieldPairs post from rfl, k2 fuel (by omega)]
      simp

/-- A struct of which the last fields are extensions, cut off at the end of any field before them: the fields that are there decode to their values, the others are absent,
and there is no error. -/
theorem C54_trailing (a : Abi) (n b : Bytes) (ext : Bool) (hs : Spelled n b false ext false) (hn : a.NoShort n) (hc : a.Closed n) (hg : ∀ m, Reach a n m → Grounded a m)
    (pre post : List AbiField) (hf : FieldsOf a b (pre ++ post)) (hne : pre ++ post ≠ []) (hd : ((pre ++ post).map AbiField.name).Nodup)
    (hx : ∀ f ∈ post, ∃ b arr, Spelled f.type b arr true false) (m : List (Bytes × AV)) (hm : m.map Prod.fst = pre.map AbiField.name) (bs : Bytes)
    (hw : Members a DecodesAs true pre m bs) :
    ∃ N m', Forall2 (fun (f : AbiField) (e : Bytes × AV) => e.1 = f.name ∧ Missing a f.type e.2) post m' ∧
      ∀ fuel, N ≤ fuel → (a.decode fuel n).run bs = .ok (.map (m ++ m'), none) [] := by
  obtain ⟨ts, hts⟩ := noShort_resolves hn
  obtain ⟨hr, t, ht⟩ := resolve_ready hts
  obtain ⟨rfl, e2, e3, e4⟩ := spelled_unique hs (hr _ t ht).1.2.1
  obtain ⟨g1, g2, g3⟩ := table_struct hr ht hf
  have hk := known_of hts hc
  have hg' : ∀ m u, ts.get m = some u → Grounded a m := fun m u hu => hg m (((C46_describes a n ts hts).1 m).1 ⟨u, hu⟩)
  rw [List.map_append] at hd
  obtain ⟨N, h1⟩ := members_decode hr (fun _ _ _ => decodesAs_decodes) hw (fun f hf => g3 f (by simp [hf])) [] m rfl hm (by rw [hm]; exact (List.nodup_append.1 hd).1)
  obtain ⟨M, m', h2, h3⟩ := trailing hr hk hg' post m (fun f hf => g3 f (by simp [hf])) hx (by rw [hm]; exact hd)
  refine ⟨N + M + 1, m', h2, fun fuel hf => ?_⟩
  obtain ⟨fuel, rfl⟩ : ∃ k, fuel = k + 1 := ⟨fuel - 1, by omega⟩
  have h4 := h1 fuel (by omega) .eof []
  rw [List.append_nil] at h4
  have hp : fieldPairs (pre ++ post) = fieldPairs pre ++ fieldPairs post := by simp [fieldPairs]
  have hne' : fieldPairs (pre ++ post) ≠ [] := by simpa [fieldPairs] using hne
  unfold Dec.run
  simp only [Abi.decode, hts, decodeTypeF, ht, ← e4, Bool.false_eq_true, if_false, decodeBody, ← e2, decodeInner, g1, g2]
  rw [if_pos hne', Dec.runE_bind, hp, struct_append _ _ _ _ _ _ h4, h3 fuel (by omega)]
  simp [Out.bind, Pure.pure, Dec.runE]

/-! ## Absent or zero; truncated -/

/-- An absent extension of a builtin type cannot be told from one that is present and zero. -/
theorem C54_zero_violated (a : Abi) (n b : Bytes) (ty : Basic) (hs : Spelled n b false true false) (hb : (b, ty) ∈ abiBasics) (hd : NotDefined a b) (fuel : Nat) :
    (a.decode (fuel + 1) n).run [] = .ok (.basic ty ty.zero, none) [] ∧
    ∀ bs, ty.Wf ty.zero → ty.Layout ty.zero bs → ∃ N, ∀ fuel, N ≤ fuel → (a.decode fuel n).run bs = .ok (.basic ty ty.zero, none) [] := by
  have hn := resolve_undefined hs hd
  constructor
  · obtain ⟨ts, hts⟩ := noShort_resolves hn
    obtain ⟨hr, t, ht⟩ := resolve_ready hts
    obtain ⟨rfl, e2, e3, e4⟩ := spelled_unique hs (hr _ t ht).1.2.1
    obtain ⟨g1, g2, g3⟩ := table_notDefined hr ht hd
    unfold Dec.run
    simp only [Abi.decode, hts, decodeTypeF, ht, ← e4, Bool.false_eq_true, if_false, decodeBody, ← e2, decodeInner, g1, g2, g3, ne_eq, not_true_eq_false]
    rw [Dec.runE_bind, basics_empty hb]
    simp [Out.bind, Pure.pure, Dec.runE, ← e3]
  · intro bs hw hl
    obtain ⟨N, h⟩ := reads_of_wire (a := a) (n := n) (v := .basic ty ty.zero) (bs := bs) (fun _ _ _ => decodesAs_decodes) hn
      (.plain hs (fun h => nomatch h) (.one (.builtin hd (.plain (.basic hb hw hl)))))
    refine ⟨N, fun fuel hf => ?_⟩
    have := h fuel hf .eof []
    rwa [List.append_nil] at this

example : Spelled (asc "uint16$") (asc "uint16") false true false ∧ (asc "uint16", Basic.u16) ∈ abiBasics ∧ Basic.Layout .u16 (Basic.zero .u16) [0, 0] :=
  ⟨(parse_spelled ..).1 (by decide +kernel), by decide, rfl, by decide⟩

/-- An ABI with a struct of two bytes -/
def pairAbi : Abi := { structs := [⟨asc "pair", [], [⟨asc "x", asc "uint8"⟩, ⟨asc "y", asc "uint8"⟩]⟩, ⟨asc "row", [], [⟨asc "k", asc "uint8"⟩, ⟨asc "p", asc "pair$"⟩, ⟨asc "q", asc "string$"⟩]⟩] }

/-- Truncation inside an extension is not always an error: cut after a whole number of reads, a struct or string counts as absent. -/
theorem C54_truncated_violated : (pairAbi.decode 3 (asc "pair$")).run [1] = .ok (.nil, none) [] ∧ (pairAbi.decode 3 (asc "string$")).run [5] = .ok (.basic .string [], none) [] ∧
    (pairAbi.decode 3 (asc "row")).run [7, 1] = .ok (.map [(asc "k", .basic .u8 (7 : UInt8)), (asc "p", .nil), (asc "q", .basic .string [])], none) [] := ⟨rfl, rfl, rfl⟩

/-- The builtin types that are read in one piece, with their sizes. -/
def onePiece : List (Bytes × Nat) := [(asc "uint16", 2), (asc "uint32", 4), (asc "uint64", 8), (asc "int16", 2), (asc "int32", 4), (asc "int64", 8), (asc "float32", 4), (asc "float64", 8),
  (asc "float128", 16), (asc "name", 8), (asc "symbol", 8), (asc "symbol_code", 8), (asc "time_point", 8), (asc "time_point_sec", 4), (asc "block_timestamp_type", 4),
  (asc "checksum160", 20), (asc "checksum256", 32), (asc "checksum512", 64)]

theorem onePiece_read {b : Bytes} {w : Nat} (h : (b, w) ∈ onePiece) : ∃ k, decodeBuiltin b = .read w k ∧ ∀ x c e, ∃ v, k x c (some e) = .ret (v, some e) := by
  simp only [onePiece, List.mem_cons, Prod.mk.injEq, List.not_mem_nil, or_false] at h
  rcases h with ⟨rfl, rfl⟩ | ⟨rfl, rfl⟩ | ⟨rfl, rfl⟩ | ⟨rfl, rfl⟩ | ⟨rfl, rfl⟩ | ⟨rfl, rfl⟩ | ⟨rfl, rfl⟩ | ⟨rfl, rfl⟩ | ⟨rfl, rfl⟩ | ⟨rfl, rfl⟩ | ⟨rfl, rfl⟩ | ⟨rfl, rfl⟩ |
    ⟨rfl, rfl⟩ | ⟨rfl, rfl⟩ | ⟨rfl, rfl⟩ | ⟨rfl, rfl⟩ | ⟨rfl, rfl⟩ | ⟨rfl, rfl⟩ <;> exact ⟨_, rfl, fun _ _ _ => ⟨_, rfl⟩⟩

/-- Truncation inside an extension of a type that is read in one piece is an error.
Missing for C54: types of several pieces, see C54_truncated_violated. -/
theorem C54_truncated_partial (a : Abi) (n b : Bytes) (w : Nat) (hs : Spelled n b false true false) (hb : (b, w) ∈ onePiece) (hd : NotDefined a b) (fuel : Nat) (bs : Bytes)
    (h0 : bs ≠ []) (hl : bs.length < w) : ∃ v, (a.decode (fuel + 1) n).run bs = .ok (v, some .unexpectedEOF) [] := by
  obtain ⟨ts, hts⟩ := noShort_resolves (resolve_undefined hs hd)
  obtain ⟨hr, t, ht⟩ := resolve_ready hts
  obtain ⟨rfl, e2, e3, e4⟩ := spelled_unique hs (hr _ t ht).1.2.1
  obtain ⟨g1, g2, g3⟩ := table_notDefined hr ht hd
  obtain ⟨k, hk, he⟩ := onePiece_read hb
  obtain ⟨v, hv⟩ := he (bs ++ List.replicate (w - bs.length) 0) bs.length (shortErr .eof bs.length)
  have hsh : shortErr .eof bs.length = .unexpectedEOF := by
    unfold shortErr
    rw [if_pos ⟨by simpa using h0, rfl⟩]
  refine ⟨v, ?_⟩
  unfold Dec.run
  simp only [Abi.decode, hts, decodeTypeF, ht, ← e4, Bool.false_eq_true, if_false, decodeBody, ← e2, decodeInner, g1, g2, g3, ne_eq, not_true_eq_false]
  rw [Dec.runE_bind, hk]
  simp only [Dec.runE]
  rw [if_neg (by omega), hv, hsh]
  simp [Out.bind, Pure.pure, Dec.runE]

example : ∃ v, (Abi.decode {} 1 (asc "name$")).run [1, 2, 3] = .ok (v, some .unexpectedEOF) [] :=
  C54_truncated_partial {} _ (asc "name") 8 ((parse_spelled ..).1 (by decide +kernel)) (by decide) ⟨⟨by simp [NoStruct], by simp⟩, by simp⟩ 0 _ (by simp) (by decide)

theorem leb_prefix {p q r s : Bytes} (hp : IsLeb p) (hq : IsLeb q) (h : p ++ r = q ++ s) : p = q := by
  induction p generalizing q with
  | nil => exact absurd hp not_isLeb_nil
  | cons b p ih =>
    cases q with
    | nil => exact absurd hq not_isLeb_nil
    | cons c q =>
      obtain ⟨rfl, h'⟩ := List.cons_eq_cons.1 h
      rw [isLeb_cons] at hp hq
      rcases hp with ⟨rfl, h1⟩ | ⟨h1, hp⟩ <;> rcases hq with ⟨rfl, h2⟩ | ⟨h2, hq⟩
      · rfl
      · omega
      · omega
      · rw [ih hp hq h']

/-- In arrays truncation is an error unless it removes everything but a part of the count, also for extensions: if an array of a builtin type reads `lb ++ body`, where `lb` is the count,
every proper prefix that includes the count fails. -/
theorem C54_array_truncated (a : Abi) (n b : Bytes) (ext : Bool) (hs : Spelled n b true ext false) (hd : NotDefined a b) (v : AV) (lb body : Bytes) (hlb : IsLeb lb) (fuel : Nat)
    (h : (a.decode (fuel + 1) n).run (lb ++ body) = .ok (v, none) []) (k : Nat) (hk : k < body.length) :
    ∃ x e, (a.decode (fuel + 1) n).run (lb ++ body.take k) = .ok (x, some e) [] ∧ (e = .eof ∨ e = .unexpectedEOF) := by
  obtain ⟨ts, hts⟩ := noShort_resolves (resolve_undefined hs hd)
  obtain ⟨hr, t, ht⟩ := resolve_ready hts
  obtain ⟨rfl, e2, e3, e4⟩ := spelled_unique hs (hr _ t ht).1.2.1
  obtain ⟨g1, g2, g3⟩ := table_notDefined hr ht hd
  have h0 : (a.decode (fuel + 1) n).runE .eof (lb ++ body) = .ok (v, none) [] := h
  have hst : (decEach (fun _ => decodeBuiltin t.baseName) (List.replicate (lebValue lb).toUInt64.toNat AV.nil)).Strict false := decEach_strict false _ (fun _ => builtin_strict false _) _
  unfold Dec.run
  simp only [Abi.decode, hts, decodeTypeF, ht, ← e4, Bool.false_eq_true, if_false, decodeBody, ← e2, decodeInner, g1, g2, g3, ne_eq, not_true_eq_false, if_true] at h0 ⊢
  rw [Dec.runE_bind] at h0 ⊢
  have hrun : ∀ rest, readVaruint.runE .eof (lb ++ rest) = .ok ((lebValue lb).toUInt64, none) rest := by
    rcases C05_readVaruint_total .eof (lb ++ body) with ⟨p, rest, e, hp, hl, hv, _⟩ | ⟨p, rest, e, hl, _, _, h'⟩ | ⟨h', _⟩
    · rw [leb_prefix hlb hp e]
      exact fun rest => readVaruint_leb .eof p rest hp hl hv
    · rw [h'] at h0
      simp [Out.bind, Pure.pure, Dec.runE, errVarintOverflow] at h0
    · obtain ⟨init, last, rfl, _, h2⟩ := hlb
      have := h' last (by simp)
      omega
  rw [hrun] at h0 ⊢
  dsimp only [Out.bind_ok] at h0 ⊢
  unfold makeSlice at h0 ⊢
  split at h0
  · cases h0
  · split at h0
    · cases h0
    · rw [if_neg (by assumption), if_neg (by assumption)]
      rw [Dec.runE_bind] at h0 ⊢
      have hfull : ∃ w, (decEach (fun _ => decodeBuiltin t.baseName) (List.replicate (lebValue lb).toUInt64.toNat AV.nil)).runE .eof body = .ok (w, none) [] := by
        revert h0
        cases (decEach (fun _ => decodeBuiltin t.baseName) (List.replicate (lebValue lb).toUInt64.toNat AV.nil)).runE .eof body with
        | panic => exact (fun h => nomatch h)
        | diverge => exact (fun h => nomatch h)
        | ok x r =>
          obtain ⟨w, _ | e⟩ := x
          · intro h; cases h; exact ⟨w, rfl⟩
          · exact (fun h => nomatch h)
      obtain ⟨w, hw⟩ := hfull
      obtain ⟨x, e, hx, he⟩ := hst.truncated (hst.reads .eof hw) .eof k hk
      rw [hx]
      exact ⟨_, e, rfl, he.imp_right And.right⟩

example : ∃ x e, (Abi.decode {} 1 (asc "uint8[]$")).run ([3] ++ [1, 2, 3].take 2) = .ok (x, some e) [] ∧ (e = .eof ∨ e = .unexpectedEOF) :=
  C54_array_truncated {} _ (asc "uint8") true ((parse_spelled ..).1 (by decide +kernel)) ⟨⟨by simp [NoStruct], by simp⟩, by simp⟩
    (.slice [.basic .u8 (1 : UInt8), .basic .u8 (2 : UInt8), .basic .u8 (3 : UInt8)]) [3] [1, 2, 3] ⟨[], 3, rfl, by simp, by decide⟩ 0 rfl 2 (by decide)

theorem row_fields : FieldsOf pairAbi (asc "row") [⟨asc "k", asc "uint8"⟩, ⟨asc "p", asc "pair$"⟩, ⟨asc "q", asc "string$"⟩] :=
  .root (s := ⟨asc "row", [], _⟩) ((getStruct_iff ..).1 (by decide +kernel)) rfl
theorem pair_fields : FieldsOf pairAbi (asc "pair") [⟨asc "x", asc "uint8"⟩, ⟨asc "y", asc "uint8"⟩] :=
  .root (s := ⟨asc "pair", [], _⟩) ((getStruct_iff ..).1 (by decide +kernel)) rfl

theorem row_closed : pairAbi.NoShort (asc "row") ∧ pairAbi.Closed (asc "row") ∧ ∀ m, Reach pairAbi (asc "row") m → Grounded pairAbi m := by
  have : ∃ ts, resolve pairAbi (asc "row") = .val ts ∧ (∀ e ∈ ts, e.2.isArray = false → e.2.isOptional = false → ∀ k ∈ e.2.ref.toList ++ (e.2.allFields ts).map Prod.snd,
      (if k = asc "row" then 2 else if k = asc "pair$" then 1 else 0) < if e.1 = asc "row" then 2 else if e.1 = asc "pair$" then 1 else 0) ∧
      ∀ e ∈ ts, e.2.baseName = asc "row" ∨ e.2.baseName = asc "pair" ∨ e.2.baseName = asc "uint8" ∨ e.2.baseName = asc "string" := ⟨_, rfl, by decide +kernel, by decide +kernel⟩
  obtain ⟨ts, h1, h2, h3⟩ := this
  refine ⟨noShort_of (by rw [h1]; simp), fun m b arr ext opt hm hs => ?_, grounded_of_rank h1 (fun k => if k = asc "row" then 2 else if k = asc "pair$" then 1 else 0) h2⟩
  obtain ⟨hr, _⟩ := resolve_ready h1
  obtain ⟨t, ht⟩ := ((C46_describes _ _ ts h1).1 m).2 hm
  obtain ⟨rfl, _⟩ := spelled_unique hs (hr _ t ht).1.2.1
  have hmem : ∃ e ∈ ts, e.2 = t := by
    simp only [Types.get, Option.map_eq_some_iff] at ht
    obtain ⟨e, he, rfl⟩ := ht
    exact ⟨e, List.mem_of_find?_eq_some he, rfl⟩
  obtain ⟨e, he, rfl⟩ := hmem
  rcases h3 e he with h | h | h | h <;> rw [h]
  · exact .inr (.inr (.inl ⟨_, _, row_fields⟩))
  · exact .inr (.inr (.inl ⟨_, _, pair_fields⟩))
  · exact .inr (.inr (.inr (.inl ⟨.u8, by decide⟩)))
  · exact .inr (.inr (.inr (.inl ⟨.string, by decide⟩)))

/-- A row of which both extensions are absent -/
example : ∃ N m', m'.map Prod.fst = [asc "p", asc "q"] ∧ mapGet m' (asc "p") = .nil ∧
    ∀ fuel, N ≤ fuel → (pairAbi.decode fuel (asc "row")).run [7] = .ok (.map ([(asc "k", .basic .u8 (7 : UInt8))] ++ m'), none) [] := by
  obtain ⟨hn, hc, hg⟩ := row_closed
  have sp : Spelled (asc "pair$") (asc "pair") false true false := (parse_spelled ..).1 (by decide +kernel)
  obtain ⟨N, m', h1, h2⟩ := C54_trailing pairAbi (asc "row") (asc "row") false ((parse_spelled ..).1 (by decide +kernel)) hn hc hg [⟨asc "k", asc "uint8"⟩]
    [⟨asc "p", asc "pair$"⟩, ⟨asc "q", asc "string$"⟩] (.root (s := ⟨asc "row", [], _⟩) ((getStruct_iff ..).1 (by decide +kernel)) rfl) (by simp) (by decide +kernel)
    (by
      simp only [List.mem_cons, List.not_mem_nil, or_false, forall_eq_or_imp, forall_eq]
      exact ⟨⟨_, _, sp⟩, ⟨asc "string", false, (parse_spelled ..).1 (by decide +kernel)⟩⟩)
    [(asc "k", .basic .u8 (7 : UInt8))] rfl ([7] ++ [])
    (.cons ((entry_mapGet ..).2 rfl) (.plain (b := asc "uint8") (arr := false) (ext := false) ((parse_spelled ..).1 (by decide +kernel)) (fun h => nomatch h)
      (.one (.builtin ⟨⟨by unfold NoStruct; decide +kernel, by decide +kernel⟩, by decide +kernel⟩ (.plain (.basic (by decide) trivial ⟨rfl, by decide⟩))))) .nil)
  refine ⟨N, m', ?_, ?_, h2⟩
  · cases h1 with
    | cons g1 g2 => cases g2 with
      | cons g3 g4 => cases g4; simp [g1.1, g3.1]
  · cases h1 with
    | @cons _ e _ _ g1 g2 =>
      have hv : e.2 = .nil := (g1.2 (asc "pair") false sp).1 (.inr (.inr ⟨_, ⟨asc "x", asc "uint8"⟩, pair_fields, by simp,
        .builtin (b := asc "uint8") ((parse_spelled ..).1 (by decide +kernel)) ⟨⟨by unfold NoStruct; decide +kernel, by decide +kernel⟩, by decide +kernel⟩⟩))
      have he : e.1 = asc "p" := g1.1
      simp [mapGet, he, hv]

end Verif
