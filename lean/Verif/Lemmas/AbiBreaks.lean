import Verif.Spec.AbiBreaks
import Verif.Props.Fault
namespace Verif

/-- p ends as w says. -/
def Enc.Broke (p : Enc (Option Err)) : Break → Prop
  | .error e out => p.run = .ok (some e) out
  | .panics => p.Panics
  | .endless => p.run = .diverge

theorem Enc.Broke.first {p q : Enc (Option Err)} {w : Break} (h : p.Broke w) : (p.bind fun e => match e with | some e => pure (some e) | none => q).Broke w := by
  cases w with
  | error e out => show Enc.run _ = _; rw [Enc.run_bind', show p.run = _ from h]; simp [Enc.run, EOut.prepend, EOut.bind, pure]
  | panics => exact Enc.Panics.first h
  | endless => show Enc.run _ = _; rw [Enc.run_bind', show p.run = _ from h]; rfl

theorem Enc.Broke.after {p q : Enc (Option Err)} {b : Bytes} {w : Break} (hp : p.Writes b) (h : q.Broke w) :
    (p.bind fun e => match e with | some e => pure (some e) | none => q).Broke (w.after b) := by
  have hp' : p.run = .ok none b := hp
  cases w with
  | error e out => show Enc.run _ = _; rw [Enc.run_bind', hp', EOut.bind_ok]; simp only [show q.run = _ from h]; rfl
  | panics => exact Enc.Panics.after hp h
  | endless => show Enc.run _ = _; rw [Enc.run_bind', hp', EOut.bind_ok]; simp only [show q.run = _ from h]; rfl

/-- It does at all large enough depths. -/
def BrokeEv (p : Nat → Enc (Option Err)) (w : Break) : Prop := ∃ N, ∀ fuel, N ≤ fuel → (p fuel).Broke w

theorem BrokeEv.const {p : Enc (Option Err)} {w : Break} (h : p.Broke w) : BrokeEv (fun _ => p) w := ⟨0, fun _ _ => h⟩
theorem BrokeEv.first {p q : Nat → Enc (Option Err)} {w : Break} (h : BrokeEv p w) :
    BrokeEv (fun fuel => (p fuel).bind fun e => match e with | some e => pure (some e) | none => q fuel) w := by
  obtain ⟨N, h⟩ := h
  exact ⟨N, fun fuel hf => (h fuel hf).first⟩
theorem BrokeEv.after {p q : Nat → Enc (Option Err)} {b : Bytes} {w : Break} (hp : WritesEv p b) (h : BrokeEv q w) :
    BrokeEv (fun fuel => (p fuel).bind fun e => match e with | some e => pure (some e) | none => q fuel) (w.after b) := by
  obtain ⟨N, hp⟩ := hp
  obtain ⟨M, h⟩ := h
  exact ⟨N + M, fun fuel hf => Enc.Broke.after (hp fuel (by omega)) (h fuel (by omega))⟩
theorem BrokeEv.congr {p q : Nat → Enc (Option Err)} {w : Break} (h : BrokeEv p w) (e : ∀ fuel, q fuel = p fuel) : BrokeEv q w := by
  obtain ⟨N, h⟩ := h
  exact ⟨N, fun fuel hf => by rw [e]; exact h fuel hf⟩

/-! ### Builtin types -/

theorem encBasic_typed {b : Bytes} {ty : Basic} {f : ty.Val → Enc (Option Err)} (hb : (b, ty) ∈ abiBasics) {v : AV} {p : Enc (Option Err)} (h : encBasic ty f v = some p) : GoTyped b v := by
  unfold encBasic at h
  obtain ⟨x, hx, _⟩ := Option.map_eq_some_iff.1 h
  rw [asBasic_some hx]
  exact .basic hb
theorem encChain_typed {b : Bytes} {c : ChainTy} (hb : (b, c) ∈ abiChains) {v : AV} {p : Enc (Option Err)} (h : encChain c v = some p) : GoTyped b v := by
  unfold encChain at h
  obtain ⟨x, hx, _⟩ := Option.map_eq_some_iff.1 h
  rw [asChain_some hx]
  exact .chain hb

theorem encCases_typed : ∀ c ∈ encCases, ∀ (v : AV) (p : Enc (Option Err)), c.2 v = some p → GoTyped c.1 v := by
  intro c hc v p h
  simp only [encCases, List.mem_cons, List.not_mem_nil, or_false] at hc
  rcases hc with rfl | rfl | rfl | rfl | rfl | rfl | rfl | rfl | rfl | rfl | rfl | rfl | rfl | rfl | rfl | rfl | rfl | rfl | rfl | rfl | rfl | rfl | rfl | rfl | rfl | rfl | rfl | rfl |
    rfl | rfl | rfl | rfl
  case inr.inr.inr.inr.inr.inl =>
    simp only at h
    cases hx : v.asBasic .u64 with
    | some x => rw [asBasic_some hx]; exact .uint64
    | none =>
      rw [hx] at h
      obtain ⟨x, hx, _⟩ := Option.map_eq_some_iff.1 h
      rw [asChain_some hx]
      exact .chain (by simp [abiChains])
  case inr.inr.inr.inr.inr.inr.inr.inr.inr.inr.inr.inr.inr.inr.inr.inr.inr.inl =>
    obtain ⟨x, hx, _⟩ := Option.map_eq_some_iff.1 h
    cases v <;> first | cases hx | skip
    exact .bytes
  case inr.inr.inr.inr.inr.inr.inr.inr.inr.inr.inr.inr.inr.inr.inr.inr.inr.inr.inr.inr.inr.inr.inr.inl =>
    unfold encChain at h
    obtain ⟨x, hx, _⟩ := Option.map_eq_some_iff.1 h
    rw [asChain_some hx]
    exact .eosioName
  all_goals first
    | exact encBasic_typed (by simp [abiBasics]) h
    | exact encChain_typed (by simp [abiChains]) h

theorem encodeBuiltin_type {b : Bytes} {v : AV} (h : ¬ GoTyped b v) : encodeBuiltin b v = pure (some errExpectedType) := by
  unfold encodeBuiltin
  cases hf : encCases.find? fun c => c.1 = b with
  | none => rfl
  | some c =>
    simp only
    cases hp : c.2 v with
    | none => rfl
    | some p =>
      have hb : c.1 = b := by simpa using List.find?_some hf
      exact absurd (hb ▸ encCases_typed c (List.mem_of_find?_eq_some hf) v p hp) h

theorem basic_fault (ty : Basic) (x : ty.Val) : (ty.Wf x → ty.fault x = none) ∧ (¬ ty.Wf x → ty.fault x = some .panics) := by
  cases ty
  case string => exact ⟨fun h => if_pos h, fun h => if_neg h⟩
  case int => exact ⟨fun h => if_pos h, fun h => if_neg h⟩
  case uint => exact ⟨fun h => if_pos h, fun h => if_neg h⟩
  all_goals exact ⟨fun _ => rfl, fun h => absurd trivial h⟩

theorem real_basic {ty : Basic} {x : ty.Val} (h : (AV.basic ty x).Real) : (Ty.basic ty).Real x := by
  cases ty
  case string => exact (by simpa [AV.Real] using h : List.length (α := UInt8) x < 2 ^ 63)
  all_goals trivial

theorem builtin_broke {b : Bytes} {v : AV} {w : Break} (hv : v.Real) (h : BreaksBuiltin b v w) : (encodeBuiltin b v).Broke w := by
  cases h with
  | type h => rw [encodeBuiltin_type h]; rfl
  | range hb hw =>
    rename_i ty x
    rw [encodeBuiltin_basic hb]
    have := ends_basic ty x (real_basic hv)
    rw [(basic_fault ty x).2 hw] at this
    exact this

theorem builtin_total (b : Bytes) (v : AV) (hv : v.Real) : (∃ bs, SendsAs b v bs) ∨ ∃ w, BreaksBuiltin b v w := by
  by_cases h : GoTyped b v
  · cases h with
    | basic hb =>
      rename_i ty x
      by_cases hw : ty.Wf x
      · obtain ⟨bs, h1, _⟩ := ty.codec x hw
        exact .inl ⟨bs, .basic hb hw h1⟩
      · exact .inr ⟨_, .range hb hw⟩
    | chain hb =>
      rename_i c x
      have hf := abiChains_free hb x
      have := ends_chain c x hf.1
      rw [hf.2] at this
      obtain ⟨bs, h1, _⟩ := this
      exact .inl ⟨bs, .chain hb h1⟩
    | uint64 =>
      rename_i x
      obtain ⟨bs, h1, _⟩ := ChainTy.codec .uint64 x trivial
      exact .inl ⟨bs, .uint64 h1⟩
    | eosioName =>
      rename_i x
      obtain ⟨bs, h1, _⟩ := ChainTy.codec .name x trivial
      exact .inl ⟨bs, .eosioName h1⟩
    | bytes => exact .inl ⟨_, .bytes⟩
  · exact .inr ⟨_, .type h⟩

/-! ### What breaks Encode -/

theorem long_broke {n : Nat} (h : 2 ^ 28 ≤ n) (hn : n < 2 ^ 63) : (writeVaruint n.toUInt64).Broke .panics := writeLen_panics n h hn

theorem findVariant_none {vn : Bytes} : ∀ (types : List Bytes) (i : Nat), vn ∉ types → findVariant vn i types = none := by
  intro types
  induction types with
  | nil => intro _ _; rfl
  | cons u us ih =>
    intro i h
    show (if u = vn then _ else _) = _
    rw [if_neg fun e => h (by simp [e]), ih _ fun hm => h (by simp [hm])]

theorem circle_diverges {a : Abi} {ts : Types} (hr : Ready a ts) {S : Bytes → Prop} (hS : ∀ m, S m → ∃ b ext opt t, Spelled m b false ext opt ∧ IsAlias a b t ∧ S t.type) {v : AV} (hv : v ≠ .nil)
    (fuel : Nat) : ∀ n t, S n → ts.get n = some t → (encodeTypeF ts fuel n v).run = .diverge := by
  induction fuel with
  | zero => intro _ _ _ _; rfl
  | succ fuel ih =>
    intro n t h ht
    obtain ⟨b, ext, opt, ty, hs, hi, hm⟩ := hS n h
    obtain ⟨rfl, ha, _, ho⟩ := spelled_unique hs (hr n t ht).1.2.1
    obtain ⟨g1, u, hu⟩ := table_alias hr ht hi
    have hb : (encodeBody ts (encodeTypeF ts fuel) t v).run = .diverge := by
      unfold encodeBody
      rw [← ha]
      simp only [Bool.false_eq_true, if_false, encodeInner, g1]
      exact ih _ u hm hu
    unfold encodeTypeF
    rw [ht]
    simp only [isNil_false hv, Bool.false_eq_true, if_false]
    by_cases hopt : t.isOptional
    · rw [if_pos hopt, Enc.run_bind, show (writeBool (!false)).run = .ok none [1] from writeBool_writes true, EOut.bind_ok]
      simp only [Bool.false_or, Option.isSome_none, Bool.false_eq_true, if_false, hb]
      rfl
    · rw [if_neg hopt]; exact hb

section
variable {a : Abi} {ts : Types} (hr : Ready a ts) (ha : a.Real)
include hr ha

mutual
theorem breaks_broke {n : Bytes} {v : AV} {w : Break} (h : Breaks a n v w) (hv : v.Real) (t : Resolved) (hn : ts.get n = some t) : BrokeEv (fun fuel => encodeTypeF ts fuel n v) w := by
  match h with
  | .circle ⟨S, h1, h2⟩ hne => exact ⟨0, fun fuel _ => circle_diverges hr h2 hne fuel n t h1 hn⟩
  | .missing hs =>
    have ho := (spelled_unique hs (hr n t hn).1.2.1).2.2.2
    refine ⟨1, fun fuel hf => ?_⟩
    obtain ⟨fuel, rfl⟩ := Nat.exists_eq_add_one_of_ne_zero (show fuel ≠ 0 by omega)
    unfold encodeTypeF
    simp only [hn, ← ho]
    rfl
  | .present (v := v) hs hne hb =>
    obtain ⟨h1, h2, _, ho⟩ := spelled_unique hs (hr n t hn).1.2.1
    obtain ⟨N, ih⟩ := breaks_body hb hv n t hn h1 h2
    refine ⟨N + 1, fun fuel hf => ?_⟩
    obtain ⟨fuel, rfl⟩ := Nat.exists_eq_add_one_of_ne_zero (show fuel ≠ 0 by omega)
    unfold encodeTypeF
    simp only [hn, ← ho, if_true, isNil_false hne, Bool.not_false]
    exact Enc.Broke.after (b := [1]) (writeBool_writes true) (ih fuel (by omega))
  | .plain (v := v) hs hne hb =>
    obtain ⟨h1, h2, _, ho⟩ := spelled_unique hs (hr n t hn).1.2.1
    obtain ⟨N, ih⟩ := breaks_body hb hv n t hn h1 h2
    refine ⟨N + 1, fun fuel hf => ?_⟩
    obtain ⟨fuel, rfl⟩ := Nat.exists_eq_add_one_of_ne_zero (show fuel ≠ 0 by omega)
    unfold encodeTypeF
    simp only [hn, ← ho, Bool.false_eq_true, if_false, isNil_false hne]
    exact ih fuel (by omega)
theorem breaks_body {b : Bytes} {arr : Bool} {v : AV} {w : Break} (h : BreaksBody a b arr v w) (hv : v.Real) (n : Bytes) (t : Resolved) (hn : ts.get n = some t) (hb : b = t.baseName)
    (har : arr = t.isArray) : BrokeEv (fun fuel => encodeBody ts (encodeTypeF ts fuel) t v) w := by
  match h with
  | .one hi =>
    refine (breaks_inner hi hv n t hn hb).congr fun fuel => ?_
    unfold encodeBody
    rw [← har]
    rfl
  | .notSlice hx =>
    refine ⟨0, fun fuel _ => ?_⟩
    unfold encodeBody
    rw [← har]
    cases v with
    | slice xs => exact absurd rfl (hx xs)
    | _ => rfl
  | .long (xs := xs) hl =>
    refine (BrokeEv.first (q := fun fuel => encEach (encodeInner ts (encodeTypeF ts fuel) t) (pure none) xs) (.const (long_broke hl hv.1))).congr fun fuel => ?_
    unfold encodeBody
    rw [← har]
    rfl
  | .many (xs := xs) hc hi =>
    refine (BrokeEv.after (.const (count_writes hc)) (breaks_items hi hv.2 n t hn hb)).congr fun fuel => ?_
    unfold encodeBody
    rw [← har]
    rfl
theorem breaks_items {b : Bytes} {xs : List AV} {w : Break} (h : BreaksItems a b xs w) (hv : realAll xs) (n : Bytes) (t : Resolved) (hn : ts.get n = some t) (hb : b = t.baseName) :
    BrokeEv (fun fuel => encEach (encodeInner ts (encodeTypeF ts fuel) t) (pure none) xs) w := by
  match h with
  | .here hx => exact (breaks_inner hx hv.1 n t hn hb).first
  | .later hx hxs => exact .after (inner_encode hr sends_builtin hx n t hn hb) (breaks_items hxs hv.2 n t hn hb)
theorem breaks_inner {b : Bytes} {v : AV} {w : Break} (h : BreaksInner a b v w) (hv : v.Real) (n : Bytes) (t : Resolved) (hn : ts.get n = some t) (hb : b = t.baseName) :
    BrokeEv (fun fuel => encodeInner ts (encodeTypeF ts fuel) t v) w := by
  match h with
  | .alias hi hw =>
    have ih := breaks_broke hw hv
    subst hb
    obtain ⟨h1, u, hu⟩ := table_alias hr hn hi
    refine (ih u hu).congr fun fuel => ?_
    unfold encodeInner
    rw [h1]
  | .notMap hf hx =>
    subst hb
    obtain ⟨h1, h2, h3⟩ := table_struct hr hn hf
    refine ⟨0, fun fuel _ => ?_⟩
    unfold encodeInner
    rw [h1, h2]
    simp only
    rw [if_pos (by simp [fieldPairs])]
    cases v with
    | map m => exact absurd rfl (hx m)
    | _ => rfl
  | .struct (m := m) hf hm =>
    have ih := breaks_members hm hv
    subst hb
    obtain ⟨h1, h2, h3⟩ := table_struct hr hn hf
    refine (ih h3).congr fun fuel => ?_
    unfold encodeInner
    rw [h1, h2]
    simp only
    rw [if_pos (by simp [fieldPairs])]
  | .notPair hi hx =>
    subst hb
    obtain ⟨h1, h2, h3, h4⟩ := table_variant hr hn hi
    refine ⟨0, fun fuel _ => ?_⟩
    unfold encodeInner
    rw [h1, h2, h3]
    cases v with
    | slice xs => exact absurd rfl (hx xs)
    | _ => rfl
  | .notTwo (xs := xs) hi hx =>
    subst hb
    obtain ⟨h1, h2, h3, h4⟩ := table_variant hr hn hi
    refine ⟨0, fun fuel _ => ?_⟩
    unfold encodeInner
    rw [h1, h2, h3]
    match xs, hx with
    | [], _ => rfl
    | [_], _ => rfl
    | [_, _], hx => exact absurd rfl hx
    | _ :: _ :: _ :: _, _ => rfl
  | .notName (x := x) hi hx =>
    subst hb
    obtain ⟨h1, h2, h3, h4⟩ := table_variant hr hn hi
    refine ⟨0, fun fuel _ => ?_⟩
    unfold encodeInner
    rw [h1, h2, h3]
    have : x.asBasic .string = none := by
      cases hs : x.asBasic .string with
      | none => rfl
      | some s => exact absurd (asBasic_some hs) (hx s)
    simp only [this]
    rfl
  | .notMember (s := s) hi hx =>
    subst hb
    obtain ⟨h1, h2, h3, h4⟩ := table_variant hr hn hi
    refine ⟨0, fun fuel _ => ?_⟩
    unfold encodeInner
    rw [h1, h2, h3]
    simp only [ne_eq, not_true_eq_false, if_false]
    show Enc.Broke (match findVariant s 0 _ with | none => _ | some (i, tv) => _) _
    rw [findVariant_none _ _ hx]
    rfl
  | .farMember (k := k) (pre := pre) (t := m) (y := y) hi hk hx hl =>
    subst hb
    obtain ⟨h1, h2, h3, h4⟩ := table_variant hr hn hi
    have hlt : pre.length < 2 ^ 63 := by
      have := ha k (mem_of_first hi.2)
      rw [hk] at this
      simp at this
      omega
    refine (BrokeEv.first (q := fun fuel => encodeTypeF ts fuel m y) (.const (long_broke hl hlt))).congr fun fuel => ?_
    unfold encodeInner
    rw [h1, h2, h3, hk]
    simp only [ne_eq, not_true_eq_false, if_false]
    show (match findVariant m 0 _ with | none => _ | some (i, tv) => _) = _
    rw [findVariant_split _ _ _ _ hx, Nat.zero_add]
    rfl
  | .variant (k := k) (pre := pre) (t := m) (y := y) hi hk hx hc hw =>
    have ih := breaks_broke hw hv.2.2.1
    subst hb
    obtain ⟨h1, h2, h3, h4⟩ := table_variant hr hn hi
    obtain ⟨u, hu⟩ := h4 m (by rw [hk]; simp)
    refine (BrokeEv.after (.const (count_writes hc)) (ih u hu)).congr fun fuel => ?_
    unfold encodeInner
    rw [h1, h2, h3, hk]
    simp only [ne_eq, not_true_eq_false, if_false]
    show (match findVariant m 0 _ with | none => _ | some (i, tv) => _) = _
    rw [findVariant_split _ _ _ _ hx, Nat.zero_add]
    rfl
  | .builtin hd hw =>
    subst hb
    obtain ⟨h1, h2, h3⟩ := table_notDefined hr hn hd
    refine (BrokeEv.const (builtin_broke hv hw)).congr fun fuel => ?_
    unfold encodeInner
    rw [h1, h2, h3]
    rfl
  | .hollow hs hf hw =>
    subst hb
    obtain ⟨h1, h2, h3⟩ := table_hollow hr hn hs hf
    refine (BrokeEv.const (builtin_broke hv hw)).congr fun fuel => ?_
    unfold encodeInner
    rw [h1, h2, h3]
    rfl
theorem breaks_members {fs : List AbiField} {m : List (Bytes × AV)} {w : Break} (h : BreaksMembers a fs m w) (hv : realEntries m) (hk : ∀ f ∈ fs, ∃ u, ts.get f.type = some u) :
    BrokeEv (fun fuel => encEach (fun f : Bytes × Bytes => encodeTypeF ts fuel f.2 (mapGet m f.1)) (pure none) (fieldPairs fs)) w := by
  match h with
  | .here (f := f) (x := x) he hw =>
    obtain ⟨u, hu⟩ := hk f (by simp)
    have e := (entry_mapGet _ _ _).1 he
    have h1 := breaks_broke hw (e ▸ mapGet_real hv _) u hu
    rw [← e] at h1
    exact h1.first
  | .later (f := f) he hw hm =>
    obtain ⟨u, hu⟩ := hk f (by simp)
    have h1 := wire_encode hr sends_builtin hw u hu
    rw [← (entry_mapGet _ _ _).1 he] at h1
    exact .after h1 (breaks_members hm hv fun g hg => hk g (by simp [hg]))
end
end

/-! ### Nothing else happens -/

theorem circle_of_not_acc {a : Abi} {n : Bytes} (h : ¬ Acc (fun m k => ∃ b ext opt t, Spelled k b false ext opt ∧ IsAlias a b t ∧ m = t.type) n) : AliasCircle a n := by
  refine ⟨fun m => ¬ Acc (fun m k => ∃ b ext opt t, Spelled k b false ext opt ∧ IsAlias a b t ∧ m = t.type) m, h, fun m hm => ?_⟩
  by_contra hc
  refine hm (.intro _ fun k hk => ?_)
  by_contra hk'
  obtain ⟨b, ext, opt, t, h1, h2, rfl⟩ := hk
  exact hc ⟨b, ext, opt, t, h1, h2, hk'⟩

/-- Encode writes v as n or breaks. -/
def Settled (a : Abi) (n : Bytes) (v : AV) : Prop := (∃ bs, Wire a SendsAs false n v bs) ∨ ∃ w, Breaks a n v w

theorem settled_nil {a : Abi} {ts : Types} (hr : Ready a ts) {n : Bytes} {t : Resolved} (hn : ts.get n = some t) : Settled a n .nil := by
  have hs := (hr n t hn).1.2.1
  cases ho : t.isOptional with
  | true => rw [ho] at hs; exact .inl ⟨_, .absent hs⟩
  | false => rw [ho] at hs; exact .inr ⟨_, .missing hs⟩

section
variable {a : Abi} {ts : Types} (hr : Ready a ts)
include hr

theorem settled_members (m : List (Bytes × AV)) (hm : ∀ k n t, ts.get n = some t → Settled a n (mapGet m k)) : (fs : List AbiField) → (∀ f ∈ fs, ∃ u, ts.get f.type = some u) →
    (∃ bs, Members a SendsAs false fs m bs) ∨ ∃ w, BreaksMembers a fs m w
  | [], _ => .inl ⟨_, .nil⟩
  | f :: fs, hk => by
    obtain ⟨u, hu⟩ := hk f (by simp)
    have he : Entry m f.name (mapGet m f.name) := (entry_mapGet _ _ _).2 rfl
    rcases hm f.name _ u hu with ⟨b1, h1⟩ | ⟨w, h1⟩
    · rcases settled_members m hm fs fun g hg => hk g (by simp [hg]) with ⟨b2, h2⟩ | ⟨w, h2⟩
      · exact .inl ⟨_, .cons he h1 h2⟩
      · exact .inr ⟨_, .later he h1 h2⟩
    · exact .inr ⟨_, .here he h1⟩

theorem settled_inner (n : Bytes) (t : Resolved) (hn : ts.get n = some t) (v : AV) (hv : v.Real) (hal : ∀ ty, IsAlias a t.baseName ty → Settled a ty.type v)
    (hsub : ∀ x, sizeOf x < sizeOf v → x.Real → ∀ n t, ts.get n = some t → Settled a n x) :
    (∃ bs, Inner a SendsAs false t.baseName v bs) ∨ ∃ w, BreaksInner a t.baseName v w := by
  rcases table_cases hr hn with ⟨ty, hi⟩ | ⟨f, fs, hi⟩ | ⟨va, hi⟩ | hi | ⟨s, hi, hf⟩
  · rcases hal ty hi with ⟨bs, h⟩ | ⟨w, h⟩
    · exact .inl ⟨_, .alias hi h⟩
    · exact .inr ⟨_, .alias hi h⟩
  · obtain ⟨h1, h2, h3⟩ := table_struct hr hn hi
    by_cases hm : ∃ m, v = .map m
    · obtain ⟨m, rfl⟩ := hm
      have key : ∀ k n t, ts.get n = some t → Settled a n (mapGet m k) := by
        intro k n t ht
        cases hf : m.find? fun e => e.1 = k with
        | none => rw [show mapGet m k = .nil by unfold mapGet; rw [hf]]; exact settled_nil hr ht
        | some e =>
          have hr' := mapGet_real hv k
          have e1 : mapGet m k = e.2 := by unfold mapGet; rw [hf]
          rw [e1] at hr' ⊢
          refine hsub _ ?_ hr' n t ht
          have h1 := List.sizeOf_lt_of_mem (List.mem_of_find?_eq_some hf)
          have h2 : sizeOf e = 1 + sizeOf e.1 + sizeOf e.2 := rfl
          have h3 : sizeOf (AV.map m) = 1 + sizeOf m := by simp
          omega
      rcases settled_members hr m key _ h3 with ⟨bs, h⟩ | ⟨w, h⟩
      · exact .inl ⟨_, .struct hi h fun e => nomatch e⟩
      · exact .inr ⟨_, .struct hi h⟩
    · exact .inr ⟨_, .notMap hi fun m e => hm ⟨m, e⟩⟩
  · obtain ⟨h1, h2, h3, h4⟩ := table_variant hr hn hi
    by_cases hm : ∃ xs, v = .slice xs
    · obtain ⟨xs, rfl⟩ := hm
      match xs, hv, hsub with
      | [x, y], hv, hsub =>
        by_cases hx : ∃ s : Bytes, x = .basic .string s
        · obtain ⟨s, rfl⟩ := hx
          by_cases hs : s ∈ va.types
          · obtain ⟨pre, post, e1, e2⟩ := List.eq_append_cons_of_mem hs
            obtain ⟨u, hu⟩ := h4 s hs
            by_cases hl : pre.length < 2 ^ 28
            · have hc : Count (varuintBytes pre.length) pre.length := ⟨varuintBytes_minLeb _ hl, hl⟩
              rcases hsub y (by simp; omega) hv.2.2.1 s u hu with ⟨bs, h⟩ | ⟨w, h⟩
              · exact .inl ⟨_, .variant hi e1 e2 hc h⟩
              · exact .inr ⟨_, .variant hi e1 e2 hc h⟩
            · exact .inr ⟨_, .farMember hi e1 e2 (by omega)⟩
          · exact .inr ⟨_, .notMember hi hs⟩
        · exact .inr ⟨_, .notName hi fun s e => hx ⟨s, e⟩⟩
      | [], _, _ => exact .inr ⟨_, .notTwo hi (by simp)⟩
      | [_], _, _ => exact .inr ⟨_, .notTwo hi (by simp)⟩
      | _ :: _ :: _ :: _, _, _ => exact .inr ⟨_, .notTwo hi (by simp)⟩
    · exact .inr ⟨_, .notPair hi fun m e => hm ⟨m, e⟩⟩
  · rcases builtin_total t.baseName v hv with ⟨bs, h⟩ | ⟨w, h⟩
    · exact .inl ⟨_, .builtin hi h⟩
    · exact .inr ⟨_, .builtin hi h⟩
  · rcases builtin_total t.baseName v hv with ⟨bs, h⟩ | ⟨w, h⟩
    · exact .inl ⟨_, .hollow hi hf h⟩
    · exact .inr ⟨_, .hollow hi hf h⟩

theorem settled_items (n : Bytes) (t : Resolved) (hn : ts.get n = some t) : (xs : List AV) → realAll xs →
    (∀ x ∈ xs, ∀ n t, ts.get n = some t → Settled a n x) → (∀ x ∈ xs, ∀ y, sizeOf y < sizeOf x → y.Real → ∀ n t, ts.get n = some t → Settled a n y) →
    (∃ bs, Items a SendsAs false t.baseName xs bs) ∨ ∃ w, BreaksItems a t.baseName xs w
  | [], _, _, _ => .inl ⟨_, .nil⟩
  | x :: xs, hv, h1, h2 => by
    have hx := settled_inner hr n t hn x hv.1 (fun ty hi => by obtain ⟨_, u, hu⟩ := table_alias hr hn hi; exact h1 x (by simp) _ u hu) (h2 x (by simp))
    rcases hx with ⟨b1, g1⟩ | ⟨w, g1⟩
    · rcases settled_items n t hn xs hv.2 (fun y hy => h1 y (by simp [hy])) (fun y hy => h2 y (by simp [hy])) with ⟨b2, g2⟩ | ⟨w, g2⟩
      · exact .inl ⟨_, .cons g1 g2⟩
      · exact .inr ⟨_, .later g1 g2⟩
    · exact .inr ⟨_, .here g1⟩

theorem settled_body (n : Bytes) (t : Resolved) (hn : ts.get n = some t) (v : AV) (hv : v.Real) (hal : t.isArray = false → ∀ ty, IsAlias a t.baseName ty → Settled a ty.type v)
    (hsub : ∀ x, sizeOf x < sizeOf v → x.Real → ∀ n t, ts.get n = some t → Settled a n x) :
    (∃ bs, Body a SendsAs false t.baseName t.isArray v bs) ∨ ∃ w, BreaksBody a t.baseName t.isArray v w := by
  cases har : t.isArray with
  | false =>
    rcases settled_inner hr n t hn v hv (hal har) hsub with ⟨bs, h⟩ | ⟨w, h⟩
    · exact .inl ⟨_, .one h⟩
    · exact .inr ⟨_, .one h⟩
  | true =>
    by_cases hm : ∃ xs, v = .slice xs
    · obtain ⟨xs, rfl⟩ := hm
      by_cases hl : xs.length < 2 ^ 28
      · have hc : Count (varuintBytes xs.length) xs.length := ⟨varuintBytes_minLeb _ hl, hl⟩
        have hall : ∀ ys, realAll ys → ∀ y ∈ ys, y.Real := by
          intro ys
          induction ys with
          | nil => intro _ y hy; cases hy
          | cons z zs ih =>
            intro h y hy
            rcases List.mem_cons.1 hy with rfl | hy
            · exact h.1
            · exact ih h.2 y hy
        have hlt : ∀ x ∈ xs, sizeOf x < sizeOf (AV.slice xs) := fun x hx => by
          have := List.sizeOf_lt_of_mem hx
          have h3 : sizeOf (AV.slice xs) = 1 + sizeOf xs := by simp
          omega
        rcases settled_items hr n t hn xs hv.2 (fun x hx => hsub x (hlt x hx) (hall _ hv.2 x hx)) (fun x hx y hy => hsub y (by have := hlt x hx; omega)) with ⟨bs, h⟩ | ⟨w, h⟩
        · exact .inl ⟨_, .many hc h⟩
        · exact .inr ⟨_, .many hc h⟩
      · exact .inr ⟨_, .long (by omega)⟩
    · exact .inr ⟨_, .notSlice fun m e => hm ⟨m, e⟩⟩

theorem settled (k : Nat) : ∀ v : AV, sizeOf v = k → v.Real → ∀ n t, ts.get n = some t → Settled a n v := by
  induction k using Nat.strongRecOn with
  | ind k ihk =>
    intro v hk hv
    have hsub : ∀ x, sizeOf x < sizeOf v → x.Real → ∀ n t, ts.get n = some t → Settled a n x := fun x hx hxr => ihk _ (hk ▸ hx) x rfl hxr
    intro n t hn
    by_cases hnil : v = .nil
    · subst hnil; exact settled_nil hr hn
    by_cases hc : Acc (fun m k => ∃ b ext opt t, Spelled k b false ext opt ∧ IsAlias a b t ∧ m = t.type) n
    · induction hc generalizing t with
      | intro n _ ih =>
        have hs := (hr n t hn).1.2.1
        have hb := settled_body hr n t hn v hv (fun har ty hi => by
          obtain ⟨_, u, hu⟩ := table_alias hr hn hi
          rw [har] at hs
          exact ih _ ⟨_, _, _, _, hs, hi, rfl⟩ u hu) hsub
        cases ho : t.isOptional with
        | true =>
          rw [ho] at hs
          rcases hb with ⟨bs, h⟩ | ⟨w, h⟩
          · exact .inl ⟨_, .present hs hnil h⟩
          · exact .inr ⟨_, .present hs hnil h⟩
        | false =>
          rw [ho] at hs
          rcases hb with ⟨bs, h⟩ | ⟨w, h⟩
          · exact .inl ⟨_, .plain hs hnil h⟩
          · exact .inr ⟨_, .plain hs hnil h⟩
    · exact .inr ⟨_, .circle (circle_of_not_acc hc) hnil⟩
end

end Verif
