import Verif.Lemmas.AbiWire
import Verif.Lemmas.AbiBuiltin
import Verif.Lemmas.Safe
import Verif.Props.ChainStream
import Verif.Props.Overwrite
import Verif.Spec.AbiTerm
/-! # Decoding terminates where there is no unguarded recursion -/
namespace Verif

/-- With enough fuel the outcome is always the same, and it is not divergence. -/
def Halts {α : Type} (p : Nat → Dec α) (fin : Err) (bs : Bytes) : Prop := ∃ N out, out ≠ .diverge ∧ ∀ fuel, N ≤ fuel → (p fuel).runE fin bs = out

theorem Halts.const {α : Type} {p : Dec α} (h : p.Safe true) (fin : Err) (bs : Bytes) : Halts (fun _ => p) fin bs := ⟨0, _, (h.run fin bs).1, fun _ _ => rfl⟩

theorem Halts.pure {α : Type} (x : α) {fin : Err} {bs : Bytes} : Halts (fun _ => (Pure.pure x : Dec α)) fin bs := .const (p := Pure.pure x) (Dec.Safe.pure x) _ _

theorem Halts.congr {α : Type} {p q : Nat → Dec α} {fin : Err} {bs : Bytes} (h : Halts p fin bs) (e : ∀ fuel, q fuel = p fuel) : Halts q fin bs := by
  obtain ⟨N, out, h1, h2⟩ := h
  exact ⟨N, out, h1, fun fuel hf => by rw [e]; exact h2 fuel hf⟩

theorem Halts.bind {α β : Type} {p : Nat → Dec α} {g : Nat → α → Dec β} {fin : Err} {bs : Bytes} (hp : Halts p fin bs)
    (hg : ∀ a r, (∃ N, ∀ fuel, N ≤ fuel → (p fuel).runE fin bs = .ok a r) → Halts (fun fuel => g fuel a) fin r) : Halts (fun fuel => p fuel >>= g fuel) fin bs := by
  obtain ⟨N, out, h1, h2⟩ := hp
  cases out with
  | diverge => exact absurd rfl h1
  | panic w => exact ⟨N, .panic w, (fun h => nomatch h), fun fuel hf => by rw [Dec.runE_bind, h2 fuel hf]; rfl⟩
  | ok a r =>
    obtain ⟨M, out', h3, h4⟩ := hg a r ⟨N, h2⟩
    refine ⟨N + M, out', h3, fun fuel hf => ?_⟩
    rw [Dec.runE_bind, h2 fuel (by omega)]
    exact h4 fuel (by omega)

theorem shorter {α : Type} {p : Dec α} {fin : Err} {bs r : Bytes} {a : α} (h : p.runE fin bs = .ok a r) : r.length ≤ bs.length := by
  obtain ⟨c, rfl⟩ := Dec.runE_suffix _ _ _ _ _ h
  simp

/-! ## Builtin types -/

theorem decBasic_safe (b : Basic) : (decBasic b b.read).Safe true := by
  unfold decBasic
  safe [basic_safe b (.inl rfl)]

theorem decChain_safe (c : ChainTy) : (decChain c).Safe true := by
  unfold decChain
  safe [chain_safe c (.inl rfl) _]

theorem decCases_all {P : Bytes → Dec (AV × Option Err) → Prop} (hb : ∀ n b, (n, b) ∈ abiBasics → P n (decBasic b b.read)) (hc : ∀ n c, (n, c) ∈ abiChains → c ≠ .uint64 → P n (decChain c))
    (h1 : P (asc "bytes") (decChain .bytes)) (h2 : P (asc "uint64") (do let (v, err) ← readUint64; pure (.chain .uint64 v, err))) : ∀ c ∈ decCases, P c.1 c.2 := by
  intro c h
  simp only [decCases, List.mem_cons, List.not_mem_nil, or_false] at h
  rcases h with rfl | rfl | rfl | rfl | rfl | rfl | rfl | rfl | rfl | rfl | rfl | rfl | rfl | rfl | rfl | rfl | rfl | rfl | rfl | rfl | rfl | rfl | rfl | rfl | rfl | rfl | rfl |
    rfl | rfl | rfl | rfl <;> first | exact h1 | exact h2 | exact hb _ .bool (by decide) | exact hb _ .string (by decide) | exact hb _ .u8 (by decide) | exact hb _ .u16 (by decide) | exact hb _ .u32 (by decide) | exact hb _ .i8 (by decide) | exact hb _ .i16 (by decide) | exact hb _ .i32 (by decide) | exact hb _ .i64 (by decide) | exact hb _ .f32 (by decide) | exact hb _ .f64 (by decide) | exact hb _ .uint (by decide) | exact hb _ .int (by decide) | exact hc _ _ (by decide) (by decide)

theorem decodeBuiltin_safe (b : Bytes) : (decodeBuiltin b).Safe true := by
  unfold decodeBuiltin
  split
  · trivial
  · rename_i c hc
    have := decCases_all (P := fun _ p => p.Safe true) (fun _ b _ => decBasic_safe b) (fun _ c _ _ => decChain_safe c) (decChain_safe _) (by safe [readUint64_safe true]) c (List.mem_of_find?_eq_some hc)
    exact this

theorem decBasic_strict (b : Basic) : (decBasic b b.read).Strict true := by
  intro P hP
  refine Dec.StrictP.bind (?_ : b.read.StrictP true P) (fun _ => trivial) (fun _ _ h => h)
  cases b with
  | bool => exact readBool_strict _ P hP
  | string => exact readString_strict _ P hP
  | u8 => exact readUint8_strict _ P hP
  | u16 => exact readUint16_strict _ P hP
  | u32 => exact readUint32_strict _ P hP
  | u64 => exact readUint64_strict _ P hP
  | i8 => exact readInt8_strict _ P hP
  | i16 => exact readInt16_strict _ P hP
  | i32 => exact readInt32_strict _ P hP
  | i64 => exact readInt64_strict _ P hP
  | f32 => exact readFloat32_strict _ P hP
  | f64 => exact readFloat64_strict _ P hP
  | int => exact readVarintD_strict _ P hP
  | uint => exact readVaruint_strict _ P hP

theorem unmarshalBytes_strict (o : Option Bytes) : (unmarshalBytes o).Strict true := by
  intro P hP
  unfold unmarshalBytes
  refine Dec.StrictP.bind (bytesT_strict true _ P hP) (fun r => ?_) (fun _ _ h => h)
  obtain ⟨v, e⟩ := r
  cases e <;> trivial

theorem chain_strict (c : ChainTy) (v : c.Val) : (c.unmarshal v).Strict true := by
  have h := C09_chain_strict true
  cases c with
  | action => exact action_strict v
  | blob => exact unmarshalBytes_strict v
  | bytes => exact unmarshalBytes_strict v
  | publicKey => exact h.2.2.2.2.2.2.2.2.2.2.2.2.1 v
  | signature => exact h.2.2.2.2.2.2.2.2.2.2.2.2.2.1 v
  | transaction => exact transaction_strict v
  | transactionExtension => exact extension_strict true v
  | asset => exact asset_strict true v
  | blockNum => exact blockNum_strict true v
  | blockTimestamp => exact timePointSec_strict true v
  | timePointSec => exact timePointSec_strict true v
  | checksum160 => exact checksum_strict true 20 v
  | checksum256 => exact checksum_strict true 32 v
  | checksum512 => exact checksum_strict true 64 v
  | float128 => exact float128_strict true v
  | int128 => exact u128_strict true v
  | uint128 => exact u128_strict true v
  | name => exact name_strict true v
  | symbol => exact symbol_strict true v
  | symbolCode => exact symbol_strict true v
  | uint64 => exact uint64_strict true v
  | permissionLevel => exact perm_strict v
  | timePoint => exact timePoint_strict true v
  | transactionHeader => exact header_strict true v
  | extendedAsset => exact extendedAsset_strict true v

theorem decodeBuiltin_strict (b : Bytes) : (decodeBuiltin b).Strict true := by
  unfold decodeBuiltin
  split
  · exact fun _ _ => trivial
  · rename_i c hc
    exact decCases_all (P := fun _ p => p.Strict true) (fun _ b _ => decBasic_strict b)
      (fun _ c _ _ P hP => Dec.StrictP.bind (chain_strict c _ P hP) (fun _ => trivial) (fun _ _ h => h))
      (fun P hP => Dec.StrictP.bind (chain_strict .bytes _ P hP) (fun _ => trivial) (fun _ _ h => h))
      (fun P hP => Dec.StrictP.bind (readUint64_strict true P hP) (fun _ => trivial) (fun _ _ h => h)) c (List.mem_of_find?_eq_some hc)

theorem readVarint_empty (fin : Err) : (readVarint readByte).runE fin [] = .ok (0, some fin) [] := by
  have h := readVaruint_empty fin
  unfold readVaruint at h
  unfold readVarint
  rw [Dec.runE_bind] at h ⊢
  cases hr : (readUvarint readByte).runE fin [] with
  | ok a r =>
    obtain ⟨v, e⟩ := a
    have hv : v = 0 := by
      unfold readUvarint readUvarintLoop at hr
      rw [Dec.runE_bind] at hr
      have : v = 0 ∧ True := by
        have := congrArg (fun o : Out (UInt64 × Option Err) => match o with | .ok a _ => a.1 | _ => 0) hr
        exact ⟨this.symm, trivial⟩
      exact this.1
    rw [hr] at h
    subst hv
    cases e with
    | none => cases h
    | some e => cases h; rfl
  | panic w => rw [hr] at h; cases h
  | diverge => rw [hr] at h; cases h

theorem readString_empty (fin : Err) : readString.runE fin [] = .ok ([], some fin) [] := by unfold readString; rw [Dec.runE_bind, readVaruint_empty]; rfl
theorem readVarintD_empty (fin : Err) : readVarintD.runE fin [] = .ok (0, some fin) [] := by unfold readVarintD; rw [Dec.runE_bind, readVarint_empty]; rfl

theorem decBasic_empty (b : Basic) (p : Dec (b.Val × Option Err)) (fin : Err) (x : b.Val) (h : p.runE fin [] = .ok (x, some fin) []) :
    (decBasic b p).runE fin [] = .ok (.basic b x, some fin) [] := by
  unfold decBasic
  rw [Dec.runE_bind, h]
  rfl

theorem decChain_empty (c : ChainTy) (fin : Err) (x : c.Val) (h : (c.unmarshal c.zero).runE fin [] = .ok (x, some fin) []) :
    (decChain c).runE fin [] = .ok (.chain c x, some fin) [] := by
  unfold decChain
  rw [Dec.runE_bind, h]
  rfl

/-- A builtin type at the end of the input: the error of the stream -/
theorem decCases_hungry (fin : Err) : ∀ c ∈ decCases, ∃ v, c.2.runE fin [] = .ok (v, some fin) [] := by
  intro c h
  simp only [decCases, List.mem_cons, List.not_mem_nil, or_false] at h
  rcases h with rfl | rfl | rfl | rfl | rfl | rfl | rfl | rfl | rfl | rfl | rfl | rfl | rfl | rfl | rfl | rfl | rfl | rfl | rfl | rfl | rfl | rfl | rfl | rfl | rfl | rfl | rfl |
    rfl | rfl | rfl | rfl <;> first | exact ⟨_, rfl⟩ | skip
  · exact ⟨_, decBasic_empty .string readString fin _ (readString_empty fin)⟩
  · exact ⟨_, decBasic_empty .int readVarintD fin _ (readVarintD_empty fin)⟩
  · exact ⟨_, decBasic_empty .uint readVaruint fin _ (readVaruint_empty fin)⟩
  · refine ⟨_, decChain_empty .bytes fin none ?_⟩
    show (unmarshalBytes none).runE fin [] = _
    unfold unmarshalBytes BytesT.unmarshal
    rw [Dec.runE_bind, Dec.runE_bind, readVaruint_empty]
    rfl

theorem decodeBuiltin_hungry (fin : Err) (b : Bytes) : ∃ v e, (decodeBuiltin b).runE fin [] = .ok (v, some e) [] := by
  unfold decodeBuiltin
  split
  · exact ⟨_, _, rfl⟩
  · rename_i c hc
    obtain ⟨v, h⟩ := decCases_hungry fin c (List.mem_of_find?_eq_some hc)
    exact ⟨v, _, h⟩

theorem strict_consumes {α : Type} {p : Dec (α × Option Err)} (hs : p.Strict true) (fin : Err) (hh : ∃ v e, p.runE fin [] = .ok (v, some e) []) {bs r : Bytes} {v : α}
    (h : p.runE fin bs = .ok (v, none) r) : r.length < bs.length := by
  obtain ⟨c, rfl, hc⟩ := hs.local fin bs v r h
  cases c with
  | nil =>
    obtain ⟨w, e, h1⟩ := hh
    have h2 := hc fin []
    rw [List.append_nil] at h2
    rw [h1] at h2
    cases h2
  | cons x c => simp; omega

theorem decodeBuiltin_consumes {b : Bytes} {fin : Err} {bs r : Bytes} {v : AV} (h : (decodeBuiltin b).runE fin bs = .ok (v, none) r) : r.length < bs.length :=
  strict_consumes (decodeBuiltin_strict b) fin (decodeBuiltin_hungry fin b) h
theorem varuint_consumes {fin : Err} {bs r : Bytes} {v : UInt64} (h : readVaruint.runE fin bs = .ok (v, none) r) : r.length < bs.length :=
  strict_consumes (readVaruint_strict true) fin ⟨_, _, readVaruint_empty fin⟩ h
theorem bool_consumes {fin : Err} {bs r : Bytes} {v : Bool} (h : readBool.runE fin bs = .ok (v, none) r) : r.length < bs.length :=
  strict_consumes (readBool_strict true) fin ⟨_, _, rfl⟩ h

/-! ## Solid types consume input -/

section
variable {a : Abi} {ts : Types} (hr : Ready a ts)

/-- What a successful bind is made of -/
theorem bind_ok {α β : Type} {p : Dec α} {g : α → Dec β} {fin : Err} {bs r : Bytes} {b : β} (h : (p >>= g).runE fin bs = .ok b r) :
    ∃ x m, p.runE fin bs = .ok x m ∧ (g x).runE fin m = .ok b r := by
  rw [Dec.runE_bind] at h
  cases hp : p.runE fin bs with
  | ok x m => rw [hp] at h; exact ⟨x, m, rfl, h⟩
  | panic w => rw [hp] at h; cases h
  | diverge => rw [hp] at h; cases h

theorem struct_consumes {rec : Bytes → Dec (AV × Option Err)} {fin : Err} (f : Bytes × Bytes) :
    ∀ (fs : List (Bytes × Bytes)) (vs : List (Bytes × AV)) (bs r : Bytes) (v : AV), f ∈ fs →
    (∀ bs r v, (rec f.2).runE fin bs = .ok (v, none) r → r.length < bs.length) → (decodeStruct rec fs vs).runE fin bs = .ok (v, none) r → r.length < bs.length := by
  intro fs
  induction fs with
  | nil => intro _ _ _ _ h; cases h
  | cons g fs ih =>
    intro vs bs r v hf hrec h
    unfold decodeStruct at h
    obtain ⟨⟨fv, e⟩, m, h1, h2⟩ := bind_ok h
    cases e with
    | some e => cases h2
    | none =>
      rcases List.mem_cons.1 hf with rfl | hf
      · have h3 := hrec _ _ _ h1
        have h4 := shorter h2
        omega
      · have h3 := shorter h1
        have h4 := ih _ _ _ _ hf hrec h2
        omega

include hr in
theorem solid_consumes {n : Bytes} (h : Solid a n) : ∀ (t : Resolved), ts.get n = some t → ∀ fuel fin bs r v, (decodeTypeF ts fuel n).runE fin bs = .ok (v, none) r → r.length < bs.length := by
  induction h with
  | optional hs =>
    intro t ht fuel fin bs r v h
    cases fuel with
    | zero => cases h
    | succ fuel =>
      obtain ⟨_, _, _, ho⟩ := spelled_unique hs (hr _ t ht).1.2.1
      simp only [decodeTypeF, ht, ← ho, if_true] at h
      obtain ⟨⟨p, e⟩, m, h1, h2⟩ := bind_ok h
      cases e with
      | some e => cases h2
      | none => have := bool_consumes h1; have := shorter h2; omega
  | array hs =>
    intro t ht fuel fin bs r v h
    cases fuel with
    | zero => cases h
    | succ fuel =>
      obtain ⟨_, ha, he, ho⟩ := spelled_unique hs (hr _ t ht).1.2.1
      simp only [decodeTypeF, ht, ← ho, if_false, decodeBody, ← ha, ← he, if_true, Bool.false_eq_true, and_false] at h
      obtain ⟨⟨l, e⟩, m, h1, h2⟩ := bind_ok h
      cases e with
      | some e => cases h2
      | none => have := varuint_consumes h1; have := shorter h2; omega
  | variant hs hv =>
    intro t ht fuel fin bs r v h
    cases fuel with
    | zero => cases h
    | succ fuel =>
      obtain ⟨hb, ha, he, ho⟩ := spelled_unique hs (hr _ t ht).1.2.1
      subst hb
      obtain ⟨g1, g2, g3, _⟩ := table_variant hr ht hv
      simp only [decodeTypeF, ht, ← ho, if_false, decodeBody, ← ha, ← he, Bool.false_eq_true, and_false, decodeInner, g1, g2, g3, ne_eq, not_true_eq_false] at h
      obtain ⟨⟨l, e⟩, m, h1, h2⟩ := bind_ok h
      cases h2
      obtain ⟨⟨l, e⟩, m, h1, h2⟩ := bind_ok h1
      cases e with
      | some e => cases h2
      | none => have := varuint_consumes h1; have := shorter h2; omega
  | builtin hs hd =>
    intro t ht fuel fin bs r v h
    cases fuel with
    | zero => cases h
    | succ fuel =>
      obtain ⟨hb, ha, he, ho⟩ := spelled_unique hs (hr _ t ht).1.2.1
      subst hb
      obtain ⟨g1, g2, g3⟩ := table_notDefined hr ht hd
      simp only [decodeTypeF, ht, ← ho, if_false, decodeBody, ← ha, ← he, Bool.false_eq_true, and_false, decodeInner, g1, g2, g3, ne_eq, not_true_eq_false] at h
      obtain ⟨⟨l, e⟩, m, h1, h2⟩ := bind_ok h
      cases h2
      exact decodeBuiltin_consumes h1
  | hollow hs hst hf =>
    intro t ht fuel fin bs r v h
    cases fuel with
    | zero => cases h
    | succ fuel =>
      obtain ⟨hb, ha, he, ho⟩ := spelled_unique hs (hr _ t ht).1.2.1
      subst hb
      obtain ⟨g1, g2, g3⟩ := table_hollow hr ht hst hf
      simp only [decodeTypeF, ht, ← ho, if_false, decodeBody, ← ha, ← he, Bool.false_eq_true, and_false, decodeInner, g1, g2, g3, ne_eq, not_true_eq_false] at h
      obtain ⟨⟨l, e⟩, m, h1, h2⟩ := bind_ok h
      cases h2
      exact decodeBuiltin_consumes h1
  | «alias» hs hi _ ih =>
    intro t ht fuel fin bs r v h
    cases fuel with
    | zero => cases h
    | succ fuel =>
      obtain ⟨hb, ha, he, ho⟩ := spelled_unique hs (hr _ t ht).1.2.1
      subst hb
      obtain ⟨g1, u, hu⟩ := table_alias hr ht hi
      simp only [decodeTypeF, ht, ← ho, if_false, decodeBody, ← ha, ← he, Bool.false_eq_true, and_false, decodeInner, g1] at h
      obtain ⟨⟨l, e⟩, m, h1, h2⟩ := bind_ok h
      cases h2
      exact ih u hu _ _ _ _ _ h1
  | @struct n b fs f hs hf hm _ ih =>
    intro t ht fuel fin bs r v h
    cases fuel with
    | zero => cases h
    | succ fuel =>
      obtain ⟨hb, ha, he, ho⟩ := spelled_unique hs (hr _ t ht).1.2.1
      subst hb
      obtain ⟨g1, g2, g3⟩ := table_struct hr ht hf
      obtain ⟨u, hu⟩ := g3 f hm
      have hne : fieldPairs fs ≠ [] := by
        cases fs with
        | nil => cases hm
        | cons _ _ => simp [fieldPairs]
      simp only [decodeTypeF, ht, ← ho, if_false, decodeBody, ← ha, ← he, Bool.false_eq_true, and_false, decodeInner, g1, g2, if_pos hne] at h
      obtain ⟨⟨l, e⟩, m, h1, h2⟩ := bind_ok h
      cases h2
      exact struct_consumes (f.name, f.type) _ _ _ _ _ (List.mem_map.2 ⟨f, hm, rfl⟩) (fun bs r v h => ih u hu fuel fin bs r v h) h1

/-! ## Termination -/

include hr in
theorem members_halts {fin : Err} {bs : Bytes} (h1 : ∀ k u, ts.get k = some u → ∀ bs' : Bytes, bs'.length < bs.length → Halts (fun fuel => decodeTypeF ts fuel k) fin bs') :
    ∀ (post pre : List AbiField) (vs : List (Bytes × AV)) (bs' : Bytes), (∀ f ∈ post, ∃ u, ts.get f.type = some u) →
    (bs'.length < bs.length ∨ (bs'.length ≤ bs.length ∧ ∀ g ∈ pre, ¬ Solid a g.type)) →
    (∀ p f q, pre ++ post = p ++ f :: q → (∀ g ∈ p, ¬ Solid a g.type) → ∀ bs' : Bytes, bs'.length ≤ bs.length → Halts (fun fuel => decodeTypeF ts fuel f.type) fin bs') →
    Halts (fun fuel => decodeStruct (decodeTypeF ts fuel) (fieldPairs post) vs) fin bs' := by
  intro post
  induction post with
  | nil => intro pre vs bs' _ _ _; exact .pure _
  | cons f post ih =>
    intro pre vs bs' hk hp h2
    obtain ⟨u, hu⟩ := hk f (by simp)
    have hf : Halts (fun fuel => decodeTypeF ts fuel f.type) fin bs' := by
      rcases hp with hp | ⟨hl, hp⟩
      · exact h1 _ u hu _ hp
      · exact h2 pre f post rfl hp _ hl
    refine Halts.congr (hf.bind (g := fun fuel x => match x.2 with | some e => pure (.nil, some e) | none => decodeStruct (decodeTypeF ts fuel) (fieldPairs post) (mapPut vs f.name x.1))
      fun x r hx => ?_) fun fuel => ?_
    · obtain ⟨v, e⟩ := x
      obtain ⟨N, hx⟩ := hx
      cases e with
      | some e => exact .pure _
      | none =>
        have hx := hx N (Nat.le_refl _)
        have hl := shorter hx
        refine ih (pre ++ [f]) _ r (fun g hg => hk g (by simp [hg])) ?_ (by simpa using h2)
        by_cases hs : Solid a f.type
        · have := solid_consumes hr hs u hu _ _ _ _ _ hx
          refine .inl ?_
          rcases hp with hp | ⟨hp, _⟩ <;> omega
        · rcases hp with hp | ⟨hp, hp'⟩
          · exact .inl (by omega)
          · refine .inr ⟨by omega, fun g hg => ?_⟩
            rcases List.mem_append.1 hg with hg | hg
            · exact hp' g hg
            · rw [List.mem_singleton.1 hg]; exact hs
    · show decodeStruct _ ((f.name, f.type) :: fieldPairs post) vs = _
      rw [decodeStruct]
      congr 1

include hr in
theorem inner_halts {fin : Err} {bs : Bytes} {n : Bytes} {t : Resolved} (ht : ts.get n = some t)
    (h1 : ∀ k u, ts.get k = some u → ∀ bs' : Bytes, bs'.length < bs.length → Halts (fun fuel => decodeTypeF ts fuel k) fin bs')
    (h2 : ∀ k u, ts.get k = some u → Ahead a t.baseName k → ∀ bs' : Bytes, bs'.length ≤ bs.length → Halts (fun fuel => decodeTypeF ts fuel k) fin bs') :
    Halts (fun fuel => decodeInner ts (decodeTypeF ts fuel) t) fin bs := by
  rcases table_cases hr ht with ⟨ty, hi⟩ | ⟨f, fs, hi⟩ | ⟨va, hi⟩ | hi | ⟨s, hi, hf⟩
  · obtain ⟨g1, u, hu⟩ := table_alias hr ht hi
    exact (h2 _ u hu (.alias hi) bs (Nat.le_refl _)).congr fun fuel => by simp only [decodeInner, g1]
  · obtain ⟨g1, g2, g3⟩ := table_struct hr ht hi
    refine (members_halts hr h1 (f :: fs) [] [] bs g3 (.inr ⟨Nat.le_refl _, by simp⟩) ?_).congr fun fuel => ?_
    · intro p g q e hp bs' hl
      rw [List.nil_append] at e
      obtain ⟨u, hu⟩ := g3 g (by rw [e]; simp)
      exact h2 _ u hu (.field (e ▸ hi) hp) bs' hl
    · simp only [decodeInner, g1, g2]
      rw [if_pos (by simp [fieldPairs])]
  · obtain ⟨g1, g2, g3, g4⟩ := table_variant hr ht hi
    refine Halts.congr ((Halts.const (readVaruint_safe true) fin bs).bind (g := fun fuel x => match x.2 with
        | some e => pure (.nil, some e)
        | none => if goInt x.1 ≥ va.types.length then pure (.nil, some errAbiVariantIndex)
          else match va.types[x.1.toNat]? with
            | none => .panic "index out of range"
            | some tv => decodeTypeF ts fuel tv >>= fun y => match y.2 with
              | some e => pure (.nil, some e)
              | none => pure (.slice [.basic .string tv, y.1], none))
      fun x r hx => ?_) fun fuel => ?_
    · obtain ⟨idx, e⟩ := x
      obtain ⟨_, hx⟩ := hx
      cases e with
      | some e => exact .pure _
      | none =>
        have hl := varuint_consumes (hx _ (Nat.le_refl _))
        dsimp only
        split
        · exact .pure _
        · cases hv : va.types[idx.toNat]? with
          | none => exact .const (p := .panic _) rfl _ _
          | some tv =>
            obtain ⟨u, hu⟩ := g4 tv (List.mem_of_getElem? hv)
            refine (h1 tv u hu r hl).bind fun y r' _ => ?_
            obtain ⟨v, e⟩ := y
            cases e with
            | some e => exact .pure _
            | none => exact .pure _
    · simp only [decodeInner, g1, g2, g3, ne_eq, not_true_eq_false, if_false]
      congr 1
  · obtain ⟨g1, g2, g3⟩ := table_notDefined hr ht hi
    exact (Halts.const (decodeBuiltin_safe t.baseName) fin bs).congr fun fuel => by simp [decodeInner, g1, g2, g3]
  · obtain ⟨g1, g2, g3⟩ := table_hollow hr ht hi hf
    exact (Halts.const (decodeBuiltin_safe t.baseName) fin bs).congr fun fuel => by simp [decodeInner, g1, g2, g3]

theorem each_halts {α : Type} {dec : Nat → Dec (α × Option Err)} {fin : Err} {L : Nat} (h : ∀ bs : Bytes, bs.length ≤ L → Halts dec fin bs) :
    ∀ (xs : List α) (bs : Bytes), bs.length ≤ L → Halts (fun fuel => decEach (fun _ => dec fuel) xs) fin bs := by
  intro xs
  induction xs with
  | nil => intro bs _; exact .pure _
  | cons x xs ih =>
    intro bs hl
    refine Halts.congr ((h bs hl).bind (g := fun fuel y => match y.2 with | some e => pure (y.1 :: xs, some e) | none => decEach (fun _ => dec fuel) xs >>= fun z => pure (y.1 :: z.1, z.2))
      fun y r hy => ?_) fun fuel => ?_
    · obtain ⟨y, e⟩ := y
      obtain ⟨N, hy⟩ := hy
      have := shorter (hy N (Nat.le_refl _))
      cases e with
      | some e => exact .pure _
      | none => exact (ih r (by omega)).bind fun z _ _ => .pure _
    · rw [decEach]
      congr 1

/-- The end of decodeType: io.EOF is no error for an extension -/
def forgive (ext : Bool) (err : Option Err) : Option Err := if err = some .eof ∧ ext then none else err

include hr in
theorem body_halts {fin : Err} {bs : Bytes} {n : Bytes} {t : Resolved} (ht : ts.get n = some t)
    (h1 : ∀ k u, ts.get k = some u → ∀ bs' : Bytes, bs'.length < bs.length → Halts (fun fuel => decodeTypeF ts fuel k) fin bs')
    (h2 : ∀ k u, ts.get k = some u → t.isArray = false → Ahead a t.baseName k → ∀ bs' : Bytes, bs'.length ≤ bs.length → Halts (fun fuel => decodeTypeF ts fuel k) fin bs') :
    Halts (fun fuel => decodeBody ts (decodeTypeF ts fuel) t) fin bs := by
  unfold decodeBody
  cases ha : t.isArray with
  | false =>
    simp only [Bool.false_eq_true, if_false]
    exact (inner_halts hr ht h1 (fun k u hu hk => h2 k u hu ha hk)).bind fun _ _ _ => .pure _
  | true =>
    simp only [if_true]
    refine (Halts.const (readVaruint_safe true) fin bs).bind fun x r hx => ?_
    obtain ⟨l, e⟩ := x
    obtain ⟨_, hx⟩ := hx
    cases e with
    | some e => exact .pure _
    | none =>
      have hl := varuint_consumes (hx _ (Nat.le_refl _))
      have hi : ∀ bs' : Bytes, bs'.length ≤ r.length → Halts (fun fuel => decodeInner ts (decodeTypeF ts fuel) t) fin bs' := fun bs' hb =>
        inner_halts hr ht (fun k u hu bs'' h => h1 k u hu bs'' (by omega)) (fun k u hu _ bs'' h => h1 k u hu bs'' (by omega))
      dsimp only [makeSlice]
      split
      · exact .const (p := .panic _) rfl _ _
      · split
        · exact .const (p := .panic _) rfl _ _
        · refine (each_halts hi _ r (Nat.le_refl _)).bind fun y _ _ => ?_
          obtain ⟨y, e⟩ := y
          cases e with
          | some e => exact .pure _
          | none => exact .pure _

include hr in
theorem type_halts (hg : ∀ m u, ts.get m = some u → Grounded a m) (fin : Err) : ∀ L n t, ts.get n = some t → ∀ bs : Bytes, bs.length = L →
    Halts (fun fuel => decodeTypeF ts fuel n) fin bs := by
  intro L
  induction L using Nat.strongRecOn with
  | ind L ihL =>
    intro n t ht
    have hacc := hg n t ht
    induction hacc generalizing t with
    | intro n _ ihn =>
      intro bs hl
      have hbody : ∀ bs' : Bytes, bs'.length ≤ bs.length → (bs'.length < bs.length ∨ t.isOptional = false) → Halts (fun fuel => decodeBody ts (decodeTypeF ts fuel) t) fin bs' := by
        intro bs' hb hc
        refine body_halts hr ht (fun k u hu bs'' h => ihL bs''.length (by omega) k u hu bs'' rfl) fun k u hu ha hk bs'' hb' => ?_
        by_cases hlt : bs''.length < L
        · exact ihL _ hlt k u hu bs'' rfl
        · refine ihn k ⟨t.baseName, t.isExtension, ?_, hk⟩ u hu bs'' (by omega)
          have := (hr n t ht).1.2.1
          rcases hc with hc | hc
          · omega
          · rwa [ha, hc] at this
      have key : Halts (fun fuel => if t.isOptional then (do
            let (present, err) ← readBool
            match err with
            | some e => pure (.nil, some e)
            | none => if present then decodeBody ts (decodeTypeF ts fuel) t else pure (.nil, none))
          else decodeBody ts (decodeTypeF ts fuel) t) fin bs := by
        cases ho : t.isOptional with
        | false => simp only [Bool.false_eq_true, if_false]; exact hbody bs (Nat.le_refl _) (.inr ho)
        | true =>
          simp only [if_true]
          refine (Halts.const (readBool_safe true) fin bs).bind fun x r hx => ?_
          obtain ⟨p, e⟩ := x
          obtain ⟨_, hx⟩ := hx
          cases e with
          | some e => exact .pure _
          | none =>
            have hl := bool_consumes (hx _ (Nat.le_refl _))
            dsimp only
            cases p with
            | true => exact hbody r (by omega) (.inl hl)
            | false => exact .pure _
      obtain ⟨N, out, h1, h2⟩ := key
      refine ⟨N + 1, out, h1, fun fuel hf => ?_⟩
      obtain ⟨fuel, rfl⟩ : ∃ k, fuel = k + 1 := ⟨fuel - 1, by omega⟩
      simp only [decodeTypeF, ht]
      exact h2 fuel (by omega)

/-! ## Divergence -/

/-- On the empty input a type diverges, or is absent without an error if it is not solid, or gives io.EOF if it is; every undefined type is builtin. -/
def Known (a : Abi) (ts : Types) : Prop := ∀ n t, ts.get n = some t → (∀ fs, FieldsOf a t.baseName fs → fs = []) → t.ref = none → t.variant = none → ∃ c ∈ decCases, c.1 = t.baseName

def EmptyOut (a : Abi) (n : Bytes) (o : Out (AV × Option Err)) : Prop :=
  o = .diverge ∨ (Solid a n ∧ ∃ v, o = .ok (v, some .eof) []) ∨ (¬ Solid a n ∧ ∃ v, o = .ok (v, none) [])

theorem builtin_eof {b : Bytes} (h : ∃ c ∈ decCases, c.1 = b) : ∃ v, (decodeBuiltin b).runE .eof [] = .ok (v, some .eof) [] := by
  unfold decodeBuiltin
  split
  · rename_i hn
    obtain ⟨c, hc, rfl⟩ := h
    exact absurd (List.find?_eq_none.1 hn c hc) (by simp)
  · rename_i c hc
    exact decCases_hungry .eof c (List.mem_of_find?_eq_some hc)

/-- Reading the fields on empty input: diverges, or stops at the first solid field. -/
theorem members_empty {rec : Bytes → Dec (AV × Option Err)} : ∀ (fs : List AbiField) (vs : List (Bytes × AV)), (∀ f ∈ fs, EmptyOut a f.type ((rec f.type).runE .eof [])) →
    (decodeStruct rec (fieldPairs fs) vs).runE .eof [] = .diverge ∨ ((∃ f ∈ fs, Solid a f.type) ∧ ∃ v, (decodeStruct rec (fieldPairs fs) vs).runE .eof [] = .ok (v, some .eof) []) ∨
    ((∀ f ∈ fs, ¬ Solid a f.type) ∧ ∃ v, (decodeStruct rec (fieldPairs fs) vs).runE .eof [] = .ok (v, none) []) := by
  intro fs
  induction fs with
  | nil => intro vs _; exact .inr (.inr ⟨by simp, _, rfl⟩)
  | cons f fs ih =>
    intro vs h
    show (decodeStruct rec ((f.name, f.type) :: fieldPairs fs) vs).runE .eof [] = .diverge ∨ (_ ∧ ∃ v, (decodeStruct rec ((f.name, f.type) :: fieldPairs fs) vs).runE .eof [] = _) ∨
      (_ ∧ ∃ v, (decodeStruct rec ((f.name, f.type) :: fieldPairs fs) vs).runE .eof [] = _)
    rw [decodeStruct]
    simp only [Dec.runE_bind]
    rcases h f (by simp) with h0 | ⟨hs, v, h0⟩ | ⟨hs, v, h0⟩
    · rw [h0]; exact .inl rfl
    · rw [h0]; exact .inr (.inl ⟨⟨f, by simp, hs⟩, _, rfl⟩)
    · rw [h0]
      rcases ih (mapPut vs f.name v) (fun g hg => h g (by simp [hg])) with h1 | ⟨⟨g, hg, hgs⟩, w, h1⟩ | ⟨hn, w, h1⟩
      · exact .inl h1
      · exact .inr (.inl ⟨⟨g, by simp [hg], hgs⟩, w, h1⟩)
      · exact .inr (.inr ⟨fun g hg => by rcases List.mem_cons.1 hg with rfl | hg; exact hs; exact hn g hg, w, h1⟩)

/-- `Solid` without suffixes -/
def SolidBase (a : Abi) (b : Bytes) : Prop := (∃ v, IsVariant a b v) ∨ NotDefined a b ∨ (∃ s, IsStruct a b s ∧ ∀ fs, FieldsOf a b fs → fs = []) ∨
  (∃ t, IsAlias a b t ∧ Solid a t.type) ∨ ∃ fs, FieldsOf a b fs ∧ ∃ f ∈ fs, Solid a f.type

theorem solid_iff {n b : Bytes} {arr ext opt : Bool} (hs : Spelled n b arr ext opt) : Solid a n ↔ opt = true ∨ (ext = false ∧ (arr = true ∨ SolidBase a b)) := by
  constructor
  · intro h
    cases h with
    | optional h => exact .inl (spelled_unique hs h).2.2.2
    | array h => exact .inr ⟨(spelled_unique hs h).2.2.1, .inl (spelled_unique hs h).2.1⟩
    | variant h hv => obtain ⟨rfl, _, e, _⟩ := spelled_unique hs h; exact .inr ⟨e, .inr (.inl ⟨_, hv⟩)⟩
    | builtin h hd => obtain ⟨rfl, _, e, _⟩ := spelled_unique hs h; exact .inr ⟨e, .inr (.inr (.inl hd))⟩
    | hollow h h1 h2 => obtain ⟨rfl, _, e, _⟩ := spelled_unique hs h; exact .inr ⟨e, .inr (.inr (.inr (.inl ⟨_, h1, h2⟩)))⟩
    | «alias» h h1 h2 => obtain ⟨rfl, _, e, _⟩ := spelled_unique hs h; exact .inr ⟨e, .inr (.inr (.inr (.inr (.inl ⟨_, h1, h2⟩))))⟩
    | struct h h1 h2 h3 => obtain ⟨rfl, _, e, _⟩ := spelled_unique hs h; exact .inr ⟨e, .inr (.inr (.inr (.inr (.inr ⟨_, h1, _, h2, h3⟩))))⟩
  · intro h
    cases opt with
    | true => exact .optional hs
    | false =>
      rcases h with h | ⟨rfl, h⟩
      · cases h
      · cases arr with
        | true => exact .array hs
        | false =>
          rcases h with h | ⟨v, h⟩ | h | ⟨s, h1, h2⟩ | ⟨t, h1, h2⟩ | ⟨fs, h1, f, h2, h3⟩
          · cases h
          · exact .variant hs h
          · exact .builtin hs h
          · exact .hollow hs h1 h2
          · exact .alias hs h1 h2
          · exact .struct hs h1 h2 h3

include hr in
theorem inner_empty (hk : Known a ts) {rec : Bytes → Dec (AV × Option Err)} (hrec : ∀ k u, ts.get k = some u → EmptyOut a k ((rec k).runE .eof [])) {n : Bytes} {t : Resolved}
    (ht : ts.get n = some t) : (decodeInner ts rec t).runE .eof [] = .diverge ∨ (SolidBase a t.baseName ∧ ∃ v, (decodeInner ts rec t).runE .eof [] = .ok (v, some .eof) []) ∨
    (¬ SolidBase a t.baseName ∧ ∃ v, (decodeInner ts rec t).runE .eof [] = .ok (v, none) []) := by
  rcases table_cases hr ht with ⟨ty, hi⟩ | ⟨f, fs, hi⟩ | ⟨va, hi⟩ | hi | ⟨s, hi, hf⟩
  · obtain ⟨g1, u, hu⟩ := table_alias hr ht hi
    simp only [decodeInner, g1]
    rcases hrec _ u hu with h | ⟨h1, h2⟩ | ⟨h1, h2⟩
    · exact .inl h
    · exact .inr (.inl ⟨.inr (.inr (.inr (.inl ⟨ty, hi, h1⟩))), h2⟩)
    · refine .inr (.inr ⟨fun h => ?_, h2⟩)
      rcases h with ⟨v, h⟩ | h | ⟨s, h, _⟩ | ⟨ty', h, h'⟩ | ⟨fs, h, _⟩
      · exact hi.1.2 _ (mem_of_first h.2) h.2.1
      · exact h.2 _ (mem_of_first hi.2) hi.2.1
      · exact noStruct_isStruct hi.1.1 h
      · rw [isAlias_unique h hi] at h'; exact h1 h'
      · obtain ⟨s, h⟩ := fieldsOf_struct h; exact noStruct_isStruct hi.1.1 h
  · obtain ⟨g1, g2, g3⟩ := table_struct hr ht hi
    simp only [decodeInner, g1, g2]
    rw [if_pos (by simp [fieldPairs])]
    rcases members_empty (a := a) (rec := rec) (f :: fs) [] (fun g hg => by obtain ⟨u, hu⟩ := g3 g hg; exact hrec _ u hu) with h | ⟨h1, h2⟩ | ⟨h1, h2⟩
    · exact .inl h
    · exact .inr (.inl ⟨.inr (.inr (.inr (.inr ⟨_, hi, h1⟩))), h2⟩)
    · refine .inr (.inr ⟨fun h => ?_, h2⟩)
      obtain ⟨s, hst⟩ := fieldsOf_struct hi
      rcases h with ⟨v, h⟩ | h | ⟨s, _, h⟩ | ⟨ty', h, h'⟩ | ⟨fs', h, g, hg, hg'⟩
      · exact noStruct_isStruct h.1 hst
      · exact noStruct_isStruct h.1.1 hst
      · exact absurd (h _ hi) (by simp)
      · exact noStruct_isStruct h.1.1 hst
      · rw [fieldsOf_unique h hi] at hg; exact h1 g hg hg'
  · obtain ⟨g1, g2, g3, g4⟩ := table_variant hr ht hi
    simp only [decodeInner, g1, g2, g3, ne_eq, not_true_eq_false, if_false]
    rw [Dec.runE_bind, readVaruint_empty]
    exact .inr (.inl ⟨.inl ⟨_, hi⟩, _, rfl⟩)
  · obtain ⟨g1, g2, g3⟩ := table_notDefined hr ht hi
    simp only [decodeInner, g1, g2, g3, ne_eq, not_true_eq_false, if_false]
    refine .inr (.inl ⟨.inr (.inl hi), builtin_eof (hk n t ht (fun fs h => ?_) g1 g3)⟩)
    obtain ⟨s, hst⟩ := fieldsOf_struct h
    exact (noStruct_isStruct hi.1.1 hst).elim
  · obtain ⟨g1, g2, g3⟩ := table_hollow hr ht hi hf
    simp only [decodeInner, g1, g2, g3, ne_eq, not_true_eq_false, if_false]
    exact .inr (.inl ⟨.inr (.inr (.inl ⟨s, hi, hf⟩)), builtin_eof (hk n t ht hf g1 g3)⟩)

include hr in
theorem type_empty (hk : Known a ts) : ∀ fuel n t, ts.get n = some t → EmptyOut a n ((decodeTypeF ts fuel n).runE .eof []) := by
  intro fuel
  induction fuel with
  | zero => intro _ _ _; exact .inl rfl
  | succ fuel ih =>
    intro n t ht
    have hs := (hr n t ht).1.2.1
    unfold EmptyOut
    rw [solid_iff (a := a) hs]
    simp only [decodeTypeF, ht]
    cases ho : t.isOptional with
    | true => exact .inr (.inl ⟨.inl rfl, _, rfl⟩)
    | false =>
      simp only [Bool.false_eq_true, if_false, decodeBody, false_or]
      cases ha : t.isArray with
      | true =>
        simp only [if_true]
        rw [Dec.runE_bind, readVaruint_empty]
        cases he : t.isExtension with
        | true => exact .inr (.inr ⟨by simp, _, rfl⟩)
        | false => exact .inr (.inl ⟨⟨rfl, by simp⟩, _, rfl⟩)
      | false =>
        simp only [Bool.false_eq_true, if_false, false_or]
        rw [Dec.runE_bind]
        rcases inner_empty hr hk (fun k u hu => ih k u hu) ht with h | ⟨h1, v, h2⟩ | ⟨h1, v, h2⟩
        · rw [h]; exact .inl rfl
        · rw [h2]
          cases he : t.isExtension with
          | true => exact .inr (.inr ⟨by simp, _, rfl⟩)
          | false => exact .inr (.inl ⟨⟨rfl, h1⟩, _, rfl⟩)
        · rw [h2]
          exact .inr (.inr ⟨fun h => h1 h.2, v, by simp [Out.bind, Pure.pure]⟩)

theorem struct_diverges {rec : Bytes → Dec (AV × Option Err)} (f : AbiField) (post : List AbiField) : ∀ (pre : List AbiField) (vs : List (Bytes × AV)),
    (∀ g ∈ pre, EmptyOut a g.type ((rec g.type).runE .eof []) ∧ ¬ Solid a g.type) → (rec f.type).runE .eof [] = .diverge →
    (decodeStruct rec (fieldPairs (pre ++ f :: post)) vs).runE .eof [] = .diverge := by
  intro pre
  induction pre with
  | nil =>
    intro vs _ h
    show (decodeStruct rec ((f.name, f.type) :: fieldPairs post) vs).runE .eof [] = _
    rw [decodeStruct, Dec.runE_bind, h]
    rfl
  | cons g pre ih =>
    intro vs hp h
    show (decodeStruct rec ((g.name, g.type) :: fieldPairs (pre ++ f :: post)) vs).runE .eof [] = _
    rw [decodeStruct, Dec.runE_bind]
    obtain ⟨h1, h2⟩ := hp g (by simp)
    rcases h1 with h1 | ⟨h1, _⟩ | ⟨_, v, h1⟩
    · rw [h1]; rfl
    · exact absurd h1 h2
    · rw [h1]; exact ih _ (fun x hx => hp x (by simp [hx])) h

theorem not_grounded {n : Bytes} (h : ¬ Grounded a n) : ∃ m, Unguarded a n m ∧ ¬ Grounded a m := by
  by_cases hx : ∃ m, Unguarded a n m ∧ ¬ Grounded a m
  · exact hx
  · refine absurd (Acc.intro n fun m hm => ?_) h
    by_cases hg : Grounded a m
    · exact hg
    · exact absurd ⟨m, hm, hg⟩ hx

include hr in
theorem type_diverges (hk : Known a ts) : ∀ fuel n t, ts.get n = some t → ¬ Grounded a n → (decodeTypeF ts fuel n).runE .eof [] = .diverge := by
  intro fuel
  induction fuel with
  | zero => intro _ _ _ _; rfl
  | succ fuel ih =>
    intro n t ht hg
    obtain ⟨m, ⟨b, ext, hs, hm⟩, hgm⟩ := not_grounded hg
    obtain ⟨hb, ha, _, ho⟩ := spelled_unique hs (hr n t ht).1.2.1
    subst hb
    simp only [decodeTypeF, ht, ← ho, Bool.false_eq_true, if_false, decodeBody, ← ha]
    rw [Dec.runE_bind]
    have : (decodeInner ts (decodeTypeF ts fuel) t).runE .eof [] = .diverge := by
      cases hm with
      | «alias» hi =>
        obtain ⟨g1, u, hu⟩ := table_alias hr ht hi
        simp only [decodeInner, g1]
        exact ih _ u hu hgm
      | @field pre post f hf hp =>
        obtain ⟨g1, g2, g3⟩ := table_struct hr ht hf
        simp only [decodeInner, g1, g2]
        rw [if_pos (by simp [fieldPairs])]
        obtain ⟨u, hu⟩ := g3 f (by simp)
        refine struct_diverges f post pre [] (fun g hg => ⟨?_, hp g hg⟩) (ih _ u hu hgm)
        obtain ⟨w, hw⟩ := g3 g (by simp [hg])
        exact type_empty hr hk fuel _ w hw
    rw [this]
    rfl

end

end Verif
