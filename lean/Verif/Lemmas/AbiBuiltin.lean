import Verif.Lemmas.AbiWire
/-! # The builtin types of the ABI codec -/
namespace Verif

theorem basic_writes (ty : Basic) (x : ty.Val) (bs : Bytes) (hw : ty.Wf x) (hl : ty.Layout x bs) : (ty.write x).Writes bs := by
  obtain ⟨bs', h1, h2, _⟩ := ty.codec x hw
  rwa [ty.layout_unique x _ _ hl h1]

theorem chain_writes (c : ChainTy) (x : c.Val) (bs : Bytes) (hw : c.Wf x) (hl : c.Layout x bs) : (c.marshal x).Writes bs := by
  obtain ⟨bs', h1, h2, _⟩ := c.codec x hw
  rwa [c.layout_unique x _ _ hl h1]

theorem encodeBuiltin_basic {b : Bytes} {ty : Basic} (h : (b, ty) ∈ abiBasics) (x : ty.Val) : encodeBuiltin b (.basic ty x) = ty.write x := by
  simp only [abiBasics, List.mem_cons, Prod.mk.injEq, List.not_mem_nil, or_false] at h
  rcases h with ⟨rfl, rfl⟩ | ⟨rfl, rfl⟩ | ⟨rfl, rfl⟩ | ⟨rfl, rfl⟩ | ⟨rfl, rfl⟩ | ⟨rfl, rfl⟩ | ⟨rfl, rfl⟩ | ⟨rfl, rfl⟩ | ⟨rfl, rfl⟩ | ⟨rfl, rfl⟩ | ⟨rfl, rfl⟩ | ⟨rfl, rfl⟩ |
    ⟨rfl, rfl⟩ <;> rfl

theorem encodeBuiltin_chain {b : Bytes} {c : ChainTy} (h : (b, c) ∈ abiChains) (x : c.Val) : (encodeBuiltin b (.chain c x)).run = (c.marshal x).run := by
  simp only [abiChains, List.mem_cons, Prod.mk.injEq, List.not_mem_nil, or_false] at h
  rcases h with ⟨rfl, rfl⟩ | h
  · show (writeInt64 (UInt64.toInt64 x)).run = (Uint64.marshal x).run
    rfl
  rcases h with ⟨rfl, rfl⟩ | ⟨rfl, rfl⟩ | ⟨rfl, rfl⟩ | ⟨rfl, rfl⟩ | ⟨rfl, rfl⟩ | ⟨rfl, rfl⟩ | ⟨rfl, rfl⟩ | ⟨rfl, rfl⟩ | ⟨rfl, rfl⟩ | ⟨rfl, rfl⟩ | ⟨rfl, rfl⟩ | ⟨rfl, rfl⟩ |
    ⟨rfl, rfl⟩ | ⟨rfl, rfl⟩ | ⟨rfl, rfl⟩ | ⟨rfl, rfl⟩ <;> rfl

theorem plain_encodes {b : Bytes} {v : AV} {bs : Bytes} (h : Plain b v bs) : (encodeBuiltin b v).Writes bs := by
  cases h with
  | basic h hw hl => rw [encodeBuiltin_basic h]; exact basic_writes _ _ _ hw hl
  | chain h hw hl => unfold Enc.Writes; rw [encodeBuiltin_chain h]; exact chain_writes _ _ _ hw hl

theorem encodesAs_encodes {b : Bytes} {v : AV} {bs : Bytes} (h : EncodesAs b v bs) : (encodeBuiltin b v).Writes bs := by
  cases h with
  | plain h => exact plain_encodes h
  | uint64 h => exact basic_writes .u64 _ _ trivial h
  | eosioName h => exact chain_writes .name _ _ trivial h
  | bytes => exact writeBytes_writes bs

theorem decodeBuiltin_basic {b : Bytes} {ty : Basic} (h : (b, ty) ∈ abiBasics) : decodeBuiltin b = decBasic ty ty.read := by
  simp only [abiBasics, List.mem_cons, Prod.mk.injEq, List.not_mem_nil, or_false] at h
  rcases h with ⟨rfl, rfl⟩ | ⟨rfl, rfl⟩ | ⟨rfl, rfl⟩ | ⟨rfl, rfl⟩ | ⟨rfl, rfl⟩ | ⟨rfl, rfl⟩ | ⟨rfl, rfl⟩ | ⟨rfl, rfl⟩ | ⟨rfl, rfl⟩ | ⟨rfl, rfl⟩ | ⟨rfl, rfl⟩ | ⟨rfl, rfl⟩ |
    ⟨rfl, rfl⟩ <;> rfl

theorem decodeBuiltin_chain {b : Bytes} {c : ChainTy} (h : (b, c) ∈ abiChains) (hc : c ≠ .uint64) : decodeBuiltin b = decChain c := by
  simp only [abiChains, List.mem_cons, Prod.mk.injEq, List.not_mem_nil, or_false] at h
  rcases h with ⟨rfl, rfl⟩ | h
  · exact absurd rfl hc
  rcases h with ⟨rfl, rfl⟩ | ⟨rfl, rfl⟩ | ⟨rfl, rfl⟩ | ⟨rfl, rfl⟩ | ⟨rfl, rfl⟩ | ⟨rfl, rfl⟩ | ⟨rfl, rfl⟩ | ⟨rfl, rfl⟩ | ⟨rfl, rfl⟩ | ⟨rfl, rfl⟩ | ⟨rfl, rfl⟩ | ⟨rfl, rfl⟩ |
    ⟨rfl, rfl⟩ | ⟨rfl, rfl⟩ | ⟨rfl, rfl⟩ | ⟨rfl, rfl⟩ <;> rfl

theorem chains_same {b : Bytes} {c : ChainTy} (h : (b, c) ∈ abiChains) (x y : c.Val) (hs : c.Same x y) : x = y := by
  simp only [abiChains, List.mem_cons, Prod.mk.injEq, List.not_mem_nil, or_false] at h
  rcases h with ⟨rfl, rfl⟩ | ⟨rfl, rfl⟩ | ⟨rfl, rfl⟩ | ⟨rfl, rfl⟩ | ⟨rfl, rfl⟩ | ⟨rfl, rfl⟩ | ⟨rfl, rfl⟩ | ⟨rfl, rfl⟩ | ⟨rfl, rfl⟩ | ⟨rfl, rfl⟩ | ⟨rfl, rfl⟩ | ⟨rfl, rfl⟩ |
    ⟨rfl, rfl⟩ | ⟨rfl, rfl⟩ | ⟨rfl, rfl⟩ | ⟨rfl, rfl⟩ | ⟨rfl, rfl⟩ <;> exact hs

theorem chain_clean (c : ChainTy) : c.Clean c.zero := by cases c <;> first | trivial | rfl

theorem plain_decodes {b : Bytes} {v : AV} {bs : Bytes} (h : Plain b v bs) : (decodeBuiltin b).Reads bs v := by
  cases h with
  | basic h hw hl => rw [decodeBuiltin_basic h]; exact (Basic.reads _ _ _ hw hl).last rfl
  | chain h hw hl =>
    rename_i c x
    by_cases hc : c = .uint64
    · subst hc
      have : b = asc "uint64" := by
        simp only [abiChains, List.mem_cons, Prod.mk.injEq, List.not_mem_nil, or_false, reduceCtorEq, and_false, or_false, and_true] at h
        exact h
      subst this
      exact (Basic.reads .u64 x bs trivial hl).last rfl
    · rw [decodeBuiltin_chain h hc]
      obtain ⟨w, h1, h2⟩ := c.reads x c.zero bs hw (chain_clean c) hl
      rw [chains_same h x w h1]
      exact h2.last rfl

theorem decodesAs_decodes {b : Bytes} {v : AV} {bs : Bytes} (h : DecodesAs b v bs) : (decodeBuiltin b).Reads bs v := by
  cases h with
  | plain h => exact plain_decodes h
  | bytes hl hp =>
    rename_i x
    obtain ⟨lb, h1, rfl⟩ := hp
    rw [minLeb_unique _ _ _ h1 (varuintBytes_minLeb _ hl)]
    exact Dec.Reads.last (Dec.Reads.last (bytesT_unmarshal_reads x [] hl) rfl) rfl

/-! ### What was found -/

theorem basic_fits {b : Bytes} {ty : Basic} (h : (b, ty) ∈ abiBasics) (x : ty.Val) (bs : Bytes) (hr : (AV.basic ty x).Real) (hw : (ty.write x).Writes bs) :
    Fits b (.basic ty x) bs := by
  refine ⟨.basic h, fun _ => .plain ?_⟩
  have wf : ty.Wf x := by
    cases ty <;> first | trivial | skip
    · obtain ⟨_, _, h1, _⟩ := writes_inv (p := writeVaruint (List.length (α := UInt8) x).toUInt64) (q := writeBytes x) hw
      have hr' : List.length (α := UInt8) x < 2 ^ 63 := by simpa [AV.Real] using hr
      exact (count_inv hr' h1).2
    · exact (C03_varint_iff_partial x).1.1 ⟨bs, hw⟩
    · exact (C03_varuint_iff_partial x).1.1 ⟨bs, hw⟩
  obtain ⟨bs', h1, h2, _⟩ := ty.codec x wf
  rw [hw.det h2]
  exact .basic h wf h1

theorem chain_fits {b : Bytes} {c : ChainTy} (h : (b, c) ∈ abiChains) (x : c.Val) (bs : Bytes) (hw : (c.marshal x).Writes bs) : Fits b (.chain c x) bs := by
  refine ⟨.chain h, fun wf => .plain ?_⟩
  obtain ⟨bs', h1, h2, _⟩ := c.codec x wf
  rw [hw.det h2]
  exact .chain h wf h1

theorem asBasic_some {ty : Basic} {v : AV} {x : ty.Val} (h : v.asBasic ty = some x) : v = .basic ty x := by
  cases v with
  | basic b' y =>
    unfold AV.asBasic at h
    by_cases hb : b' = ty
    · subst hb; simp only [dite_true] at h; cases h; rfl
    · simp only [dif_neg hb] at h; cases h
  | _ => cases h

theorem asChain_some {c : ChainTy} {v : AV} {x : c.Val} (h : v.asChain c = some x) : v = .chain c x := by
  cases v with
  | chain b' y =>
    unfold AV.asChain at h
    by_cases hb : b' = c
    · subst hb; simp only [dite_true] at h; cases h; rfl
    · simp only [dif_neg hb] at h; cases h
  | _ => cases h

theorem encBasic_fits {b : Bytes} {ty : Basic} (h : (b, ty) ∈ abiBasics) {v : AV} {p : Enc (Option Err)} {bs : Bytes} (hr : v.Real) (hp : encBasic ty ty.write v = some p)
    (hw : p.Writes bs) : Fits b v bs := by
  unfold encBasic at hp
  obtain ⟨x, h1, rfl⟩ := Option.map_eq_some_iff.1 hp
  cases asBasic_some h1
  exact basic_fits h x bs hr hw

theorem encChain_fits {b : Bytes} {c : ChainTy} (h : (b, c) ∈ abiChains) {v : AV} {p : Enc (Option Err)} {bs : Bytes} (hp : encChain c v = some p)
    (hw : p.Writes bs) : Fits b v bs := by
  unfold encChain at hp
  obtain ⟨x, h1, rfl⟩ := Option.map_eq_some_iff.1 hp
  cases asChain_some h1
  exact chain_fits h x bs hw

/-- Every case of the switch -/
theorem encCases_fits : ∀ c ∈ encCases, ∀ (v : AV) (p : Enc (Option Err)) (bs : Bytes), v.Real → c.2 v = some p → p.Writes bs → Fits c.1 v bs := by
  intro c hc v p bs hr hp hw
  simp only [encCases, List.mem_cons, List.not_mem_nil, or_false] at hc
  rcases hc with rfl | rfl | rfl | rfl | rfl | rfl | rfl | rfl | rfl | rfl | rfl | rfl | rfl | rfl | rfl | rfl | rfl | rfl | rfl | rfl | rfl | rfl | rfl | rfl | rfl | rfl |
    rfl | rfl | rfl | rfl | rfl | rfl
  case inr.inr.inr.inr.inr.inl =>
    simp only at hp
    cases h1 : v.asBasic .u64 with
    | some x =>
      rw [h1] at hp
      cases hp
      cases asBasic_some h1
      obtain ⟨bs', g1, g2, _⟩ := Basic.codec .u64 x trivial
      rw [hw.det g2]
      exact ⟨.uint64, fun _ => .uint64 g1⟩
    | none =>
      rw [h1] at hp
      obtain ⟨x, h2, rfl⟩ := Option.map_eq_some_iff.1 hp
      cases asChain_some h2
      exact chain_fits (c := .uint64) (by simp [abiChains]) x bs hw
  case inr.inr.inr.inr.inr.inr.inr.inr.inr.inr.inr.inr.inr.inr.inr.inr.inr.inl =>
    obtain ⟨x, h2, rfl⟩ := Option.map_eq_some_iff.1 hp
    cases v <;> cases h2
    cases hw.det (writeBytes_writes _)
    exact ⟨.bytes, fun _ => .bytes⟩
  case inr.inr.inr.inr.inr.inr.inr.inr.inr.inr.inr.inr.inr.inr.inr.inr.inr.inr.inr.inr.inr.inr.inr.inl =>
    obtain ⟨x, h2, rfl⟩ := Option.map_eq_some_iff.1 hp
    cases asChain_some h2
    obtain ⟨bs', g1, g2, _⟩ := ChainTy.codec .name x trivial
    rw [hw.det g2]
    exact ⟨.eosioName, fun _ => .eosioName g1⟩
  all_goals first
    | exact encBasic_fits (by simp [abiBasics]) hr hp hw
    | exact encChain_fits (by simp [abiChains]) hp hw

theorem encodeBuiltin_fits (b : Bytes) (v : AV) (bs : Bytes) (hr : v.Real) (h : (encodeBuiltin b v).Writes bs) : Fits b v bs := by
  unfold encodeBuiltin at h
  cases hf : encCases.find? fun c => c.1 = b with
  | none => rw [hf] at h; cases h
  | some c =>
    rw [hf] at h
    simp only at h
    have hb : c.1 = b := by simpa using List.find?_some hf
    cases hp : c.2 v with
    | none => rw [hp] at h; cases h
    | some p =>
      rw [hp] at h
      rw [← hb]
      exact encCases_fits c (List.mem_of_find?_eq_some hf) v p bs hr hp h

end Verif
