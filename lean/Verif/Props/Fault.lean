import Verif.Lemmas.Canon
import Verif.Spec.AbiSends
import Verif.Props.AbiCodec
/-! # C85: which Go values Encode writes; C52 for builtin types with any data -/
namespace Verif

theorem ends_none {p : Enc (Option Err)} {f : Option Fault} {R : Bytes → Prop} (h : p.Ends f R) (bs : Bytes) (hw : p.Writes bs) : f = none ∧ R bs := by
  match f, h with
  | none, ⟨b, h1, h2⟩ => exact ⟨rfl, hw.det h2 ▸ h1⟩
  | some (.error e), ⟨o, h⟩ => rw [hw] at h; cases h
  | some .panics, ⟨w, h⟩ => rw [hw] at h; cases h

/-- A value without a fault is written in its wire form. -/
theorem C85_writes (t : Ty) (hw : t.Whole) (v : t.Val) (h : t.fault v = none) : ∃ bs, t.Layout v bs ∧ (encode t v).Writes bs := by
  have := ends_ty t hw v (real_of_fault t v h)
  rw [h] at this
  exact this

/-- If the first fault is an error, Encode returns that error. -/
theorem C85_error (t : Ty) (hw : t.Whole) (v : t.Val) (hr : t.Real v) (e : Err) (h : t.fault v = some (.error e)) : ∃ out, (encode t v).run = .ok (some e) out := by
  have := ends_ty t hw v hr
  rw [h] at this
  exact this

/-- Otherwise it panics. -/
theorem C85_panics (t : Ty) (hw : t.Whole) (v : t.Val) (hr : t.Real v) (h : t.fault v = some .panics) : ∃ w, (encode t v).run = .panic w := by
  have := ends_ty t hw v hr
  rw [h] at this
  exact this

/-- Exactly the values without a fault are written, and as nothing but their wire form. -/
theorem C85_iff (t : Ty) (hw : t.Whole) (v : t.Val) (hr : t.Real v) (bs : Bytes) : (encode t v).Writes bs ↔ t.fault v = none ∧ t.Layout v bs := by
  refine ⟨ends_none (ends_ty t hw v hr) bs, fun ⟨h, hl⟩ => ?_⟩
  obtain ⟨b, h1, h2⟩ := C85_writes t hw v h
  rwa [t.layout_unique v bs b hl h1]

/-- MarshalABI of every chain type likewise. -/
theorem C85_chain (c : ChainTy) (v : c.Val) (hr : c.Real v) (bs : Bytes) : (c.marshal v).Writes bs ↔ c.fault v = none ∧ c.Layout v bs := by
  refine ⟨ends_none (ends_chain c v hr) bs, fun ⟨h, hl⟩ => ?_⟩
  have := ends_chain c v hr
  rw [h] at this
  obtain ⟨b, h1, h2⟩ := this
  rwa [c.layout_unique v bs b hl h1]

/-- It returns no errors: what is not written panics. -/
theorem C85_chain_panics (c : ChainTy) (v : c.Val) (hr : c.Real v) : (c.fault v = none ∨ c.fault v = some .panics) ∧ ((∃ w, (c.marshal v).run = .panic w) ↔ c.fault v = some .panics) := by
  have two : c.fault v = none ∨ c.fault v = some .panics := calm_chain c v
  refine ⟨two, fun ⟨w, h⟩ => ?_, fun h => ?_⟩
  · refine two.resolve_left fun h0 => ?_
    have := ends_chain c v hr
    rw [h0] at this
    obtain ⟨b, _, h2⟩ := this
    rw [h2] at h
    cases h
  · have := ends_chain c v hr
    rw [h] at this
    exact this

/-- struct { A uint8; B *uint16; C []string `eosio:"optional"`; d uint8 `eosio:"optional"` } -/
def faultTy : Ty := .struct (.cons .exported .none (.basic .u8) (.cons .exported .none (.ptr (.basic .u16)) (.cons .exported .optional (.slice (.basic .string))
  (.cons .unexported .optional (.basic .u8) .nil))))

/-- Non-vacuity: a value that is written, with an unexported field that is not looked at; a nil pointer; an unexported field that is looked at; both, of which the first counts. -/
example : faultTy.Whole ∧ faultTy.fault ((1, some 2, some [[65]], 0, ()) : UInt8 × Option UInt16 × Option (List Bytes) × UInt8 × Unit) = none ∧
    faultTy.fault ((1, none, none, 0, ()) : UInt8 × Option UInt16 × Option (List Bytes) × UInt8 × Unit) = some (.error errNilPtr) ∧
    faultTy.fault ((1, some 2, none, 3, ()) : UInt8 × Option UInt16 × Option (List Bytes) × UInt8 × Unit) = some .panics ∧
    faultTy.fault ((1, none, none, 3, ()) : UInt8 × Option UInt16 × Option (List Bytes) × UInt8 × Unit) = some (.error errNilPtr) :=
  ⟨⟨trivial, trivial, trivial, trivial, trivial⟩, by decide +kernel, by decide +kernel, by decide +kernel, by decide +kernel⟩
example : (encode faultTy ((1, some 2, some [[65]], 0, ()) : UInt8 × Option UInt16 × Option (List Bytes) × UInt8 × Unit)).Writes [1, 2, 0, 1, 1, 1, 65, 0] := by decide +kernel

/-! ## C52 -/

theorem abiChains_free {b : Bytes} {c : ChainTy} (h : (b, c) ∈ abiChains) (x : c.Val) : c.Real x ∧ c.fault x = none := by
  simp only [abiChains, List.mem_cons, Prod.mk.injEq, List.not_mem_nil, or_false] at h
  rcases h with ⟨rfl, rfl⟩ | ⟨rfl, rfl⟩ | ⟨rfl, rfl⟩ | ⟨rfl, rfl⟩ | ⟨rfl, rfl⟩ | ⟨rfl, rfl⟩ | ⟨rfl, rfl⟩ | ⟨rfl, rfl⟩ | ⟨rfl, rfl⟩ | ⟨rfl, rfl⟩ | ⟨rfl, rfl⟩ | ⟨rfl, rfl⟩ |
    ⟨rfl, rfl⟩ | ⟨rfl, rfl⟩ | ⟨rfl, rfl⟩ | ⟨rfl, rfl⟩ | ⟨rfl, rfl⟩ <;> exact ⟨trivial, rfl⟩

theorem chain_sends {b : Bytes} {c : ChainTy} (h : (b, c) ∈ abiChains) (x : c.Val) (bs : Bytes) : (encodeBuiltin b (.chain c x)).Writes bs ↔ c.Layout x bs := by
  have hf := abiChains_free h x
  unfold Enc.Writes
  rw [encodeBuiltin_chain h]
  exact (C85_chain c x hf.1 bs).trans ⟨And.right, fun hl => ⟨hf.2, hl⟩⟩

theorem builtin_sends (b : Bytes) (v : AV) (bs : Bytes) (hr : v.Real) (h : (encodeBuiltin b v).Writes bs) : SendsAs b v bs := by
  obtain ⟨ht, hl⟩ := encodeBuiltin_fits b v bs hr h
  cases ht with
  | chain hc => exact .chain hc ((chain_sends hc _ _).1 h)
  | basic hc =>
    cases hl trivial with
    | plain hp => cases hp with
      | basic h1 h2 h3 => exact .basic h1 h2 h3
    | uint64 h1 => exact .uint64 h1
  | uint64 =>
    cases hl trivial with
    | plain hp => cases hp with
      | basic h1 h2 h3 => exact .basic h1 h2 h3
    | uint64 h1 => exact .uint64 h1
  | eosioName =>
    cases hl trivial with
    | plain hp => cases hp with
      | chain h1 h2 h3 => exact .chain h1 h3
    | eosioName h1 => exact .eosioName h1
  | bytes =>
    cases hl trivial with
    | plain hp => cases hp
    | bytes => exact .bytes

theorem sends_builtin (b : Bytes) (v : AV) (bs : Bytes) (h : SendsAs b v bs) : (encodeBuiltin b v).Writes bs := by
  cases h with
  | basic h1 h2 h3 => exact encodesAs_encodes (.plain (.basic h1 h2 h3))
  | chain h1 h3 => exact (chain_sends h1 _ _).2 h3
  | uint64 h1 => exact encodesAs_encodes (.uint64 h1)
  | eosioName h1 => exact encodesAs_encodes (.eosioName h1)
  | bytes => exact encodesAs_encodes .bytes

/-- Abi.Encode writes bs for v exactly if bs is the wire form of v, where builtin types have the Go types and forms of `SendsAs`. -/
theorem C52_iff (a : Abi) (ha : a.Real) (n : Bytes) (hn : a.NoShort n) (v : AV) (hv : v.Real) (bs : Bytes) : a.Writes n v bs ↔ Wire a SendsAs false n v bs :=
  ⟨fun ⟨N, h⟩ => wire_of_writes ha builtin_sends hv (h N (Nat.le_refl N)), writes_of_wire sends_builtin hn⟩

/-- Non-vacuity: a key without data is written. -/
example : SendsAs (asc "public_key") (.chain .publicKey (⟨7, []⟩ : PubKey)) [7] := .chain (by simp [abiChains]) rfl

end Verif
