import Verif.Lemmas.AbiStrict
import Verif.Props.Reflect
import Verif.Props.AbiCodec
/-! # C06, C08–C10, C66 for Encode, Decode, Abi.Encode, Abi.Decode -/
namespace Verif

/-! ## C06 -/

/-- []byte -/
theorem C06_slice (x w : Bytes) (hx : x.length < 2 ^ 28) (hw : Prefixed w x) :
    (encode .bytes (some x : Option Bytes)).Writes w ∧ ∀ old, (decode .bytes old).Reads w (some x : Option Bytes) := by
  obtain ⟨lb, hl, rfl⟩ := hw
  have hm : lb = varuintBytes x.length := minLeb_unique _ _ _ hl (varuintBytes_minLeb _ hx)
  subst hm
  refine ⟨writeString_writes x hx, fun old fin rest => ?_⟩
  show (decodeBytes old).runE fin _ = _
  unfold decodeBytes
  rw [List.append_assoc, Dec.runE_bind, readVaruint_reads x.length hx fin (x ++ rest), Out.bind_ok]
  dsimp only
  have hg : goInt x.length.toUInt64 = (x.length : Int) := goInt_toUInt64 _ (by omega)
  rw [hg, Dec.runE_bind, readBytes_reads fin x.length (by unfold maxAlloc; omega) x rest rfl, Out.bind_ok]
  rw [if_neg (by omega)]
  rfl

/-- Three bytes that are not valid UTF-8 -/
example : (encode .bytes (some [255, 0, 128] : Option Bytes)).Writes [3, 255, 0, 128] ∧ (decode .bytes (some [1] : Option Bytes)).run [3, 255, 0, 128, 9] = .ok ((some [255, 0, 128] : Option Bytes), none) [9] :=
  ⟨by decide +kernel, by decide +kernel⟩

/-! ## C08 -/

/-- Every decode function whatsoever: if no read came up against the end of the input, appending data changes neither the result nor what is consumed. -/
theorem C08_append {α : Type} (p : Dec α) (fin fin' : Err) (bs more : Bytes) (hf : p.fits bs) (a : α) (r : Bytes) (h : p.runE fin bs = .ok a r) :
    p.runE fin' (bs ++ more) = .ok a (r ++ more) := Dec.runE_append fin fin' p bs more hf a r h

/-- Also with binary extensions: struct { A uint8; B uint16 `eosio:"extension"` } with both fields present, and the same with one field and nothing more, which
comes up against the end. -/
def extTy : Ty := .struct <| .cons .exported .none (.basic .u8) <| .cons .exported .extension (.basic .u16) .nil
example : (decode extTy extTy.zero).fits [1, 2, 3] ∧ (decode extTy extTy.zero).run [1, 2, 3] = .ok (((1 : UInt8), (0x0302 : UInt16), ()), none) [] ∧
    ¬ (decode extTy extTy.zero).fits [1] ∧ (decode extTy extTy.zero).run [1] = .ok (((1 : UInt8), (0 : UInt16), ()), some .eof) [] := by
  refine ⟨⟨by decide, by decide, trivial⟩, by decide +kernel, fun h => absurd h.2.1 (by decide), by decide +kernel⟩

/-! ## C09, C66 -/

/-- C08_locality, C09_truncation (s arbitrary) and C66_faults (s = false) apply to Decode and DecodeVariant for every type without binary extensions. -/
theorem C09_reflect_strict (s : Bool) (t : Ty) (ht : t.NoExt s) (old : t.Val) : (decode t old).Strict s ∧ (decodeVariant t old).Strict s := by
  refine ⟨ty_strict s t ht .decode old, fun P hP => ?_⟩
  unfold decodeVariant
  strict_try (readByte_strict s P hP)
  exact ty_strict s t ht _ old P hP

/-- Every proper prefix of what Encode writes makes Decode fail. -/
theorem C09_reflect (t : Ty) (ht : t.NoExt true) (v old : t.Val) (he : t.Encodable) (hd : t.Decodable .decode) (hw : t.Wf v) (hc : t.Clean old) :
    ∃ bs, (encode t v).Writes bs ∧ ∀ n < bs.length, ∃ x e, (decode t old).run (bs.take n) = .ok (x, some e) [] ∧ (e = .eof ∨ e = .unexpectedEOF) := by
  obtain ⟨bs, h1, h2⟩ := C40_roundtrip_partial t v he hd hw
  obtain ⟨w, _, h3⟩ := h2 old hc
  exact ⟨bs, h1, fun n hn => C09_truncation true _ (C09_reflect_strict true t ht old).1 bs w h3 n hn⟩

example : sampleTy.NoExt false := by simp [sampleTy, Ty.NoExt, Fields.NoExt, ChainTy.Firm]

theorem C09_abi_strict (s : Bool) (a : Abi) (n : Bytes) (hx : a.NoExt n) (fuel : Nat) : (a.decode fuel n).Strict s := by
  unfold Abi.decode
  cases hts : resolve a n with
  | panic => exact fun _ _ => trivial
  | diverge => exact fun _ _ => trivial
  | val ts =>
    obtain ⟨hr, _⟩ := resolve_ready hts
    exact decodeTypeF_strict s ts (fun m t ht => hx m _ _ _ _ (((C46_describes a n ts hts).1 m).1 ⟨t, ht⟩) (hr m t ht).1.2.1) fuel n

/-- Every proper prefix of what Abi.Decode reads as a value makes it fail. By C47_decode this includes every wire form. -/
theorem C09_abi (a : Abi) (n : Bytes) (hx : a.NoExt n) (v : AV) (bs : Bytes) (h : a.Reads n bs v) :
    ∃ N, ∀ fuel, N ≤ fuel → ∀ k < bs.length, ∃ x e, (a.decode fuel n).run (bs.take k) = .ok (x, some e) [] ∧ (e = .eof ∨ e = .unexpectedEOF) := by
  obtain ⟨N, hN⟩ := h
  exact ⟨N, fun fuel hf k hk => C09_truncation false _ (C09_abi_strict false a n hx fuel) bs v (hN fuel hf) k hk⟩

theorem noExt_of {a : Abi} {n : Bytes} {ts : Types} (h : resolve a n = .val ts) (ht : ∀ e ∈ ts, e.2.isExtension = false) : a.NoExt n := by
  intro m b arr ext opt hm hs
  obtain ⟨t, hg⟩ := ((C46_describes a n ts h).1 m).2 hm
  rw [(spelled_unique hs ((C46_describes a n ts h).2 m t hg).2.1).2.2.1]
  simp only [Types.get, Option.map_eq_some_iff] at hg
  obtain ⟨e, he, rfl⟩ := hg
  exact ht e (List.mem_of_find?_eq_some he)

/-- A list of two nodes, cut anywhere -/
example : ∃ N, ∀ fuel, N ≤ fuel → ∀ k < 14, ∃ x e, (sampleAbi.decode fuel (asc "node")).run ([7, 1, 1, 0, 1, 1, 5, 0, 0, 0, 0, 0, 0, 0].take k) = .ok (x, some e) [] ∧
    (e = .eof ∨ e = .unexpectedEOF) := by
  have : ∃ ts, resolve sampleAbi (asc "node") = .val ts ∧ ∀ e ∈ ts, e.2.isExtension = false := ⟨_, rfl, by decide +kernel⟩
  obtain ⟨ts, h1, h2⟩ := this
  exact C09_abi sampleAbi (asc "node") (noExt_of h1 h2) sampleNode _
    (C47_exact_partial sampleAbi (asc "node") (noShort_of (by rw [h1]; exact (fun h => nomatch h))) sampleNode _ sampleNode_wire).2

/-! ## C10 -/

/-- C10_write_errors applies to Encode of every type without optional fields and without PermissionLevel, Action and Transaction.
Missing for the full claim: those, where it is false (C10_violated, C10_optional_violated). -/
theorem C10_reflect_partial (t : Ty) (ht : t.NoOpt) (v : t.Val) : (encode t v).Strict := tyWrite_strict t ht v

example : (Ty.struct <| .cons .exported .none (.basic .u16) <| .cons .exported .none (.slice (.ptr (.chain .name))) <|
    .cons .exported .none (.map (.basic .string) (.basic .bool)) .nil).NoOpt := by simp [Ty.NoOpt, Fields.NoOpt, ChainTy.Firm]

theorem runW_ok {α : Type} (p : Enc α) (x : α) (bs : Bytes) (h : p.run = .ok x bs) : p.runW (fun _ => .ok) = .ok x bs false := by
  induction p generalizing bs with
  | ret a => cases h; rfl
  | panic w => cases h
  | diverge => cases h
  | write b k ih =>
    have h' : ((k none).run).prepend b = .ok x bs := h
    cases hk : (k none).run with
    | ok y c =>
      rw [hk] at h'
      cases h'
      show ((k none).runW fun _ => .ok).prepend b false = _
      rw [ih none c (by rw [hk])]
      rfl
    | panic w => rw [hk] at h'; cases h'
    | diverge => rw [hk] at h'; cases h'

/-- An optional field: the error of writing the presence byte is dropped. If it is absent and nothing follows, Encode returns nil although no byte could be written;
if it is present and only that write fails, the value is written without the presence byte. -/
theorem C10_optional_violated (vis : Vis) (t : Ty) (v : t.Val) (e : Err) :
    (t.isZero v = true → (encode (.struct (.cons vis .optional t .nil)) ((v, ()) : t.Val × Unit)).runW (fun _ => .fail 0 e) = .ok none [] true) ∧
    (t.isZero v = false → ∀ bs, (encode t v).Writes bs →
      (encode (.struct (.cons .exported .optional t .nil)) ((v, ()) : t.Val × Unit)).runW (fun i => if i = 0 then .fail 0 e else .ok) = .ok none bs true) := by
  constructor
  · intro hz
    show (encodeField vis .optional (t.isZero v) (encode t v) (pure none)).runW _ = _
    rw [hz]
    rfl
  · intro hz bs hb
    show (encodeField .exported .optional (t.isZero v) (encode t v) (pure none)).runW _ = _
    rw [hz]
    have h1 : (Enc.bind (encode t v) (fun r => match r with
      | some e => pure (some e)
      | none => pure none)).Writes (bs ++ []) := Enc.Writes.bind hb Enc.Writes.pure
    rw [List.append_nil] at h1
    show ((Enc.bind (encode t v) _).runW _).prepend [] true = _
    have h2 : (fun i => (fun i => if i = 0 then WEv.fail 0 e else WEv.ok) (i + 1)) = fun _ => WEv.ok := funext fun i => by simp
    rw [h2]
    exact congrArg (WOut.prepend [] true) (runW_ok _ _ _ h1)

/-- An absent and a present uint16 -/
example : (encode (.struct (.cons .exported .optional (.basic .u16) .nil)) ((0 : UInt16), ())).runW (fun _ => .fail 0 (.io 28)) = .ok none [] true ∧
    (encode (.struct (.cons .exported .optional (.basic .u16) .nil)) ((7 : UInt16), ())).runW (fun i => if i = 0 then .fail 0 (.io 28) else .ok) = .ok none [7, 0] true := ⟨rfl, rfl⟩

/-- C10_write_errors applies to Abi.Encode if no type has a '?'.
Missing for the full claim: optional types, where it is false (C10_abi_violated). -/
theorem C10_abi_partial (a : Abi) (n : Bytes) (hx : a.NoOpt n) (fuel : Nat) (v : AV) : (a.encode fuel n v).Strict := by
  unfold Abi.encode
  cases hts : resolve a n with
  | panic => trivial
  | diverge => trivial
  | val ts =>
    obtain ⟨hr, _⟩ := resolve_ready hts
    exact encodeTypeF_strict ts (fun m t ht => hx m _ _ _ _ (((C46_describes a n ts hts).1 m).1 ⟨t, ht⟩) (hr m t ht).1.2.1) fuel n v

/-- For every optional type and every value: if the first write fails, Abi.Encode stops and returns nil. -/
theorem C10_abi_violated (a : Abi) (n b : Bytes) (arr ext : Bool) (hn : a.NoShort n) (hs : Spelled n b arr ext true) (v : AV) (fuel : Nat) (w : Nat → WEv) (e : Err)
    (hw : w 0 = .fail 0 e) : (a.encode (fuel + 1) n v).runW w = .ok none [] true := by
  obtain ⟨ts, hts⟩ := noShort_resolves hn
  obtain ⟨hr, t, ht⟩ := resolve_ready hts
  have ho := (spelled_unique hs (hr n t ht).1.2.1).2.2.2
  unfold Abi.encode
  rw [hts]
  simp only [encodeTypeF, ht, ← ho, if_true]
  cases v.isNil <;> (simp only [writeBool, writeByte, Bool.not_true, Bool.not_false]; simp [Bind.bind, Enc.bind, Enc.runW, hw, WOut.prepend, Pure.pure])

example : ((⟨[], [], [], [], [], [], [], [], []⟩ : Abi).encode 1 (asc "uint8?") (.basic .u8 (5 : UInt8))).runW (fun _ => .fail 0 (.io 28)) = .ok none [] true :=
  C10_abi_violated _ (asc "uint8?") (asc "uint8") false false (noShort_of (by decide +kernel)) ((parse_spelled ..).1 (by decide +kernel)) _ 0 _ (.io 28) rfl

/-- The hypothesis of C10_abi_partial is met by a struct with an array, an alias and a base. -/
def firmAbi : Abi := { types := [⟨asc "memo", asc "string"⟩], structs := [⟨asc "base", [], [⟨asc "who", asc "name"⟩]⟩, ⟨asc "note", asc "base", [⟨asc "texts", asc "memo[]"⟩]⟩] }
example : firmAbi.NoOpt (asc "note") := by
  intro m b arr ext opt hm hs
  have : ∃ ts, resolve firmAbi (asc "note") = .val ts ∧ ∀ e ∈ ts, e.2.isOptional = false := ⟨_, rfl, by decide +kernel⟩
  obtain ⟨ts, h, hts⟩ := this
  obtain ⟨h1, h2⟩ := C46_describes firmAbi (asc "note") ts h
  obtain ⟨t, ht⟩ := (h1 m).2 hm
  rw [(spelled_unique hs (h2 m t ht).2.1).2.2.2]
  unfold Types.get at ht
  obtain ⟨e, he, rfl⟩ := Option.map_eq_some_iff.1 ht
  exact hts e (List.mem_of_find?_eq_some he)

end Verif
