import Verif.Model.ActionDecode
import Verif.Props.AbiCodec
import Verif.Props.AbiResolve
import Verif.Props.Reflect
/-! # C76: Action.Decode and Action.DecodeInto -/
namespace Verif

/-- C76: if the data is the wire form of a map by the type the ABI gives the action, Decode returns that map, given enough stack. The same holds if more bytes follow, which
should be an error (C76_trailing_violated). -/
theorem C76_decode_partial (a : Abi) (x : Action) (act : AbiAction) (ha : First a.actions (fun t => t.name = x.name) act) (hn : a.NoShort act.type) (m : List (Bytes × AV))
    (bs rest : Bytes) (hw : Wire a DecodesAs true act.type (.map m) bs) (hx : x.data = bs ++ rest) : ∃ N, ∀ fuel, N ≤ fuel → x.decode a fuel = .ok (some m, none) rest := by
  obtain ⟨N, h⟩ := C47_decode a act.type hn _ bs hw
  refine ⟨N, fun fuel hf => ?_⟩
  unfold Action.decode Dec.run
  rw [((C53_actions a fuel x.name).1 act ha).2, hx, h fuel hf .eof rest]

/-- C76: data that is the wire form of anything but a map is an error. -/
theorem C76_not_map (a : Abi) (x : Action) (act : AbiAction) (ha : First a.actions (fun t => t.name = x.name) act) (hn : a.NoShort act.type) (v : AV) (hv : ∀ m, v ≠ .map m)
    (hw : Wire a DecodesAs true act.type v x.data) : ∃ N, ∀ fuel, N ≤ fuel → x.decode a fuel = .ok (none, some errNotMap) [] := by
  obtain ⟨N, h⟩ := C47_decode a act.type hn _ x.data hw
  refine ⟨N, fun fuel hf => ?_⟩
  have := h fuel hf .eof []
  rw [List.append_nil] at this
  unfold Action.decode Dec.run
  rw [((C53_actions a fuel x.name).1 act ha).2, this]
  cases v <;> first | rfl | exact absurd rfl (hv _)

/-- C76: a map is returned only without an error, and an error only without a map; an action the ABI does not have is an error. -/
theorem C76_either (a : Abi) (x : Action) (fuel : Nat) : (∀ r e rest, x.decode a fuel = .ok (r, e) rest → (r.isSome ↔ e = none)) ∧
    ((∀ act ∈ a.actions, act.name ≠ x.name) → ∃ e rest, x.decode a fuel = .ok (none, some e) rest) := by
  constructor
  · intro r e rest h
    unfold Action.decode at h
    split at h <;> cases h <;> simp
  · intro h
    obtain ⟨v, e, h⟩ := ((C53_actions a fuel x.name).2 h).2 .eof x.data
    exact ⟨e, x.data, by unfold Action.decode Dec.run; rw [h]⟩

/-- C76: NewAction keeps its arguments; the action of NewAction is decoded by its name and its data alone, whoever authorized it. -/
theorem C76_new (account name : UInt64) (auth : List PermissionLevel) (data : Bytes) :
    (newAction account name auth data).account = account ∧ (newAction account name auth data).name = name ∧
    (newAction account name auth data).authorization = auth ∧ (newAction account name auth data).data = data ∧
    (∀ (a : Abi) (fuel : Nat) (x : Action), x.name = name → x.data = data → (newAction account name auth data).decode a fuel = x.decode a fuel) ∧
    ∀ (t : Ty) (old : t.Val), (newAction account name auth data).decodeInto t old = (decode t old).run data := by
  refine ⟨rfl, rfl, rfl, rfl, fun a fuel x hn hd => ?_, fun _ _ => rfl⟩
  subst hn hd
  rfl

/-- An action "go" with a struct of one field -/
def goAbi : Abi := { structs := [⟨asc "gogo", [], [⟨asc "x", asc "uint8"⟩]⟩, ⟨asc "stop", [], []⟩], actions := [⟨5, asc "gogo", []⟩, ⟨6, asc "stop", []⟩, ⟨7, asc "uint8", []⟩] }

theorem goAbi_u8 : Wire goAbi DecodesAs true (asc "uint8") (.basic .u8 (7 : UInt8)) [7] :=
  .plain (b := asc "uint8") (arr := false) (ext := false) ((parse_spelled ..).1 (by decide +kernel)) (fun h => nomatch h)
    (.one (.builtin ⟨⟨by unfold NoStruct; decide +kernel, by decide +kernel⟩, by decide +kernel⟩ (.plain (.basic (by decide) trivial ⟨rfl, by simp [leValue]⟩))))
theorem goAbi_wire : Wire goAbi DecodesAs true (asc "gogo") (.map [(asc "x", .basic .u8 (7 : UInt8))]) [7] :=
  .plain (b := asc "gogo") (arr := false) (ext := false) ((parse_spelled ..).1 (by decide +kernel)) (fun h => nomatch h)
    (.one (.struct (bs := [7] ++ []) (f := ⟨asc "x", asc "uint8"⟩) (fs := []) (.root (s := ⟨asc "gogo", [], _⟩) ((getStruct_iff ..).1 (by decide +kernel)) rfl)
      (.cons ((entry_mapGet ..).2 rfl) goAbi_u8 .nil) fun _ => ⟨rfl, by decide +kernel⟩))

/-- Decode gives the map for the data [7], and an error for an action that is a number. -/
example : (∃ N, ∀ fuel, N ≤ fuel → (Action.mk 1 5 [] [7]).decode goAbi fuel = .ok (some [(asc "x", .basic .u8 (7 : UInt8))], none) []) ∧
    (∃ N, ∀ fuel, N ≤ fuel → (Action.mk 1 7 [] [7]).decode goAbi fuel = .ok (none, some errNotMap) []) :=
  ⟨C76_decode_partial goAbi ⟨1, 5, [], [7]⟩ ⟨5, asc "gogo", []⟩ ⟨rfl, [], _, rfl, by simp⟩ (noShort_of (by decide +kernel)) _ [7] [] goAbi_wire rfl,
   C76_not_map goAbi ⟨1, 7, [], [7]⟩ ⟨7, asc "uint8", []⟩ ⟨rfl, [⟨5, asc "gogo", []⟩, ⟨6, asc "stop", []⟩], [], rfl, by decide⟩ (noShort_of (by decide +kernel))
    (.basic .u8 (7 : UInt8)) (fun m h => nomatch h) goAbi_u8⟩

/-- C76 fails for data longer than the wire form: the bytes that follow are ignored. -/
theorem C76_trailing_violated : ∃ (a : Abi) (x : Action) (m : List (Bytes × AV)), x.data = [7, 1, 2, 3] ∧ ∃ N, ∀ fuel, N ≤ fuel → x.decode a fuel = .ok (some m, none) [1, 2, 3] :=
  ⟨goAbi, ⟨1, 5, [], [7, 1, 2, 3]⟩, _, rfl,
    C76_decode_partial goAbi _ ⟨5, asc "gogo", []⟩ ⟨rfl, [], _, rfl, by simp⟩ (noShort_of (by decide +kernel)) _ [7] [1, 2, 3] goAbi_wire rfl⟩

/-- C76 fails for actions whose struct has no fields: Decode returns an error for any data, the empty data included. -/
theorem C76_empty_violated (a : Abi) (x : Action) (act : AbiAction) (ha : First a.actions (fun t => t.name = x.name) act) (hn : a.NoShort act.type) (b : Bytes) (ext : Bool)
    (hs : Spelled act.type b false ext false) (hf : FieldsOf a b []) (hb : ∀ c ∈ decCases, c.1 ≠ b) (fuel : Nat) : x.decode a (fuel + 1) = .ok (none, some errUnknownType) x.data := by
  unfold Action.decode
  rw [((C53_actions a (fuel + 1) x.name).1 act ha).2, (C50_violated a act.type b ext hn hs hf fuel).2.2 hb x.data]

/-- The action "stop" of goAbi -/
example (fuel : Nat) : (Action.mk 1 6 [] []).decode goAbi (fuel + 1) = .ok (none, some errUnknownType) [] :=
  C76_empty_violated goAbi ⟨1, 6, [], []⟩ ⟨6, asc "stop", []⟩ ⟨rfl, [⟨5, asc "gogo", []⟩], _, rfl, by simp⟩ (noShort_of (by decide +kernel)) (asc "stop") false
    ((parse_spelled ..).1 (by decide +kernel)) (.root (s := ⟨asc "stop", [], []⟩) ((getStruct_iff ..).1 (by decide +kernel)) rfl) (by decide +kernel) fuel

/-- C76: DecodeInto reads what NewEncoder writes for a value of the type, whatever the variable held, and ignores what follows. -/
theorem C76_into_partial (x : Action) (t : Ty) (v old : t.Val) (he : t.Encodable) (hd : t.Decodable .decode) (hw : t.Wf v) (hc : t.Clean old) :
    ∃ bs, (encode t v).Writes bs ∧ ∃ w, t.Same v w ∧ ∀ rest, x.data = bs ++ rest → x.decodeInto t old = .ok (w, none) rest := by
  obtain ⟨bs, h1, h2⟩ := C40_roundtrip_partial t v he hd hw
  obtain ⟨w, h3, h4⟩ := h2 old hc
  refine ⟨bs, h1, w, h3, fun rest hx => ?_⟩
  unfold Action.decodeInto
  rw [hx]
  exact h4 .eof rest

example : (newAction 1 5 [] [2, 0, 1, 9]).decodeInto (.slice (.basic .u8)) (none : Option (List UInt8)) = .ok ((some [0, 1] : Option (List UInt8)), none) [9] := by decide +kernel

end Verif
