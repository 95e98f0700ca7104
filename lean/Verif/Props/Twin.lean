import Verif.Lemmas.Twin
import Verif.Props.ActionDecode
import Verif.Props.Takes
/-! C98: Encode and Decode with a Go type, Abi.Encode and Abi.Decode with an ABI definition of the same data. -/
namespace Verif

/-- C98: Encode(v) and Abi.Encode of the same value as a map write the same bytes. "bytes" must not occur: Abi.Encode writes them without their length (C51_violated). -/
theorem C98_encode_partial (a : Abi) (n b : Bytes) (arr ext : Bool) (hs : Spelled n b arr ext false) (hn : a.NoShort n) (t : Ty) (tw : TwinBody a b arr t) (hb : tw.NoBytes) (v : t.Val) (hw : t.Wf v) :
    ∃ bs, (encode t v).Writes bs ∧ a.Writes n (tw.av v) bs := by
  obtain ⟨bs, h1, h2⟩ := C40_layout t v (body_go tw).2.1 hw
  have h3 : Wire a Plain true n (tw.av v) bs := .plain hs (body_av_ne tw v) (body_wire tw ⟨fun _ _ _ h => h, .inl hb⟩ v bs hw h1)
  exact ⟨bs, h2, (C47_exact_partial a n hn _ bs h3).1⟩

/-- C98: what Encode(v) has written, Abi.Decode reads as the same value in the form of a map, whatever follows. -/
theorem C98_read (a : Abi) (n b : Bytes) (arr ext : Bool) (hs : Spelled n b arr ext false) (hn : a.NoShort n) (t : Ty) (tw : TwinBody a b arr t) (v : t.Val) (hw : t.Wf v) :
    ∃ bs, (encode t v).Writes bs ∧ a.Reads n bs (tw.av v) := by
  obtain ⟨bs, h1, h2⟩ := C40_layout t v (body_go tw).2.1 hw
  have h3 : Wire a DecodesAs true n (tw.av v) bs := .plain hs (body_av_ne tw v) (body_wire tw ⟨fun _ _ _ h => .plain h, .inr fun _ _ h h' => .bytes h h'⟩ v bs hw h1)
  exact ⟨bs, h2, C47_decode a n hn _ bs h3⟩

/-- C98: what Abi.Encode has written for that map, Decode reads into a variable of the Go type as v, up to nil and empty slices, whatever the variable held and whatever follows. -/
theorem C98_write_partial (a : Abi) (n b : Bytes) (arr ext : Bool) (hs : Spelled n b arr ext false) (hn : a.NoShort n) (t : Ty) (tw : TwinBody a b arr t) (hb : tw.NoBytes) (v : t.Val) (hw : t.Wf v)
    (old : t.Val) (hc : t.Clean old) : ∃ bs w, a.Writes n (tw.av v) bs ∧ t.Same v w ∧ (decode t old).Reads bs w := by
  obtain ⟨bs, h1, h2⟩ := C40_layout t v (body_go tw).2.1 hw
  have h3 : Wire a Plain true n (tw.av v) bs := .plain hs (body_av_ne tw v) (body_wire tw ⟨fun _ _ _ h => h, .inl hb⟩ v bs hw h1)
  obtain ⟨w, h4, h5⟩ := C40_reads t v old bs (body_go tw).2.2.1 hw hc h1
  exact ⟨bs, w, (C47_exact_partial a n hn _ bs h3).1, h4, h5⟩

/-- C98: the two decoders accept the same inputs, consume the same bytes and yield the same value. Of inputs so long that slices might not fit into memory nothing is said. -/
theorem C98_decode (a : Abi) (n b : Bytes) (arr ext : Bool) (hs : Spelled n b arr ext false) (hn : a.NoShort n) (hx : a.NoExtension n) (t : Ty) (tw : TwinBody a b arr t) (fin : Err) (bs : Bytes)
    (hL : bs.length * max 16 t.widest ≤ maxAlloc) (x : AV) (r : Bytes) :
    (∃ N, ∀ fuel, N ≤ fuel → (a.decode fuel n).runE fin bs = .ok (x, none) r) ↔ ∃ v, tw.av v = x ∧ (decode t t.zero).runE fin bs = .ok (v, none) r := by
  have len {w : Bytes} (h : bs = w ++ r) : w.length ≤ bs.length := by rw [h, List.length_append]; omega
  rw [C82_decode a n hn hx]
  constructor
  · rintro ⟨w, e, h⟩
    obtain ⟨v, h1, h2⟩ := body_takes tw .decode (.inl rfl) x w (Nat.le_trans (Nat.mul_le_mul (len e) (Nat.le_max_right 16 _)) hL) (accepts_plain hs h)
    exact ⟨v, h1, (C81_decode t (body_go tw).1 fin bs v r).2 ⟨w, e, h2⟩⟩
  · rintro ⟨v, rfl, h⟩
    obtain ⟨w, e, h1⟩ := (C81_decode t (body_go tw).1 fin bs v r).1 h
    exact ⟨w, e, .plain hs (body_accepts tw .decode (.inl rfl) v w (Nat.le_trans (Nat.mul_le_mul (len e) (Nat.le_max_left _ t.widest)) hL) h1)⟩

/-- C98: Action.Decode returns a map exactly if DecodeInto succeeds with a variable of the Go type, and the map says the same. -/
theorem C98_action (a : Abi) (x : Action) (act : AbiAction) (ha : First a.actions (fun t => t.name = x.name) act) (b : Bytes) (arr ext : Bool) (hs : Spelled act.type b arr ext false)
    (hn : a.NoShort act.type) (hx : a.NoExtension act.type) (t : Ty) (tw : TwinBody a b arr t) (hL : x.data.length * max 16 t.widest ≤ maxAlloc) (m : List (Bytes × AV)) (r : Bytes) :
    (∃ N, ∀ fuel, N ≤ fuel → x.decode a fuel = .ok (some m, none) r) ↔ ∃ v, tw.av v = .map m ∧ x.decodeInto t t.zero = .ok (v, none) r := by
  have key := C98_decode a act.type b arr ext hs hn hx t tw .eof x.data hL (.map m) r
  refine Iff.trans ?_ key
  have step (fuel : Nat) : x.decode a fuel = .ok (some m, none) r ↔ (a.decode fuel act.type).runE .eof x.data = .ok (.map m, none) r := by
    unfold Action.decode Dec.run
    rw [((C53_actions a fuel x.name).1 act ha).2]
    match (a.decode fuel act.type).runE .eof x.data with
    | .panic _ => simp
    | .diverge => simp
    | .ok (v, some e) r => cases v <;> simp
    | .ok (v, none) r => cases v <;> simp
  simp only [step]

/-! ## Examples -/

/-- A deposit is a transfer with some more fields. -/
def twinAbi : Abi := {
  types := [⟨asc "text", asc "string"⟩]
  structs := [⟨asc "transfer", [], [⟨asc "from", asc "name"⟩, ⟨asc "to", asc "name"⟩]⟩,
    ⟨asc "deposit", asc "transfer", [⟨asc "amounts", asc "asset[]"⟩, ⟨asc "memo", asc "text?"⟩, ⟨asc "id", asc "uint64"⟩, ⟨asc "raw", asc "bytes"⟩]⟩]
  actions := [⟨5, asc "deposit", []⟩] }

theorem twin_builtin {b : Bytes} (h : ((twinAbi.structs.map AbiStruct.name).all (· ≠ b) && (twinAbi.types.map AbiType.newTypeName).all (· ≠ b)) = true) : NotDefined twinAbi b := by
  simp only [Bool.and_eq_true, List.all_eq_true, List.mem_map, decide_eq_true_eq] at h
  exact ⟨⟨fun s hs => h.1 _ ⟨s, hs, rfl⟩, by simp [twinAbi]⟩, fun t ht => h.2 _ ⟨t, ht, rfl⟩⟩

/-- struct { Transfer; Amounts []*Asset; Memo *string `eosio:"optional"`; ID uint64; Raw []byte } with type Transfer struct { From, To Name } -/
def twinTy : Ty := .struct <| .cons .exported .none (.struct <| .cons .exported .none (.chain .name) <| .cons .exported .none (.chain .name) .nil) <|
  .cons .exported .none (.slice (.ptr (.chain .asset))) <| .cons .exported .optional (.ptr (.basic .string)) <| .cons .exported .none (.basic .u64) <| .cons .exported .none .bytes .nil

theorem twin_spelled {n b : Bytes} {arr opt : Bool} (h : parseTypeName n = some (b, arr, opt, false)) : Spelled n b arr false opt := (parse_spelled ..).1 h

def twinDeposit : TwinBody twinAbi (asc "deposit") false twinTy :=
  .one (.struct (f := ⟨asc "from", asc "name"⟩) (fs := [⟨asc "to", asc "name"⟩, ⟨asc "amounts", asc "asset[]"⟩, ⟨asc "memo", asc "text?"⟩, ⟨asc "id", asc "uint64"⟩, ⟨asc "raw", asc "bytes"⟩])
    (.derived (b' := asc "transfer") (s := ⟨asc "deposit", asc "transfer", _⟩) (fs := [⟨asc "from", asc "name"⟩, ⟨asc "to", asc "name"⟩]) ((getStruct_iff ..).1 (by decide +kernel)) (by decide)
      (twin_spelled (arr := false) (opt := false) (by decide +kernel)) (.root (s := ⟨asc "transfer", [], _⟩) ((getStruct_iff ..).1 (by decide +kernel)) rfl))
    (by decide +kernel)
    (.within (es := [⟨asc "from", asc "name"⟩, ⟨asc "to", asc "name"⟩])
      (.plain (twin_spelled (b := asc "name") (by decide +kernel)) (.one (.chain (twin_builtin (by decide +kernel)) (by decide)))
        (.plain (twin_spelled (b := asc "name") (by decide +kernel)) (.one (.chain (twin_builtin (by decide +kernel)) (by decide))) .nil))
      (.plain (twin_spelled (b := asc "asset") (arr := true) (by decide +kernel)) (.pointers (.chain (twin_builtin (by decide +kernel)) (by decide)))
        (.optional (twin_spelled (b := asc "text") (by decide +kernel)) (.one (.alias (b' := asc "string") (ty := ⟨asc "text", asc "string"⟩)
            ⟨⟨by unfold NoStruct; decide +kernel, by simp [twinAbi]⟩, rfl, [], [], rfl, by simp⟩ (twin_spelled (by decide +kernel))
            (.one (.basic (twin_builtin (by decide +kernel)) (by decide)))))
          (.plain (twin_spelled (b := asc "uint64") (by decide +kernel)) (.one (.uint64 (twin_builtin (by decide +kernel))))
            (.plain (twin_spelled (b := asc "bytes") (by decide +kernel)) (.one (.bytes (twin_builtin (by decide +kernel)))) .nil))))))

theorem twin_short : twinAbi.NoShort (asc "deposit") := noShort_of (by decide +kernel)
theorem twin_plain : twinAbi.NoExtension (asc "deposit") := noExtension_of (by decide +kernel)

/-- From 1 to 2, two assets, no memo, the id 3, raw data 7 8 -/
def twinValue : twinTy.Val := (((1 : UInt64), (2 : UInt64), ()), (some [some (⟨5, 4⟩ : Asset), some (⟨6, 4⟩ : Asset)] : Option (List (Option Asset))), (none : Option Bytes), (3 : UInt64),
  (some [7, 8] : Option Bytes), ())

example : twinDeposit.av twinValue = .map [(asc "from", .chain .name (1 : UInt64)), (asc "to", .chain .name (2 : UInt64)), (asc "amounts", .slice [.chain .asset ⟨5, 4⟩, .chain .asset ⟨6, 4⟩]),
  (asc "memo", .nil), (asc "id", .chain .uint64 (3 : UInt64)), (asc "raw", .chain .bytes (some [7, 8]))] := rfl

example : twinTy.Wf twinValue := by
  refine ⟨.inr ⟨.inr trivial, .inr trivial, trivial⟩, .inr ⟨by decide, by decide +kernel, ?_⟩, .inl ⟨rfl, rfl⟩, .inr trivial, .inr (show [7, 8].length < 2 ^ 28 by decide), trivial⟩
  intro x hx
  have hx : x ∈ [some (⟨5, 4⟩ : Asset), some (⟨6, 4⟩ : Asset)] := hx
  rcases List.mem_cons.1 hx with rfl | hx
  · exact ⟨_, rfl, trivial⟩
  · cases List.mem_singleton.1 hx; exact ⟨_, rfl, trivial⟩

example (bs : Bytes) (hL : bs.length < 2 ^ 44) (x : AV) (r : Bytes) : (∃ N, ∀ fuel, N ≤ fuel → (twinAbi.decode fuel (asc "deposit")).run bs = .ok (x, none) r) ↔
    ∃ v, twinDeposit.av v = x ∧ (decode twinTy twinTy.zero).run bs = .ok (v, none) r :=
  C98_decode twinAbi (asc "deposit") (asc "deposit") false false (twin_spelled (by decide +kernel)) twin_short twin_plain twinTy twinDeposit .eof bs (by
    have : max 16 twinTy.widest = 16 := by decide +kernel
    have : maxAlloc = 2 ^ 48 := rfl
    rw [‹max 16 twinTy.widest = 16›]
    omega) x r

/-- type Transfer struct { From, To Name } -/
def twinTransfer : TwinBody twinAbi (asc "transfer") false (.struct <| .cons .exported .none (.chain .name) <| .cons .exported .none (.chain .name) .nil) :=
  .one (.struct (f := ⟨asc "from", asc "name"⟩) (fs := [⟨asc "to", asc "name"⟩]) (.root (s := ⟨asc "transfer", [], _⟩) ((getStruct_iff ..).1 (by decide +kernel)) rfl) (by decide +kernel)
    (.plain (twin_spelled (b := asc "name") (by decide +kernel)) (.one (.chain (twin_builtin (by decide +kernel)) (by decide)))
      (.plain (twin_spelled (b := asc "name") (by decide +kernel)) (.one (.chain (twin_builtin (by decide +kernel)) (by decide))) .nil)))

example (x y : UInt64) : ∃ bs, (encode (.struct <| .cons .exported .none (.chain .name) <| .cons .exported .none (.chain .name) .nil) ((x, y, ()) : UInt64 × UInt64 × Unit)).Writes bs ∧
    twinAbi.Writes (asc "transfer") (.map [(asc "from", .chain .name x), (asc "to", .chain .name y)]) bs :=
  C98_encode_partial twinAbi (asc "transfer") (asc "transfer") false false (twin_spelled (by decide +kernel)) (noShort_of (by decide +kernel)) _ twinTransfer ⟨trivial, trivial, trivial⟩
    ((x, y, ()) : UInt64 × UInt64 × Unit) ⟨.inr trivial, .inr trivial, trivial⟩

example (m : List (Bytes × AV)) (d r : Bytes) (hL : d.length < 2 ^ 44) : (∃ N, ∀ fuel, N ≤ fuel → (newAction 1 5 [] d).decode twinAbi fuel = .ok (some m, none) r) ↔
    ∃ v, twinDeposit.av v = .map m ∧ (newAction 1 5 [] d).decodeInto twinTy twinTy.zero = .ok (v, none) r :=
  C98_action twinAbi (newAction 1 5 [] d) ⟨5, asc "deposit", []⟩ ⟨rfl, [], [], rfl, by simp⟩ (asc "deposit") false false (twin_spelled (by decide +kernel)) twin_short twin_plain twinTy twinDeposit (by
    have : max 16 twinTy.widest = 16 := by decide +kernel
    have : maxAlloc = 2 ^ 48 := rfl
    rw [‹max 16 twinTy.widest = 16›]
    show d.length * 16 ≤ maxAlloc
    omega) m r

/-! ## Where the two differ -/

/-- Abi.Encode refuses the bytes that Abi.Decode returned and writes a []byte without its length; Encode writes the length. -/
theorem C98_bytes_violated (a : Abi) (hd : NotDefined a (asc "bytes")) (x : Bytes) (hx : x.length < 2 ^ 28) : ∃ w, (encode .bytes (some x : Option Bytes)).Writes w ∧
    (∀ fuel, a.encode (fuel + 1) (asc "bytes") (.chain .bytes (some x)) = pure (some errExpectedType)) ∧ a.Writes (asc "bytes") (.byteSlice x) x ∧ x ≠ w := by
  obtain ⟨w, h1, h2⟩ := C40_layout .bytes (some x : Option Bytes) trivial hx
  exact ⟨w, h2, (C51_violated a hd x w hx h1).2⟩

/-- struct { X uint8 `eosio:"optional"` } and a struct with the field x of type uint8?: the Go value 0 is written as absent, which Abi.Decode reads as nil; Abi.Encode writes the number 0 as present. -/
def optAbi : Abi := { structs := [⟨asc "opt", [], [⟨asc "x", asc "uint8?"⟩]⟩] }
def optTy : Ty := .struct (.cons .exported .optional (.basic .u8) .nil)

theorem C98_optional_violated : (encode optTy (((0 : UInt8), ()) : UInt8 × Unit)).run = .ok none [0] ∧ (∀ fuel, (optAbi.decode (fuel + 3) (asc "opt")).run [0] = .ok (.map [(asc "x", .nil)], none) []) ∧
    ∀ fuel, (optAbi.encode (fuel + 3) (asc "opt") (.map [(asc "x", .basic .u8 (0 : UInt8))])).run = .ok none [1, 0] := ⟨rfl, fun _ => rfl, fun _ => rfl⟩

/-- struct { V struct { A *uint8; B *string } `eosio:"variant"` } and the same in an ABI: the number of the alternative is one byte for Decode and LEB128 for Abi.Decode. -/
def altAbi : Abi := { structs := [⟨asc "holder", [], [⟨asc "v", asc "alt"⟩]⟩], variants := [⟨asc "alt", [asc "uint8", asc "string"]⟩] }
def altTy : Ty := .struct (.cons .exported .variant (.struct (.cons .exported .none (.ptr (.basic .u8)) (.cons .exported .none (.ptr (.basic .string)) .nil))) .nil)

theorem C98_variant_violated : (∀ fuel, (altAbi.decode (fuel + 3) (asc "holder")).run [0x80, 0, 7] = .ok (.map [(asc "v", .slice [.basic .string (asc "uint8"), .basic .u8 (7 : UInt8)])], none) []) ∧
    ∀ v r, (decode altTy altTy.zero).run [0x80, 0, 7] ≠ .ok (v, none) r := ⟨fun _ => rfl, fun v r h => by cases h⟩

end Verif
