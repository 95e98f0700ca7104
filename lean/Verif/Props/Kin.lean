import Verif.Lemmas.Kin
import Verif.Props.TwinVariant
/-! # C112: structs with variants, read by Decode and by Abi.Decode -/
namespace Verif

/-- C112: whatever Decode reads into a Go type with variants, Abi.Decode reads with the ABI type as the same value, up to the same byte. -/
theorem C112_read (a : Abi) (n b : Bytes) (arr ext : Bool) (hs : Spelled n b arr ext false) (hn : a.NoShort n) (hx : a.NoExtension n) (t : Ty) (tw : KinBody a b arr t) (fin : Err) (bs : Bytes)
    (hL : bs.length * 16 ≤ maxAlloc) (v : t.Val) (r : Bytes) (h : (decode t t.zero).runE fin bs = .ok (v, none) r) :
    ∃ N, ∀ fuel, N ≤ fuel → (a.decode fuel n).runE fin bs = .ok (tw.av v, none) r := by
  rw [C82_decode a n hn hx]
  obtain ⟨w, e, h1⟩ := (C81_decode t (kin_body_strait tw) fin bs v r).1 h
  exact ⟨w, e, .plain hs (kin_body_accepts tw .decode (.inl rfl) v w (mul_le_of (by rw [e, List.length_append]; omega) hL) h1)⟩

/-- C112: a value and its wire form. Abi.Decode reads the value, and Decode a Go value that is the same, whatever follows. -/
theorem C112_wire (a : Abi) (n b : Bytes) (arr ext : Bool) (hs : Spelled n b arr ext false) (hn : a.NoShort n) (t : Ty) (tw : KinBody a b arr t) (x : AV) (bs : Bytes)
    (hL : bs.length * t.widest ≤ maxAlloc) (h : Wire a DecodesAs true n x bs) : a.Reads n bs x ∧ ∃ v, tw.av v = x ∧ (decode t t.zero).Reads bs v := by
  refine ⟨C47_decode a n hn x bs h, ?_⟩
  obtain ⟨v, h1, h2⟩ := kin_body_takes tw .decode (.inl rfl) x bs hL (wire_plain hs h)
  exact ⟨v, h1, fun fin rest => (C81_decode t (kin_body_strait tw) fin _ v rest).2 ⟨bs, rfl, h2⟩⟩

/-- C112: what Abi.Encode writes for a value, Decode reads as a Go value that is the same. -/
theorem C112_write (a : Abi) (n b : Bytes) (arr ext : Bool) (hs : Spelled n b arr ext false) (hn : a.NoShort n) (t : Ty) (tw : KinBody a b arr t) (x : AV) (bs : Bytes)
    (hL : bs.length * t.widest ≤ maxAlloc) (h : Wire a Plain true n x bs) : a.Writes n x bs ∧ ∃ v, tw.av v = x ∧ (decode t t.zero).Reads bs v :=
  ⟨(C47_exact_partial a n hn x bs h).1, (C112_wire a n b arr ext hs hn t tw x bs hL (wire_mono (fun _ _ _ h => .plain h) h)).2⟩

/-- C112: what DecodeInto reads from an action, Action.Decode reads as the same map. -/
theorem C112_action (a : Abi) (x : Action) (act : AbiAction) (ha : First a.actions (fun t => t.name = x.name) act) (b : Bytes) (arr ext : Bool) (hs : Spelled act.type b arr ext false)
    (hn : a.NoShort act.type) (hx : a.NoExtension act.type) (t : Ty) (tw : KinBody a b arr t) (hL : x.data.length * 16 ≤ maxAlloc) (v : t.Val) (m : List (Bytes × AV)) (r : Bytes)
    (hm : tw.av v = .map m) (h : x.decodeInto t t.zero = .ok (v, none) r) : ∃ N, ∀ fuel, N ≤ fuel → x.decode a fuel = .ok (some m, none) r := by
  obtain ⟨N, h1⟩ := C112_read a act.type b arr ext hs hn hx t tw .eof x.data hL v r h
  refine ⟨N, fun fuel hf => ?_⟩
  have h2 := h1 fuel hf
  unfold Action.decode Dec.run
  rw [((C53_actions a fuel x.name).1 act ha).2]
  simp only [h2, hm]

/-! ## Examples -/

/-- A struct with a field v of the type choice, an alias of the variant alt, and a field x -/
def kinAbi : Abi := { types := [⟨asc "choice", asc "alt"⟩], variants := [⟨asc "alt", [asc "uint8", asc "string[]"]⟩], structs := [⟨asc "holder", [], [⟨asc "v", asc "choice"⟩, ⟨asc "x", asc "uint8"⟩]⟩], actions := [⟨5, asc "holder", []⟩] }
/-- struct { V struct { A *uint8; B *[]string } `eosio:"variant"`; X uint8 } -/
def kinTy : Ty := .struct (.cons .exported .variant (.struct pickFields) (.cons .exported .none (.basic .u8) .nil))

theorem kin_builtin {b : Bytes} (h1 : b ≠ asc "alt") (h2 : b ≠ asc "choice") (h3 : b ≠ asc "holder") : NotDefined kinAbi b := by
  refine ⟨⟨?_, ?_⟩, ?_⟩ <;> intro v hv <;> simp only [kinAbi, List.mem_singleton] at hv <;> subst hv
  · exact fun h => h3 h.symm
  · exact fun h => h1 h.symm
  · exact fun h => h2 h.symm

theorem kin_variant : IsVariant kinAbi (asc "alt") ⟨asc "alt", [asc "uint8", asc "string[]"]⟩ := ⟨by unfold NoStruct; decide +kernel, rfl, [], [], rfl, by simp⟩
theorem kin_fields : FieldsOf kinAbi (asc "holder") [⟨asc "v", asc "choice"⟩, ⟨asc "x", asc "uint8"⟩] := .root (s := ⟨asc "holder", [], _⟩) ((getStruct_iff ..).1 (by decide +kernel)) rfl
theorem kin_alias : IsAlias kinAbi (asc "choice") ⟨asc "choice", asc "alt"⟩ := ⟨⟨by unfold NoStruct; decide +kernel, by simp only [kinAbi, List.mem_singleton]; rintro _ rfl; decide⟩, rfl, [], [], rfl, by simp⟩

def kinHolder : KinBody kinAbi (asc "holder") false kinTy :=
  .one (.struct kin_fields (by decide +kernel)
    (.variant (b := asc "choice") (twin_spelled (by decide +kernel)) (.alias kin_alias (twin_spelled (by decide +kernel)) (.variant kin_variant (by decide)
        (.cons (arr := false) (b := asc "uint8") (twin_spelled (by decide +kernel)) (.one (.leaf (.basic (kin_builtin (by decide) (by decide) (by decide)) (by decide)))) (by decide)
          (.cons (arr := true) (b := asc "string") (twin_spelled (by decide +kernel)) (.many (.leaf (.basic (kin_builtin (by decide) (by decide) (by decide)) (by decide)))) (by decide) .nil))))
      (.plain (arr := false) (b := asc "uint8") (twin_spelled (by decide +kernel)) (.one (.leaf (.basic (kin_builtin (by decide) (by decide) (by decide)) (by decide)))) .nil)))

theorem kin_short : kinAbi.NoShort (asc "holder") := noShort_of (by decide +kernel)
theorem kin_plain : kinAbi.NoExtension (asc "holder") := noExtension_of (by decide +kernel)

/-- The second alternative, with one text, and 9 -/
def kinValue : kinTy.Val := ((pickValue, (9 : UInt8), ()) : pickFields.Val × UInt8 × Unit)

example : kinHolder.av kinValue = .map [(asc "v", .slice [.basic .string (asc "string[]"), .slice [.basic .string (asc "hi")]]), (asc "x", .basic .u8 (9 : UInt8))] := rfl
example : (decode kinTy kinTy.zero).run [1, 1, 2, 104, 105, 9, 7] = .ok (kinValue, none) [7] := rfl

/-- Action.Decode reads what DecodeInto reads. -/
example : ∃ N, ∀ fuel, N ≤ fuel → (newAction 1 5 [] [1, 1, 2, 104, 105, 9]).decode kinAbi fuel =
    .ok (some [(asc "v", .slice [.basic .string (asc "string[]"), .slice [.basic .string (asc "hi")]]), (asc "x", .basic .u8 (9 : UInt8))], none) [] :=
  C112_action kinAbi (newAction 1 5 [] [1, 1, 2, 104, 105, 9]) ⟨5, asc "holder", []⟩ ⟨rfl, [], [], rfl, by simp⟩ (asc "holder") false false (twin_spelled (by decide +kernel)) kin_short kin_plain
    kinTy kinHolder (by decide) kinValue _ [] rfl rfl

/-- A map with the first alternative: Abi.Encode writes 0 4 9, and Decode reads it. -/
theorem kin_wire : Wire kinAbi Plain true (asc "holder") (.map [(asc "v", .slice [.basic .string (asc "uint8"), .basic .u8 (4 : UInt8)]), (asc "x", .basic .u8 (9 : UInt8))]) [0, 4, 9] := by
  have u8 (x : UInt8) : Wire kinAbi Plain true (asc "uint8") (.basic .u8 x) [x] :=
    .plain (b := asc "uint8") (arr := false) (twin_spelled (by decide +kernel)) nofun (.one (.builtin (kin_builtin (by decide) (by decide) (by decide)) (.basic (ty := .u8) (by decide) trivial ⟨rfl, by simp [leValue]⟩)))
  obtain ⟨p, hp⟩ := count_exists (n := 0) (by decide)
  obtain ⟨idx, rfl, hi⟩ := minLeb_single hp.1 (by decide)
  have hi : idx = 0 := UInt8.toNat_inj.1 hi
  subst hi
  exact .plain (b := asc "holder") (arr := false) (twin_spelled (by decide +kernel)) nofun (.one (.struct kin_fields
    (.cons (b1 := [0, 4]) (b2 := [9]) (.inl ⟨rfl, [], _, rfl, by simp⟩)
      (.plain (b := asc "choice") (arr := false) (twin_spelled (by decide +kernel)) nofun (.one (.alias kin_alias (.plain (b := asc "alt") (arr := false) (twin_spelled (by decide +kernel)) nofun
        (.one (.variant (p := [0]) (bs := [4]) (pre := []) (post := [asc "string[]"]) kin_variant rfl (by simp) hp (u8 4)))))))
      (.cons (b1 := [9]) (b2 := []) (.inl ⟨rfl, [_], [], rfl, by decide⟩) (u8 9) .nil)) (fun _ => ⟨rfl, by decide +kernel⟩)))

example : ∃ v, kinHolder.av v = .map [(asc "v", .slice [.basic .string (asc "uint8"), .basic .u8 (4 : UInt8)]), (asc "x", .basic .u8 (9 : UInt8))] ∧ (decode kinTy kinTy.zero).Reads [0, 4, 9] v :=
  (C112_write kinAbi (asc "holder") (asc "holder") false false (twin_spelled (by decide +kernel)) kin_short kinTy kinHolder _ _ (by decide +kernel) kin_wire).2

/-! ## The converse -/

/-- Abi.Decode also reads numbers of alternatives that are written with more bytes than needed; Decode does not read those. -/
theorem C112_converse_violated : (∀ fuel, (kinAbi.decode (fuel + 4) (asc "holder")).run [0x80, 0, 4, 9] =
      .ok (.map [(asc "v", .slice [.basic .string (asc "uint8"), .basic .u8 (4 : UInt8)]), (asc "x", .basic .u8 (9 : UInt8))], none) []) ∧
    ∀ v r, (decode kinTy kinTy.zero).run [0x80, 0, 4, 9] ≠ .ok (v, none) r := ⟨fun _ => rfl, fun v r h => by cases h⟩

end Verif
