import Verif.Lemmas.TwinVariant
import Verif.Props.Twin
/-! # C111: variants read by DecodeVariant and by Abi.Decode -/
namespace Verif

/-- C111: for an input that begins with a byte below 128, Abi.Decode yields the name of an alternative and a value exactly if DecodeVariant stores that value in that member, and all others are nil. Both leave the same rest. -/
theorem C111_read (a : Abi) (n b : Bytes) (ext : Bool) (hs : Spelled n b false ext false) (k : AbiVariant) (hk : IsVariant a b k) (hn : a.NoShort n) (hx : a.NoExtension n) (fs : Fields)
    (tw : TwinAlts a k.types fs) (fin : Err) (idx : UInt8) (hi : idx.toNat < 128) (bs : Bytes) (hL : bs.length * max 16 fs.widest ≤ maxAlloc) (m : Bytes) (x : AV) (r : Bytes) :
    (∃ N, ∀ fuel, N ≤ fuel → (a.decode fuel n).runE fin (idx :: bs) = .ok (.slice [.basic .string m, x], none) r) ↔
      ∃ v, tw.Holds v idx.toNat m x ∧ (decodeVariant (.struct fs) (Ty.struct fs).zero).runE fin (idx :: bs) = .ok (v, none) r := by
  rw [C82_decode a n hn hx]
  have exact := C81_variant (.struct fs) (show (Ty.struct fs).Strait from (alts_strait tw).1) fin (idx :: bs)
  constructor
  · rintro ⟨w, e, h⟩
    cases accepts_plain hs h with | one h =>
    obtain ⟨i, t, y, p, w', h1, h2, h3, h4, rfl⟩ := variant_accepts hk h
    cases h4
    obtain ⟨rfl, h5⟩ := leb_one h2 hi (by rw [List.append_assoc] at e; exact e.symm)
    subst h5
    obtain ⟨v, h6, h7⟩ := alts_takes tw idx.toNat m x w' (Nat.le_trans (Nat.mul_le_mul (by rw [List.length_append]; omega) (Nat.le_max_right 16 _)) hL) h1 h3
    exact ⟨v, h6, (exact v r).2 ⟨idx :: w', rfl, idx, w', rfl, alts_nilable tw _, h7⟩⟩
  · rintro ⟨v, h, h'⟩
    obtain ⟨w, e, idx', w', rfl, _, h3⟩ := (exact v r).1 h'
    simp only [List.cons_append, List.cons.injEq] at e
    obtain ⟨rfl, rfl⟩ := e
    obtain ⟨h4, h5⟩ := alts_accepts tw idx.toNat m x v w' (Nat.le_trans (Nat.mul_le_mul (by rw [List.length_append]; omega) (Nat.le_max_left _ fs.widest)) hL) h h3
    exact ⟨idx :: w', rfl, .plain hs (.one (.variant (p := [idx]) hk h4 (leb_single hi) h5))⟩

/-- C111: whatever DecodeVariant stores is the value of one alternative, that with the number in the first byte. -/
theorem C111_holds (a : Abi) (ns : List Bytes) (fs : Fields) (tw : TwinAlts a ns fs) (fin : Err) (idx : UInt8) (bs : Bytes) (v : (Ty.struct fs).Val) (r : Bytes)
    (h : (decodeVariant (.struct fs) (Ty.struct fs).zero).runE fin (idx :: bs) = .ok (v, none) r) : ∃ m x, tw.Holds v idx.toNat m x := by
  obtain ⟨w, e, idx', w', rfl, _, h3⟩ := (C81_variant (.struct fs) (show (Ty.struct fs).Strait from (alts_strait tw).1) fin (idx :: bs) v r).1 h
  simp only [List.cons_append, List.cons.injEq] at e
  obtain ⟨rfl, rfl⟩ := e
  exact member_holds tw _ v w' h3

/-- C111: with at most 128 alternatives, DecodeVariant reads what Abi.Encode writes for a pair of name and value: the member with the value is set. -/
theorem C111_write (a : Abi) (n b : Bytes) (ext : Bool) (hs : Spelled n b false ext false) (k : AbiVariant) (hk : IsVariant a b k) (hn : a.NoShort n) (hx : a.NoExtension n) (fs : Fields)
    (tw : TwinAlts a k.types fs) (h128 : k.types.length ≤ 128) (x : AV) (bs : Bytes) (hL : bs.length * max 16 fs.widest ≤ maxAlloc) (h : Wire a Plain true n x bs) :
    a.Writes n x bs ∧ ∃ i m y v, x = .slice [.basic .string m, y] ∧ tw.Holds v i m y ∧ (decodeVariant (.struct fs) (Ty.struct fs).zero).Reads bs v := by
  obtain ⟨hw, N, hr⟩ := C47_exact_partial a n hn x bs h
  refine ⟨hw, ?_⟩
  cases wire_plain hs h with | one h' =>
  obtain ⟨i, m, y, p, bs, h1, h2, rfl, rfl⟩ := variant_wire hk h'
  obtain ⟨idx, rfl, hi⟩ := minLeb_single h2.1 (by omega)
  have h3 := (C111_read a n b ext hs k hk hn hx fs tw .eof idx (by omega) bs
    (Nat.le_trans (Nat.mul_le_mul_right _ (by simp)) hL) m y []).1 ⟨N, fun fuel hf => by simpa using hr fuel hf .eof []⟩
  obtain ⟨v, h4, h5⟩ := h3
  have exact := C81_variant (.struct fs) (show (Ty.struct fs).Strait from (alts_strait tw).1)
  obtain ⟨w, e, h6⟩ := (exact .eof (idx :: bs) v []).1 h5
  rw [List.append_nil] at e
  subst e
  exact ⟨i, m, y, v, rfl, hi ▸ h4, fun fin rest => (exact fin _ v rest).2 ⟨idx :: bs, rfl, h6⟩⟩

/-! ## Examples -/

/-- The variant alt of uint8 and string[], and struct { A *uint8; B *[]string } -/
def pickAbi : Abi := { variants := [⟨asc "alt", [asc "uint8", asc "string[]"]⟩] }
def pickFields : Fields := .cons .exported .none (.ptr (.basic .u8)) (.cons .exported .optional (.ptr (.slice (.basic .string))) .nil)

theorem pick_builtin {b : Bytes} (h : b ≠ asc "alt") : NotDefined pickAbi b := by
  refine ⟨⟨by simp [pickAbi, NoStruct], ?_⟩, by simp [pickAbi]⟩
  intro v hv
  simp only [pickAbi, List.mem_singleton] at hv
  subst hv
  exact fun h' => h h'.symm

def pickTwin : TwinAlts pickAbi [asc "uint8", asc "string[]"] pickFields :=
  .cons (arr := false) (b := asc "uint8") (twin_spelled (by decide +kernel)) (.one (.basic (pick_builtin (by decide)) (by decide))) (by decide)
    (.cons (arr := true) (b := asc "string") (twin_spelled (by decide +kernel)) (.many (.basic (pick_builtin (by decide)) (by decide))) (by decide) .nil)

theorem pick_variant : IsVariant pickAbi (asc "alt") ⟨asc "alt", [asc "uint8", asc "string[]"]⟩ := ⟨by simp [pickAbi, NoStruct], rfl, [], [], rfl, by simp⟩
theorem pick_short : pickAbi.NoShort (asc "alt") := noShort_of (by decide +kernel)
theorem pick_plain : pickAbi.NoExtension (asc "alt") := noExtension_of (by decide +kernel)

/-- The second alternative, with one text -/
def pickValue : pickFields.Val := ((none : Option UInt8), (some (some [asc "hi"]) : Option (Option (List Bytes))), ())

example : pickTwin.Holds pickValue 1 (asc "string[]") (.slice [.basic .string (asc "hi")]) := ⟨rfl, rfl, rfl, _, rfl, rfl⟩

/-- Both read 1 1 2 'h' 'i'. -/
example : ∃ v, pickTwin.Holds v 1 (asc "string[]") (.slice [.basic .string (asc "hi")]) ∧
    (decodeVariant (.struct pickFields) (Ty.struct pickFields).zero).runE .eof [1, 1, 2, 104, 105, 7] = .ok (v, none) [7] :=
  (C111_read pickAbi (asc "alt") (asc "alt") false (twin_spelled (by decide +kernel)) _ pick_variant pick_short pick_plain pickFields pickTwin .eof 1 (by decide) [1, 2, 104, 105, 7] (by decide) _ _ [7]).1
    ⟨5, fun fuel hf => by obtain ⟨k, rfl⟩ := Nat.exists_eq_add_of_le hf; rw [Nat.add_comm]; rfl⟩

example : (decodeVariant (.struct pickFields) (Ty.struct pickFields).zero).run [1, 1, 2, 104, 105, 7] = .ok (pickValue, none) [7] := rfl

/-- A written pair -/
example : ∃ bs, Wire pickAbi Plain true (asc "alt") (.slice [.basic .string (asc "uint8"), .basic .u8 (9 : UInt8)]) bs :=
  ⟨_, .plain (b := asc "alt") (twin_spelled (by decide +kernel)) nofun (.one (.variant (pre := []) (post := [asc "string[]"]) pick_variant rfl (by simp) (count_exists (n := 0) (by decide)).choose_spec
    (.plain (b := asc "uint8") (arr := false) (twin_spelled (by decide +kernel)) nofun (.one (.builtin (pick_builtin (by decide)) (.basic (ty := .u8) (bs := [9]) (by decide) trivial ⟨rfl, by decide⟩))))))⟩

/-- From 128 on the number takes two bytes for Abi.Decode and one for DecodeVariant: the first byte 0x80 is no alternative of two. -/
theorem C111_above_violated : (∀ fuel, (pickAbi.decode (fuel + 2) (asc "alt")).run [0x80, 0, 7] = .ok (.slice [.basic .string (asc "uint8"), .basic .u8 (7 : UInt8)], none) []) ∧
    ∀ v r, (decodeVariant (.struct pickFields) (Ty.struct pickFields).zero).run [0x80, 0, 7] ≠ .ok (v, none) r := ⟨fun _ => rfl, fun v r h => by cases h⟩

end Verif
