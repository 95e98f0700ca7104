import Verif.Spec.JsonTypes
import Verif.Lemmas.JsonStr
import Verif.Lemmas.JsonText
import Verif.Props.Name
import Verif.Props.Symbol
import Verif.Props.Numbers
import Verif.Props.Blob
import Verif.Props.Keys
import Verif.Props.Time
/-! # The texts of the chain types are ASCII and can be read back -/
namespace Verif

/-- All bytes are below 128. -/
def Ascii (s : Bytes) : Prop := ∀ c ∈ s, c.toNat < 128

theorem Ascii.append {a b : Bytes} (ha : Ascii a) (hb : Ascii b) : Ascii (a ++ b) := fun c h => (List.mem_append.mp h).elim (ha c) (hb c)
theorem Ascii.cons {a : UInt8} {b : Bytes} (ha : a.toNat < 128) (hb : Ascii b) : Ascii (a :: b) := fun c h => (List.mem_cons.mp h).elim (fun e => e ▸ ha) (hb c)
theorem Ascii.utf8 : {s : Bytes} → Ascii s → Utf8Text s
  | [], _ => .nil
  | a :: s, h => .cons a.toNat [a] s (.one a (h a (by simp))) (Ascii.utf8 fun c hc => h c (by simp [hc]))

theorem ascii_digits {s : Bytes} (h : AllDigits s) : Ascii s := fun c hc => by have := h c hc; omega
theorem ascii_decimal {s : Bytes} {i : Int} (h : DecimalText s i) : Ascii s := by
  obtain ⟨sign, ds, rfl, _, hd, hs⟩ := h
  refine Ascii.append ?_ (ascii_digits hd)
  rcases hs with ⟨rfl | rfl, _⟩ | ⟨rfl, _⟩ <;> intro c hc <;> simp_all
theorem ascii_get {l : Bytes} {n : Nat} {c : UInt8} (hl : Ascii l) (h : l[n]? = some c) : c.toNat < 128 := hl c (List.mem_of_getElem? h)
theorem ascii_hex {s b : Bytes} (h : HexText s b) : Ascii s := by
  have hd : ∀ c v, IsHexDigit c v → c.toNat < 128 := by
    rintro c v (h | h)
    · exact ascii_get (by unfold Ascii; decide) h
    · exact ascii_get (by unfold Ascii; decide) h
  induction h with
  | nil => intro c hc; cases hc
  | cons h1 h2 _ _ ih => exact .cons (hd _ _ h1) (.cons (hd _ _ h2) ih)
theorem ascii_b64 {st : Bool} {s b : Bytes} (h : B64Text st s b) : Ascii s := by
  have hd : ∀ c v, IsB64Digit c v → c.toNat < 128 := fun c v h => ascii_get (by unfold Ascii; decide) h
  have h0 : Ascii [] := fun c hc => by cases hc
  induction h with
  | nil => exact h0
  | one h1 h2 => exact .cons (hd _ _ h1) (.cons (hd _ _ h2) (.cons (by decide) (.cons (by decide) h0)))
  | two h1 h2 h3 => exact .cons (hd _ _ h1) (.cons (hd _ _ h2) (.cons (hd _ _ h3) (.cons (by decide) h0)))
  | three h1 h2 h3 h4 _ _ ih => exact .cons (hd _ _ h1) (.cons (hd _ _ h2) (.cons (hd _ _ h3) (.cons (hd _ _ h4) ih)))
theorem ascii_symbolName {n : Bytes} (h : SymbolName n) : Ascii n := fun c hc => by have := h.2 c hc; omega
theorem ascii_utc {m : Bool} {ms : Int} {s : Bytes} (h : UtcText m ms s) : Ascii s := by
  obtain ⟨d, stamp, frac, _, ⟨Y, M, D, h, m', sec, rfl, _, h1, h2, h3, h4, h5, h6⟩, hs⟩ := h
  have one : ∀ c : UInt8, c.toNat < 128 → Ascii [c] := fun c hc => .cons hc (fun c hc => by cases hc)
  have hst : Ascii (Y ++ [45] ++ M ++ [45] ++ D ++ [84] ++ h ++ [58] ++ m' ++ [58] ++ sec) :=
    (((((((((((ascii_digits h1.2.1).append (one 45 (by decide))).append (ascii_digits h2.2.1)).append (one 45 (by decide))).append (ascii_digits h3.2.1)).append
      (one 84 (by decide))).append (ascii_digits h4.2.1)).append (one 58 (by decide))).append (ascii_digits h5.2.1)).append (one 58 (by decide))).append
      (ascii_digits h6.2.1))
  cases m with
  | false => rw [if_neg (by decide)] at hs; rw [hs]; exact hst
  | true => rw [if_pos rfl] at hs; rw [hs.1]; exact hst.append (.cons (by decide) (ascii_digits hs.2.2.1))
theorem ascii_base58 {s b : Bytes} (h : Base58Text s b) : Ascii s := by
  obtain ⟨z, ds, bs, rfl, _, hc, _⟩ := h
  have hl : ∀ d, (letter58 d).toNat < 128 := by
    intro d
    by_cases hd : d < 58
    · revert d; decide +kernel
    · unfold letter58
      have : base58Letters.length = 58 := by decide
      rw [List.getD_eq_getElem?_getD, List.getElem?_eq_none (by omega)]; decide
  refine Ascii.append (fun c hc => ?_) (fun c hc => ?_)
  · rw [(List.mem_replicate.mp hc).2]; decide
  · obtain ⟨d, _, rfl⟩ := List.mem_map.mp hc; exact hl d
theorem ascii_key {p n body data : Bytes} {t : UInt8} (hp : Ascii p) (hn : KeyName t n) (hb : CheckedText n data body) : Ascii (p ++ n ++ asc "_" ++ body) := by
  refine ((hp.append ?_).append (by unfold Ascii; decide)).append (ascii_base58 hb)
  cases hn <;> (unfold Ascii; decide)
theorem ascii_name (v : UInt64) : Ascii (Name.string v) := by
  intro c hc
  obtain ⟨a, ha, e⟩ := (C12_string_canonical v).2.1 c hc
  rw [e]
  clear e hc c
  revert a; decide +kernel
theorem ascii_asset {a : Asset} {p : UInt8} {n s : Bytes} (hn : newSymbol p n = (a.symbol, none)) (h : a.string = .val s) : Ascii s := by
  have hsym : Ascii (Symbol.name a.symbol) := by rw [(C16_accessors p n _ hn).2.1]; exact ascii_symbolName (newSymbol_some hn).2.1
  have hi : ∀ i, Ascii (fmtInt i) := fun i => ascii_decimal (fmtInt_text i)
  have one : ∀ c : UInt8, c.toNat < 128 → Ascii [c] := fun c hc => .cons hc (fun c hc => by cases hc)
  have hneg : Ascii (if a.value < 0 then [45] else []) := by
    split
    · exact one 45 (by decide)
    · intro c hc; cases hc
  unfold Asset.string at h
  dsimp only at h
  split at h
  · cases h
  · injection h with h
    subst h
    refine Ascii.append (Ascii.append ?_ (one 32 (by decide))) hsym
    split
    · refine Ascii.append (Ascii.append (hneg.append (hi _)) (one 46 (by decide))) (Ascii.append (fun c hc => ?_) (hi _))
      rw [(List.mem_replicate.mp hc).2]; decide
    · exact hneg.append (hi _)

/-- Every text type: the text is ASCII and can be read back, over any value that was there. -/
theorem text_back (sha : Sha256) (x : TextTy) (v old : x.Val) (hg : x.Good v) (ho : x = .float128 → x.Good old) :
    ∃ s w, x.marshal v = .val s ∧ Ascii s ∧ x.unmarshal sha old s = .val (w, none) ∧ x.Back v w := by
  cases x with
  | name => exact ⟨_, v, rfl, ascii_name v, congrArg Pan.val (C11_name_text_roundtrip v), rfl⟩
  | symbol =>
    obtain ⟨p, n, h⟩ := hg
    obtain ⟨d, e, hd, _⟩ := C15_symbol_string p n v h
    refine ⟨_, v, rfl, ?_, congrArg Pan.val (C15_symbol_unmarshalText p n v old h), rfl⟩
    show Ascii (Symbol.string v)
    rw [e]
    exact (ascii_digits hd).append (.cons (by decide) (ascii_symbolName (newSymbol_some h).2.1))
  | symbolCode =>
    obtain ⟨p, n, s, h, rfl⟩ := hg
    obtain ⟨e1, e2⟩ := C15_symbolCode_text p n s old h
    refine ⟨_, _, rfl, ?_, congrArg Pan.val e2, rfl⟩
    rw [e1]
    exact ascii_symbolName (newSymbol_some h).2.1
  | asset =>
    obtain ⟨p, n, h, hn, hv⟩ := hg
    obtain ⟨s, e1, e2⟩ := C17_asset_unmarshalText_partial p n v old h hn hv
    exact ⟨s, v, e1, ascii_asset h e1, congrArg Pan.val e2, rfl⟩
  | bytes =>
    have ht := hexEncode_text (Option.getD (α := Bytes) v [])
    refine ⟨_, _, rfl, ascii_hex ht, ?_, rfl⟩
    rw [← hexDecode_iff] at ht
    show Pan.val (bytesUnmarshalText old (hexEncode (Option.getD (α := Bytes) v []))) = _
    simp only [bytesUnmarshalText, ht]
    rfl
  | blob =>
    have h := C27_roundtrip (Option.getD (α := Bytes) v []) _ [] (List.append_nil _).symm (by simp)
    refine ⟨_, _, rfl, ascii_b64 (C27_marshal _), ?_, rfl⟩
    show Pan.val (blobUnmarshalText _) = _
    simp only [blobUnmarshalText, h]
    rfl
  | checksum160 => exact ⟨_, v, rfl, ascii_hex (C26_roundtrip 20 v old hg).1, (C26_roundtrip 20 v old hg).2, rfl⟩
  | checksum256 => exact ⟨_, v, rfl, ascii_hex (C26_roundtrip 32 v old hg).1, (C26_roundtrip 32 v old hg).2, rfl⟩
  | checksum512 => exact ⟨_, v, rfl, ascii_hex (C26_roundtrip 64 v old hg).1, (C26_roundtrip 64 v old hg).2, rfl⟩
  | uint128 => exact ⟨_, v, rfl, ascii_decimal (C21_string_roundtrip v).1, congrArg Pan.val (C21_string_roundtrip v).2.2, rfl⟩
  | int128 => exact ⟨_, v, rfl, ascii_decimal (C22_string_roundtrip_partial v hg).2.1, congrArg Pan.val (C22_string_roundtrip_partial v hg).2.2, rfl⟩
  | float128 => exact ⟨_, v, rfl, ascii_hex (hexEncode_text v), congrArg Pan.val (C24_float128_text v old hg (ho rfl)).2, rfl⟩
  | publicKey =>
    obtain ⟨n, hn⟩ := keyName_le _ hg
    obtain ⟨body, h1, h2⟩ := C33_text v n hn
    obtain ⟨s, e1, _, e3⟩ := C33_roundtrip sha v hg
    rw [h1] at e1
    injection e1 with e1
    exact ⟨s, v, by rw [← e1]; exact h1, by rw [← e1]; exact ascii_key (by unfold Ascii; decide) hn h2, e3 old, rfl⟩
  | signature =>
    obtain ⟨n, hn⟩ := keyName_le _ hg
    obtain ⟨body, h1, h2⟩ := C34_text v n hn
    obtain ⟨s, e1, _, e3⟩ := C34_roundtrip v hg
    rw [h1] at e1
    injection e1 with e1
    exact ⟨s, v, by rw [← e1]; exact h1, by rw [← e1]; exact ascii_key (by unfold Ascii; decide) hn h2, e3 old, rfl⟩
  | timePoint =>
    obtain ⟨h1, h2, h3⟩ := hg
    exact ⟨_, v, rfl, ascii_utc (C57_timePoint_string v h1 h2),
      congrArg Pan.val (((C57_unmarshalText _).2.2.2.1 old v).mpr (C57_timePoint_milli_partial v h1 h2 h3)), rfl⟩
  | timePointSec =>
    exact ⟨_, v, rfl, ascii_utc (C57_sec_string v), congrArg Pan.val (((C57_unmarshalText _).2.2.2.2.1 old v).mpr (C57_sec_roundtrip v).1), rfl⟩
  | blockTimestamp =>
    exact ⟨_, v, rfl, ascii_utc (C57_block_string v), congrArg Pan.val (((C57_unmarshalText _).2.2.2.2.2 old v).mpr (C57_block_roundtrip v).1), rfl⟩

end Verif
