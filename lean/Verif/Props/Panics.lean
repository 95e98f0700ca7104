import Verif.Lemmas.AbiCalm
import Verif.Props.AbiExt
/-! # C45: hostile input and panics -/
namespace Verif

/-- A five byte run of high bytes is needed to make a reading method or UnmarshalABI of a chain type panic.
Missing for C45: it is not true without the condition, see C45_violated. -/
theorem C45_methods_partial (fin : Err) (bs : Bytes) (w : String) : (∀ b : Basic, b.read.runE fin bs = .panic w → ¬ Tame bs) ∧
    ∀ (c : ChainTy) (old : c.Val), (c.unmarshal old).runE fin bs = .panic w → ¬ Tame bs :=
  ⟨fun b h ht => (basic_calm b (.inl rfl)).run fin bs w (fun _ => ht) h, fun c old h ht => (chain_calm c (.inl rfl) old).run fin bs w (fun _ => ht) h⟩

/-- The same for Decode into any variable of a steady type. Missing for C45: as in C45_methods_partial; types that are not steady, see C45_types_violated. -/
theorem C45_reflect_partial (t : Ty) (h : t.Steady) (old : t.Val) (fin : Err) (bs : Bytes) (w : String) (hp : (decode t old).runE fin bs = .panic w) : ¬ Tame bs :=
  fun ht => (ty_calm t ⟨h, .inl rfl⟩ .decode (fun _ h => nomatch h) old).run fin bs w (fun _ => ht) hp

/-- Decode into a steady type without lengths on the wire never panics. -/
theorem C45_sized (t : Ty) (h : t.Steady) (hs : t.Sized) (old : t.Val) (fin : Err) (bs : Bytes) (w : String) : (decode t old).runE fin bs ≠ .panic w :=
  (ty_calm (tame := false) t ⟨h, .inr hs⟩ .decode (fun _ h => nomatch h) old).run fin bs w (fun h => nomatch h)

/-- The same for Abi.Decode of any type, if no type name is too short. Missing for C45: as in C45_methods_partial; short names, see C46_panics_iff. -/
theorem C45_abi_partial (a : Abi) (n : Bytes) (h : a.NoShort n) (fuel : Nat) (fin : Err) (bs : Bytes) (w : String) (hp : (a.decode fuel n).runE fin bs = .panic w) : ¬ Tame bs := by
  obtain ⟨ts, hts⟩ := noShort_resolves h
  obtain ⟨hr, ht⟩ := resolve_ready hts
  simp only [Abi.decode, hts] at hp
  exact fun hb => (decodeTypeF_calm ts (fun n t ht => ready_next hr ht) fuel n ht).run fin bs w (fun _ => hb) hp

theorem toNat_lt64 {n : Nat} (h : n < 2 ^ 64) : n.toUInt64.toNat = n := by
  simp [Nat.toUInt64, UInt64.toNat_ofNat']
  omega
theorem goInt_neg {n : Nat} (h1 : 2 ^ 63 ≤ n) (h2 : n < 2 ^ 64) : goInt n.toUInt64 < 0 := by
  by_contra hc
  have h := goInt_nonneg n.toUInt64 (by omega)
  rw [toNat_lt64 h2] at h
  have : goInt n.toUInt64 < 2 ^ 63 := Int64.toInt_lt _
  omega

/-- ReadString panics exactly if the input starts with a length above the allocation limit that is not negative as an int. -/
theorem C45_string_iff (fin : Err) (bs : Bytes) : (∃ w, readString.runE fin bs = .panic w) ↔
    ∃ p rest, bs = p ++ rest ∧ IsLeb p ∧ p.length ≤ 10 ∧ 2 ^ 48 < lebValue p ∧ lebValue p < 2 ^ 63 := by
  constructor
  · rintro ⟨w, h⟩
    unfold readString at h
    rw [Dec.runE_bind] at h
    rcases C05_readVaruint_total fin bs with ⟨p, rest, e, hp, hl, hv, h'⟩ | ⟨_, _, _, _, _, _, h'⟩ | ⟨_, _, e, h', _⟩
    · rw [h'] at h
      refine ⟨p, rest, e, hp, hl, ?_⟩
      by_contra hc
      have hs : (readBytes (goInt (lebValue p).toUInt64)).Safe false := by
        refine readBytes_safe false _ (.inr ?_)
        by_cases h63 : lebValue p < 2 ^ 63
        · rw [goInt_toUInt64 _ h63]
          unfold maxAlloc
          simp only [Int.toNat_natCast]
          omega
        · rw [Int.toNat_of_nonpos]
          · exact Nat.zero_le _
          · exact Int.le_of_lt (goInt_neg (by omega) hv)
      have hc : (readBytes (goInt (lebValue p).toUInt64) >>= fun r => match r with
          | (_, utf8, err) => match err with
            | some e => Pure.pure ([], some e)
            | none => Pure.pure (utf8, none) : Dec (Bytes × Option Err)).Calm false := .bind hs.calm fun r => by
        obtain ⟨_, _, e⟩ := r
        cases e <;> exact .pure _
      exact hc.run fin rest w (fun h => nomatch h) h
    · rw [h'] at h; cases h
    · rw [h'] at h; cases h
  · rintro ⟨p, rest, rfl, hp, hl, h1, h2⟩
    refine ⟨"makeslice: len out of range", ?_⟩
    unfold readString
    rw [Dec.runE_bind, readVaruint_leb fin p rest hp hl (by omega)]
    dsimp only [Out.bind_ok]
    have hg := goInt_toUInt64 (lebValue p) h2
    rw [Dec.runE_bind, hg]
    unfold readBytes
    rw [if_neg (by omega), if_neg (by omega), if_pos (by unfold maxAlloc; simp; omega)]
    rfl

/-- Inputs that make decoding panic: a string, a byte slice, a slice of anything, a transaction, a key and a signature with an impossible length, and a variant with an
impossible index. -/
theorem C45_violated :
    (∃ w, readString.run [255, 255, 255, 255, 255, 255, 127] = .panic w) ∧
    (∀ old, ∃ w, (decode .bytes old).run [255, 255, 255, 255, 255, 255, 127] = .panic w) ∧
    (∀ t old, ∃ w, (decode (.slice t) old).run [255, 255, 255, 255, 255, 255, 255, 255, 255, 1] = .panic w) ∧
    (∀ old, ∃ w, (decode (.chain .transaction) old).run (List.replicate 13 0 ++ [255, 255, 255, 255, 255, 255, 127]) = .panic w) ∧
    (∀ old, ∃ w, (decode (.chain .publicKey) old).run ([2] ++ List.replicate 34 0 ++ [255, 255, 255, 255, 255, 255, 127]) = .panic w) ∧
    ∀ old, ∃ w, (decode (.chain .signature) old).run ([2] ++ List.replicate 65 0 ++ [255, 255, 255, 255, 255, 255, 127]) = .panic w := by
  refine ⟨⟨_, rfl⟩, fun _ => ⟨_, rfl⟩, fun t old => ⟨_, rfl⟩, fun _ => ⟨_, rfl⟩, fun _ => ⟨_, rfl⟩, fun _ => ⟨_, rfl⟩⟩

/-- The structs of C45_types_violated -/
def unexportedTy : Ty := .struct (.cons .unexported .none (.basic .u8) .nil)
def plainVariantTy : Ty := .struct (.cons .exported .variant (.struct (.cons .exported .none (.basic .u8) (.cons .exported .none (.basic .u16) .nil))) .nil)

/-- Types that make decoding panic whatever the input: a struct with an unexported field, even if there is no input at all, and a variant with a member that cannot be nil. -/
theorem C45_types_violated : (∀ old fin bs, ∃ w, (decode unexportedTy old).runE fin bs = .panic w) ∧
    ∀ old fin i bs, i.toNat < 2 → ∃ w, (decode plainVariantTy old).runE fin (i :: bs) = .panic w := by
  refine ⟨fun _ _ _ => ⟨_, rfl⟩, fun old fin i bs hi => ?_⟩
  have : i = 0 ∨ i = 1 := by
    rcases Nat.lt_succ_iff_lt_or_eq.1 hi with h | h
    · exact .inl (UInt8.toNat_inj.1 (by simp; omega))
    · exact .inr (UInt8.toNat_inj.1 (by simpa using h))
  rcases this with rfl | rfl <;> exact ⟨_, rfl⟩

/-- A variant index of 2^63 or more passes the test against the number of types and panics, whatever the variant. -/
theorem C45_variant_violated (a : Abi) (n : Bytes) (v : AbiVariant) (hv : IsVariant a n v) (hs : Spelled n n false false false) (hn : a.NoShort n) (fuel : Nat) (fin : Err) (p rest : Bytes)
    (hp : IsLeb p) (hl : p.length ≤ 10) (h1 : 2 ^ 63 ≤ lebValue p) (h2 : lebValue p < 2 ^ 64) (hlen : v.types.length ≤ 2 ^ 63) : ∃ w, (a.decode (fuel + 1) n).runE fin (p ++ rest) = .panic w := by
  obtain ⟨ts, hts⟩ := noShort_resolves hn
  obtain ⟨hr, t, ht⟩ := resolve_ready hts
  obtain ⟨e1, e2, e3, e4⟩ := spelled_unique hs (hr _ t ht).1.2.1
  rw [e1] at hv
  obtain ⟨g1, g2, g3, _⟩ := table_variant hr ht hv
  refine ⟨"index out of range", ?_⟩
  simp only [Abi.decode, hts, decodeTypeF, ht, ← e4, Bool.false_eq_true, if_false, decodeBody, ← e2, decodeInner, g1, g2, g3, ne_eq, not_true_eq_false]
  rw [Dec.runE_bind, Dec.runE_bind, readVaruint_leb fin p rest hp hl h2]
  dsimp only [Out.bind_ok]
  have hx := toNat_lt64 h2
  have hg := goInt_neg h1 h2
  rw [if_neg (by omega), List.getElem?_eq_none (by omega)]
  rfl

/-! ## Examples -/

theorem tame_of {bs : Bytes} (h : ∀ i ≤ bs.length, ((bs.drop i).take 5).length = 5 → ∃ x ∈ (bs.drop i).take 5, x.toNat < 128) : Tame bs := by
  rintro pre c post rfl hc
  have := h pre.length (by simp)
  rw [List.append_assoc, List.drop_left, List.take_left' hc] at this
  exact this hc

/-- A string of 2^34 bytes that ends at once -/
example : Tame [128, 128, 128, 128, 64, 255, 255, 255, 255] ∧ ∃ e, readString.run [128, 128, 128, 128, 64, 255, 255, 255, 255] = .ok ([], some e) [] :=
  ⟨tame_of (by decide +kernel), _, rfl⟩
/-- The input of C45_violated is not tame, as C45_methods_partial demands. -/
example : ¬ Tame [255, 255, 255, 255, 255, 255, 127] := (C45_methods_partial .eof _ _).1 .string rfl

/-- A type with a variant, an optional and slices -/
def steadyTy : Ty := .struct (.cons .exported .optional (.slice (.basic .string)) <| .cons .exported .variant (.struct (.cons .exported .none (.ptr (.basic .u8)) (.cons .exported .none .bytes .nil))) <|
  .cons .blank .none (.array 3 (.basic .u32)) <| .cons .exported .none (.map (.basic .string) (.chain .asset)) .nil)
example : steadyTy.Steady := by simp [steadyTy, Ty.Steady, Fields.Steady, Ty.VariantOk, Fields.Members, Ty.Nilable, Ty.size]; decide
def sizedTy : Ty := .struct (.cons .exported .optional (.array 3 (.basic .u32)) <| .cons .exported .none (.ptr (.chain .asset)) <| .cons .exported .none (.chain .checksum256) .nil)
example : sizedTy.Steady ∧ sizedTy.Sized := by simp [sizedTy, Ty.Steady, Fields.Steady, Ty.Sized, Fields.Sized]

/-- A variant of one type -/
def oneVariant : Abi := { variants := [⟨asc "vv", [asc "uint8"]⟩] }
example : ∃ w, (oneVariant.decode 2 (asc "vv")).run ([255, 255, 255, 255, 255, 255, 255, 255, 255, 1] ++ []) = .panic w :=
  C45_variant_violated oneVariant _ ⟨asc "vv", [asc "uint8"]⟩ ⟨by unfold NoStruct; decide +kernel, (find_decide ..).1 (by decide +kernel)⟩ ((parse_spelled ..).1 (by decide +kernel))
    (noShort_of (by decide +kernel)) 1 .eof _ [] ⟨List.replicate 9 255, 1, rfl, by decide, by decide⟩ (by decide) (by decide +kernel) (by decide +kernel) (by decide)
/-- Tame input does not panic. -/
example (w : String) : (oneVariant.decode 2 (asc "vv")).run [7, 255] ≠ .panic w := fun h =>
  C45_abi_partial oneVariant _ (noShort_of (by decide +kernel)) 2 .eof _ w h (tame_of (by decide +kernel))

end Verif
