import Verif.Lemmas.Sizes
import Verif.Props.Takes
import Verif.Props.AbiEnds
import Verif.Props.Make
import Verif.Props.Bench
/-! C96: how much of what Decode makes and yields is bounded by the length of the input, and what is not. -/
namespace Verif
open Dec

/-- A value that is decoded without error holds, apart from what its type fixes, no more than the number of bytes read, less those that every value of the type takes. Partial:
slices and maps whose elements can take no bytes are left out, see `C96_loop_violated`, and extension fields. -/
theorem C96_success_partial (t : Ty) (ht : t.Strait) (hf : t.Filled) (fin : Err) (bs : Bytes) (v : t.Val) (r : Bytes) (h : (decode t t.zero).runE fin bs = .ok (v, none) r) :
    t.holds v + t.least + r.length ≤ bs.length := by
  obtain ⟨w, rfl, hw⟩ := (C81_decode t ht fin bs v r).1 h
  have := takes_holds t hf .decode v w hw
  simp [Mode.least] at this ⊢; omega

/-- The same for UnmarshalABI of the chain types: a byte more than they hold. -/
theorem C96_chain (c : ChainTy) (old : c.Val) (ho : c.Clean old) (fin : Err) (bs : Bytes) (v : c.Val) (r : Bytes) (h : (c.unmarshal old).runE fin bs = .ok (v, none) r) :
    c.holds v + 1 + r.length ≤ bs.length := by
  obtain ⟨w, rfl, hw⟩ := (C80_chain c old ho fin bs v r).1 h
  have := chain_holds hw
  simp; omega

theorem decode_slice (t : Ty) (old : (Ty.slice t).Val) : decode (.slice t) old = decodeSlice t.zero t.size (decodeWith chainDecoder t .elem) old := by
  unfold decode decodeWith viaDecFn
  rw [chainDecoder_else _ rfl]
  rfl

theorem slice_after (t : Ty) (old : Option (List t.Val)) (fin : Err) {p : Bytes} {l : Nat} (hp : AnyLeb p l) (h63 : l < 2 ^ 63) (rest : Bytes) :
    (decode (.slice t) old).runE fin (p ++ rest) = if (old.getD []).length = l then (do
        let (ys, err) ← decEach (decodeWith chainDecoder t .elem) (old.getD [])
        pure (old.map fun _ => ys, err) : Dec (Option (List t.Val) × Option Err)).runE fin rest
      else if maxAlloc < l * t.size then .panic "makeslice: len out of range" else (do
        let (ys, err) ← decEach (decodeWith chainDecoder t .elem) (List.replicate l t.zero)
        pure (some ys, err) : Dec (Option (List t.Val) × Option Err)).runE fin rest := by
  refine Eq.trans (congrArg (fun d => Dec.runE fin d (p ++ rest)) (decode_slice t old)) ?_
  obtain ⟨h1, h2, rfl, h3⟩ := hp
  show (decodeSlice _ _ _ _).runE _ _ = _
  unfold decodeSlice
  rw [Dec.runE_bind, readVaruint_leb fin p rest h1 h2 h3]
  simp only [Out.bind_ok]
  rw [goInt_toUInt64 _ (by omega)]
  have e : (lebValue p).toUInt64.toNat = lebValue p := by simp; omega
  unfold makeSlice
  rw [goInt_toUInt64 _ (by omega), e]
  by_cases hl : (old.getD []).length = lebValue p
  · rw [if_neg (by omega), if_pos hl]
  · rw [if_pos (by omega), if_neg hl, if_neg (by omega)]
    by_cases hm : maxAlloc < lebValue p * t.size
    · rw [if_pos hm, if_pos hm]; rfl
    · rw [if_neg hm, if_neg hm]

/-- Whatever follows the length of a slice, and whether or not an error is returned, the destination has as many elements as the length says. -/
theorem C96_slice_length (t : Ty) (old : Option (List t.Val)) (fin : Err) (p : Bytes) (l : Nat) (hp : AnyLeb p l) (rest : Bytes) (v : Option (List t.Val)) (e : Option Err) (r : Bytes)
    (h : (decode (.slice t) old).runE fin (p ++ rest) = .ok (v, e) r) : (v.getD []).length = l := by
  by_cases h63 : l < 2 ^ 63
  · rw [slice_after t old fin hp h63] at h
    split at h
    · next hl =>
      rw [Dec.runE_bind] at h
      cases hr : (decEach (decodeWith chainDecoder t .elem) (old.getD [])).runE fin rest with
      | panic w => rw [hr] at h; cases h
      | diverge => rw [hr] at h; cases h
      | ok a r' =>
        rw [hr] at h
        have hy := decEach_length (ys := a.1) (e := a.2) hr
        cases h
        cases old with
        | none => exact hl
        | some o => exact hy.trans hl
    · split at h
      · cases h
      · rw [Dec.runE_bind] at h
        cases hr : (decEach (decodeWith chainDecoder t .elem) (List.replicate l t.zero)).runE fin rest with
        | panic w => rw [hr] at h; cases h
        | diverge => rw [hr] at h; cases h
        | ok a r' =>
          rw [hr] at h
          have hy := decEach_length (ys := a.1) (e := a.2) hr
          cases h
          simpa using hy
  · exfalso
    obtain ⟨h1, h2, rfl, h3⟩ := hp
    replace h : (decodeSlice t.zero t.size (decodeWith chainDecoder t .elem) old).runE fin (p ++ rest) = .ok (v, e) r := by
      exact (congrArg (fun d => Dec.runE fin d (p ++ rest)) (decode_slice t old)).symm.trans h
    unfold decodeSlice at h
    rw [Dec.runE_bind, readVaruint_leb fin p rest h1 h2 h3] at h
    simp only [Out.bind_ok] at h
    have := goInt_neg (Nat.le_of_not_lt h63) h3
    rw [if_pos (by omega)] at h
    unfold makeSlice at h
    rw [if_pos this] at h
    cases h

theorem varuint_none (fin : Err) : readVaruint.runE fin [] = .ok (0, some fin) [] := by
  have h : readByte.runE fin [] = .ok (0, some fin) [] := rfl
  unfold readVaruint readUvarint readUvarintLoop
  rw [Dec.runE_bind, Dec.runE_bind, h]
  simp [Pure.pure, Dec.runE]

theorem varint_none (fin : Err) : readVarintD.runE fin [] = .ok (0, some fin) [] := by
  have h : readByte.runE fin [] = .ok (0, some fin) [] := rfl
  unfold readVarintD readVarint readUvarint readUvarintLoop
  rw [Dec.runE_bind, Dec.runE_bind, Dec.runE_bind, h]
  simp [Pure.pure, Dec.runE]

theorem basic_none (b : Basic) (fin : Err) : (decodeWith chainDecoder (.basic b) .elem b.zero).runE fin [] = .ok (b.zero, some fin) [] := by
  cases b
  case string =>
    show (readString).runE fin [] = .ok ([], some fin) []
    unfold readString
    rw [Dec.runE_bind, varuint_none]
    rfl
  case int => exact varint_none fin
  case uint => exact varuint_none fin
  all_goals rfl

/-- A length alone, of at most ten bytes, makes a slice of this length, up to 2^48 bytes; only then is the end of the input noticed. -/
theorem C96_slice_violated (b : Basic) (l : Nat) (h0 : 0 < l) (hl : l * (Ty.basic b).size ≤ maxAlloc) (fin : Err) :
    ∃ p, p.length ≤ 10 ∧ (decode (.slice (.basic b)) none).runE fin p = .ok ((some (List.replicate l b.zero) : Option (List b.Val)), some fin) [] := by
  have hs : 1 ≤ (Ty.basic b).size := by cases b <;> decide
  have hl' : l < 2 ^ 63 := by
    have : l * 1 ≤ l * (Ty.basic b).size := Nat.mul_le_mul_left _ hs
    unfold maxAlloc at hl; omega
  obtain ⟨p, _, hp⟩ := leb_exists l (by omega)
  refine ⟨p, hp.2.1, ?_⟩
  have := slice_after (.basic b) none fin hp hl' []
  rw [List.append_nil] at this
  rw [this, if_neg (by simp; omega), if_neg (by omega)]
  obtain ⟨k, rfl⟩ : ∃ k, l = k + 1 := ⟨l - 1, by omega⟩
  have h1 : (decodeWith chainDecoder (.basic b) .elem b.zero).runE fin [] = .ok (b.zero, some fin) [] := basic_none b fin
  rw [Dec.runE_bind, List.replicate_succ]
  unfold decEach
  rw [Dec.runE_bind]
  refine Eq.trans (congrArg (fun o => Out.bind (Out.bind o _) _) h1) ?_
  rfl

theorem empties (fin : Err) (r : Bytes) : (l : Nat) → (decEach (decodeWith chainDecoder (.struct .nil) .elem) (List.replicate l (Ty.struct .nil).zero)).runE fin r = .ok (List.replicate l (Ty.struct .nil).zero, none) r
  | 0 => rfl
  | l + 1 => by
    rw [List.replicate_succ]
    unfold decEach
    rw [Dec.runE_bind]
    have : (decodeWith chainDecoder (.struct .nil) .elem (Ty.struct .nil).zero).runE fin r = .ok ((Ty.struct .nil).zero, none) r := rfl
    refine Eq.trans (congrArg (fun o => Out.bind o _) this) ?_
    simp only [Out.bind_ok]
    rw [Dec.runE_bind, empties fin r l]
    rfl

/-- The elements of a slice of empty structs take no bytes: up to 2^63 - 1 turns of the loop for ten bytes of input, without error. -/
theorem C96_loop_violated (l : Nat) (h0 : 0 < l) (hl : l < 2 ^ 63) (fin : Err) (rest : Bytes) :
    ∃ p, p.length ≤ 10 ∧ (decode (.slice (.struct .nil)) none).runE fin (p ++ rest) = .ok ((some (List.replicate l ()) : Option (List Unit)), none) rest := by
  obtain ⟨p, _, hp⟩ := leb_exists l (by omega)
  refine ⟨p, hp.2.1, ?_⟩
  rw [slice_after (.struct .nil) none fin hp hl rest, if_neg (by simp; omega), if_neg (by show ¬ maxAlloc < l * 0; omega), Dec.runE_bind]
  refine Eq.trans (congrArg (fun o => Out.bind o _) (empties fin rest l)) ?_
  rfl

theorem asks_varuint {α : Type} {g : UInt64 × Option Err → Dec α} {fin : Err} {p : Bytes} {n : Nat} (hp : AnyLeb p n) {rest : Bytes} {m : Nat} (h : (g (n.toUInt64, none)).Asks fin rest m) :
    (readVaruint >>= g).Asks fin (p ++ rest) m :=
  Asks.bind.2 (.inr ⟨_, _, by rw [readVaruint_leb fin p rest hp.1 hp.2.1 (by rw [hp.2.2.1]; exact hp.2.2.2), hp.2.2.1], h⟩)

theorem asks_bytes {fin : Err} {n : Nat} (h0 : 0 < n) (hn : n ≤ maxAlloc) (rest : Bytes) : (readBytes (goInt n.toUInt64)).Asks fin rest n := by
  rw [goInt_toUInt64 n (by unfold maxAlloc at hn; omega)]
  unfold readBytes
  rw [if_neg (by omega), if_neg (by omega), if_neg (by simpa using hn)]
  exact .inl rfl

theorem short_leb {p : Bytes} {n : Nat} (hm : MinLeb p n) (hn : n ≤ maxAlloc) : p.length ≤ 7 := by
  rcases (minLeb_bounds p n hm).2.1 with h | h
  · omega
  · by_contra h'
    have := Nat.pow_le_pow_right (n := 128) (by decide) (show 7 ≤ p.length - 1 by omega)
    unfold maxAlloc at hn; omega

/-- Strings, []byte, Bytes and Blob: a buffer of the announced length is made before anything is read into it, whatever follows. -/
theorem C96_buffer_violated (fin : Err) (n : Nat) (h0 : 0 < n) (hn : n ≤ maxAlloc) : ∃ p, p.length ≤ 7 ∧ ∀ rest : Bytes,
    (∀ old : Bytes, (decode (.basic .string) old).Asks fin (p ++ rest) n) ∧ (∀ old : Option Bytes, (decode .bytes old).Asks fin (p ++ rest) n) ∧
    (∀ old : Option Bytes, (decode (.chain .bytes) old).Asks fin (p ++ rest) n) ∧ ∀ old : Option Bytes, (decode (.chain .blob) old).Asks fin (p ++ rest) n := by
  obtain ⟨p, hm, hp⟩ := leb_exists n (by unfold maxAlloc at hn; omega)
  refine ⟨p, short_leb hm hn, fun rest => ⟨fun old => ?_, fun old => ?_, fun old => ?_, fun old => ?_⟩⟩
  · refine Asks.bind.2 (.inr ⟨_, _, rfl, ?_⟩)
    exact asks_varuint hp (Asks.bind.2 (.inl (asks_bytes h0 hn rest)))
  · refine Asks.bind.2 (.inr ⟨_, _, rfl, ?_⟩)
    exact asks_varuint hp (Asks.bind.2 (.inl (asks_bytes h0 hn rest)))
  · refine Asks.bind.2 (.inl (Asks.bind.2 (.inl (Asks.bind.2 (.inl ?_)))))
    exact asks_varuint hp (Asks.bind.2 (.inl (asks_bytes h0 hn rest)))
  · refine Asks.bind.2 (.inl (Asks.bind.2 (.inl (Asks.bind.2 (.inl ?_)))))
    exact asks_varuint hp (Asks.bind.2 (.inl (asks_bytes h0 hn rest)))

/-! ## With an ABI -/

theorem takenAs_pos {b : Bytes} {v : AV} {w : Bytes} : TakenAs b v w → 1 ≤ w.length
  | .basic _ h => Nat.le_trans (Nat.le_add_left _ _) (basic_holds h)
  | .chain _ h => Nat.le_trans (Nat.le_add_left _ _) (chain_holds h)
  | .bytes h => Nat.le_trans (Nat.le_add_left _ _) (sized_holds h)

mutual
theorem accepts_pos {a : Abi} {n : Bytes} {v : AV} {w : Bytes} : Accepts a n v w → 1 ≤ w.length
  | .absent _ => Nat.le_refl _
  | .present _ _ _ => by simp
  | .plain _ h => acceptsBody_pos h
theorem acceptsBody_pos {a : Abi} {b : Bytes} {arr : Bool} {v : AV} {w : Bytes} : AcceptsBody a b arr v w → 1 ≤ w.length
  | .one h => acceptsInner_pos h
  | .many h _ _ _ => by have := anyLeb_pos h; simp; omega
theorem acceptsInner_pos {a : Abi} {b : Bytes} {v : AV} {w : Bytes} : AcceptsInner a b v w → 1 ≤ w.length
  | .alias _ h => accepts_pos h
  | .struct _ h _ => acceptsMembers_pos h (by simp)
  | .variant _ _ h _ => by have := anyLeb_pos h; simp; omega
  | .builtin _ h => takenAs_pos h
  | .hollow _ _ h => takenAs_pos h
theorem acceptsMembers_pos {a : Abi} {fs : List AbiField} {xs : List (Bytes × AV)} {w : Bytes} : AcceptsMembers a fs xs w → fs ≠ [] → 1 ≤ w.length
  | .nil, h => absurd rfl h
  | .cons h _, _ => by have := accepts_pos h; simp; omega
end

theorem acceptsItems_length {a : Abi} {b : Bytes} {xs : List AV} {w : Bytes} : AcceptsItems a b xs w → xs.length ≤ w.length
  | .nil => Nat.le_refl _
  | .cons h h' => by have := acceptsInner_pos h; have := acceptsItems_length h'; simp; omega

/-- Whatever the ABI, a value decoded without error takes a byte, and an array has fewer elements than bytes were read. Partial: not if an extension may be missing at the end of the input. -/
theorem C96_abi_partial (a : Abi) (n : Bytes) (hn : a.NoShort n) (fuel : Nat) (fin : Err) (s : Bytes) (v : AV) (r : Bytes) (hx : a.NoExtension n ∨ fin ≠ .eof ∨ r ≠ [])
    (h : (a.decode fuel n).runE fin s = .ok (v, none) r) :
    r.length < s.length ∧ ∀ (b : Bytes) (ext opt : Bool), Spelled n b true ext opt → v = .nil ∨ ∃ xs, v = .slice xs ∧ xs.length + r.length < s.length := by
  have hw : ∃ w, s = w ++ r ∧ Accepts a n v w := by
    rcases hx with hx | hx
    · exact C82_sound a n hn hx fuel fin s v r h
    · exact (C89_only_at_end a n hn fin fuel s v r h).resolve_right fun h => by tauto
  obtain ⟨w, rfl, hw⟩ := hw
  have hp := accepts_pos hw
  refine ⟨by simp; omega, fun b ext opt hs => ?_⟩
  have body : ∀ {b' arr' v' w'}, AcceptsBody a b' arr' v' w' → arr' = true → ∃ xs, v' = .slice xs ∧ xs.length < w'.length := fun h ha => by
    cases h with
    | one => cases ha
    | many h1 _ _ h2 =>
      have := anyLeb_pos h1
      have := acceptsItems_length h2
      exact ⟨_, rfl, by simp; omega⟩
  cases hw with
  | absent => exact .inl rfl
  | present hs' _ hb =>
    obtain ⟨xs, rfl, hl⟩ := body hb (spelled_unique hs' hs).2.1
    exact .inr ⟨xs, rfl, by simp; omega⟩
  | plain hs' hb =>
    obtain ⟨xs, rfl, hl⟩ := body hb (spelled_unique hs' hs).2.1
    exact .inr ⟨xs, rfl, by simp; omega⟩

/-- An alias of an extension -/
def lateAbi : Abi := { types := [⟨asc "al", asc "uint8$"⟩] }
theorem late_noShort : lateAbi.NoShort (asc "al[]") := noShort_of (by decide +kernel)
theorem bare_al : Bare (asc "al") := ⟨by decide, by decide, by decide, by decide⟩
theorem bare_uint8 : Bare (asc "uint8") := ⟨by decide, by decide, by decide, by decide⟩

theorem late_items : (l : Nat) → GivesItems lateAbi .eof (asc "al") [] (List.replicate l (.basic .u8 (0 : UInt8))) []
  | 0 => .nil
  | l + 1 => .cons (.alias (t := ⟨asc "al", asc "uint8$"⟩) ⟨⟨by simp [NoStruct, lateAbi], by simp [lateAbi]⟩, ⟨rfl, [], [], rfl, nofun⟩⟩
      (.plain (spelled_of _ bare_uint8 false true false) (.goneOne (.builtin rfl ⟨⟨by simp [NoStruct, lateAbi], by simp [lateAbi]⟩, by simp [lateAbi]; decide⟩ (.basic (by decide +kernel) ⟨rfl, rfl⟩)))))
      (late_items l)

/-- The elements of an array of an extension may be missing at the end of the input: from a length alone arises, without an error, an array of this length. -/
theorem C96_abi_violated (l : Nat) (hl : l * 16 ≤ maxAlloc) : ∃ p, p.length ≤ 7 ∧
    ∃ N, ∀ fuel, N ≤ fuel → (lateAbi.decode fuel (asc "al[]")).run p = .ok (.slice (List.replicate l (.basic .u8 (0 : UInt8))), none) [] := by
  obtain ⟨p, hm, hp⟩ := leb_exists l (by unfold maxAlloc at hl; omega)
  refine ⟨p, short_leb hm (by omega), ?_⟩
  refine (C89_decode lateAbi (asc "al[]") late_noShort .eof p _ []).2 (.plain (spelled_of _ bare_al true false false) ?_)
  have := GivesBody.many (a := lateAbi) (fin := .eof) (b := asc "al") (ext := false) (xs := List.replicate l (.basic .u8 (0 : UInt8))) (p := p) (s := []) (r := [])
    (by simpa using hp) (by simp; unfold maxAlloc at hl; omega) (by simpa using hl) (late_items l)
  simpa using this

/-! ## Examples -/

/-- A map of strings to slices -/
def holdsTy : Ty := .map (.basic .string) (.slice (.struct (.cons .exported .optional (.ptr (.basic .u64)) .nil)))
example : holdsTy.Strait ∧ holdsTy.Filled := by simp [holdsTy, Ty.Strait, Fields.Strait, Ty.KeyType, Ty.Filled, Fields.Filled, Ty.least, Fields.least]
/-- One entry, two bytes of the key and three elements -/
example : (decode holdsTy holdsTy.zero).run [1, 2, 104, 105, 3, 0, 0, 0, 9] =
    .ok ((some [((asc "hi" : Bytes), (some [(none, ()), (none, ()), (none, ())] : Option (List (Option UInt64 × Unit))))] : Option (List (Bytes × Option (List (Option UInt64 × Unit))))), none) [9] := by decide +kernel
example : holdsTy.holds (some [((asc "hi" : Bytes), (some [(none, ()), (none, ()), (none, ())] : Option (List (Option UInt64 × Unit))))] : Option (List (Bytes × Option (List (Option UInt64 × Unit))))) = 6 ∧ holdsTy.least = 1 := ⟨rfl, rfl⟩
example : ¬ (Ty.slice (.struct .nil)).Filled := by simp [Ty.Filled, Ty.least, Fields.least]
/-- 300 numbers are announced, one is there. -/
example : AnyLeb [0xac, 2] 300 := ⟨⟨[0xac], 2, rfl, by decide, by decide⟩, by decide, by decide, by decide⟩
example : ∃ v, (decode (.slice (.basic .u8)) (some [(7 : UInt8)] : Option (List UInt8))).run ([0xac, 2] ++ [1]) = .ok ((v : Option (List UInt8)), some .eof) [] ∧ (v.getD []).length = 300 := ⟨some (1 :: List.replicate 299 0), by decide +kernel, by rw [Option.getD_some, List.length_cons, List.length_replicate]⟩
example : (endsAbi.decode 3 (asc "uint8[]")).run [2, 5, 6, 7] = .ok (.slice [.basic .u8 (5 : UInt8), .basic .u8 (6 : UInt8)], none) [7] := rfl
example : (lateAbi.decode 3 (asc "al[]")).run [2, 5] = .ok (.slice [.basic .u8 (5 : UInt8), .basic .u8 (0 : UInt8)], none) [] := rfl

end Verif
