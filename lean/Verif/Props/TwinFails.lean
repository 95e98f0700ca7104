import Verif.Lemmas.TwinFails
import Verif.Props.Twin
/-! C113: which errors Decode with a Go type and Abi.Decode with an ABI definition of the same data return. -/
namespace Verif

/-- C113: if Decode returns an error, Abi.Decode returns the same error, unless `make` panics for the elements of an array, which take 16 bytes each for Abi.Decode. -/
theorem C113_decode (a : Abi) (n b : Bytes) (arr ext : Bool) (hs : Spelled n b arr ext false) (hn : a.NoShort n) (hx : a.NoExtension n) (t : Ty) (tw : TwinBody a b arr t) (fin : Err) (bs : Bytes)
    (hL : bs.length * 16 ≤ maxAlloc) (v : t.Val) (e : Err) (r : Bytes) (h : (decode t t.zero).runE fin bs = .ok (v, some e) r) :
    (∃ N, ∀ fuel, N ≤ fuel → ∃ x r', (a.decode fuel n).runE fin bs = .ok (x, some e) r') ∨ ∃ N, ∀ fuel, N ≤ fuel → ∃ w, (a.decode fuel n).runE fin bs = .panic w := by
  have h1 := (ty_faults t .decode fin bs (.err e)).1 ⟨v, r, h⟩
  cases ext with
  | true => exact absurd hs (hx _ _ _ _ .refl)
  | false =>
    exact (body_refuses hx tw .decode (.inl rfl) .refl hs bs hL h1).imp (fun h => (C95_decode a n hn fin bs (.err e)).2 (.inl (.plain hs h)))
      fun h => (C95_decode a n hn fin bs .panic).2 (.inl (.plain hs h))

/-- C113: if Abi.Decode returns an error, Decode returns the same error, unless it panics. -/
theorem C113_abi (a : Abi) (n b : Bytes) (arr ext : Bool) (hs : Spelled n b arr ext false) (hn : a.NoShort n) (hx : a.NoExtension n) (t : Ty) (tw : TwinBody a b arr t) (fin : Err) (bs : Bytes)
    (hL : bs.length * 16 ≤ maxAlloc) (fuel : Nat) (x : AV) (e : Err) (r : Bytes) (h : (a.decode fuel n).runE fin bs = .ok (x, some e) r) :
    (∃ v r', (decode t t.zero).runE fin bs = .ok (v, some e) r') ∨ ∃ w, (decode t t.zero).runE fin bs = .panic w := by
  have h1 : FailsIn a fin n bs (.err e) := (C95_sound a n hn fin fuel bs (.err e) ⟨x, r, h⟩).resolve_left nofun
  have one : (∀ v r, ¬ Gives a fin n bs v r) ∧ ∀ y, FailsIn a fin n bs y → y = .err e := by
    rcases C95_total a n hn fin bs with ⟨_, _, _, _, h2, _⟩ | ⟨y, _, h2, h3, _⟩ | ⟨_, _, h2⟩
    · exact absurd h1 (h2 _)
    · exact ⟨h3, fun y' h => (h2 y' h).trans (h2 _ h1).symm⟩
    · exact absurd h1 (h2 _)
  have hs' : Spelled n b arr false false := by
    cases ext with
    | true => exact absurd hs (hx _ _ _ _ .refl)
    | false => exact hs
  rcases Out.faults_or ((decode t t.zero).runE fin bs) with ⟨v, r', h2⟩ | ⟨y, h2⟩
  · exact absurd (.plain hs' (body_gives tw (.inl rfl) hL (((ty_does t .decode).gives fin bs v r').1 h2) false).1) (one.1 (tw.av v) r')
  · cases y with
    | err e' =>
      rcases body_refuses hx tw .decode (.inl rfl) .refl hs' bs hL ((ty_faults t .decode fin bs (.err e')).1 h2) with h3 | h3
      · cases one.2 _ (.plain hs' h3)
        exact .inl h2
      · exact nomatch one.2 _ (.plain hs' h3)
    | panic => exact .inr h2
    | endless => exact absurd h2 (C94_ends t (body_refless tw) fin bs)

/-- C113: where neither panics, the two decoders return the same error or none. -/
theorem C113_same (a : Abi) (n b : Bytes) (arr ext : Bool) (hs : Spelled n b arr ext false) (hn : a.NoShort n) (hx : a.NoExtension n) (t : Ty) (tw : TwinBody a b arr t) (fin : Err) (bs : Bytes)
    (hL : bs.length * 16 ≤ maxAlloc) (fuel : Nat) (x : AV) (o : Option Err) (r : Bytes) (ha : (a.decode fuel n).runE fin bs = .ok (x, o) r) (v : t.Val) (o' : Option Err) (r' : Bytes)
    (hd : (decode t t.zero).runE fin bs = .ok (v, o') r') : o = o' := by
  cases o with
  | some e =>
    rcases C113_abi a n b arr ext hs hn hx t tw fin bs hL fuel x e r ha with ⟨v1, r1, h⟩ | ⟨w, h⟩
    · cases h.symm.trans hd
      rfl
    · cases h.symm.trans hd
  | none =>
    cases o' with
    | none => rfl
    | some e =>
      have hg := (C89_sound a n hn fin fuel bs x r).1 ha
      have no : ∀ y, ¬ FailsIn a fin n bs y := by
        rcases C95_total a n hn fin bs with ⟨_, _, _, _, h2, _⟩ | ⟨_, _, _, h3, _⟩ | ⟨_, h3, _⟩
        · exact h2
        · exact absurd hg (h3 _ _)
        · exact absurd hg (h3 _ _)
      have hs' : Spelled n b arr false false := by
        cases ext with
        | true => exact absurd hs (hx _ _ _ _ .refl)
        | false => exact hs
      rcases body_refuses hx tw .decode (.inl rfl) .refl hs' bs hL ((ty_faults t .decode fin bs (.err e)).1 ⟨v, r', hd⟩) with h3 | h3
      · exact absurd (.plain hs' h3) (no _)
      · exact absurd (.plain hs' h3) (no _)

/-- C113: the error of DecodeInto is that of Action.Decode, unless that panics. -/
theorem C113_action (a : Abi) (x : Action) (act : AbiAction) (ha : a.getAction x.name = some act) (b : Bytes) (arr ext : Bool) (hs : Spelled act.type b arr ext false)
    (hn : a.NoShort act.type) (hx : a.NoExtension act.type) (t : Ty) (tw : TwinBody a b arr t) (hL : x.data.length * 16 ≤ maxAlloc) (v : t.Val) (e : Err) (r : Bytes)
    (h : x.decodeInto t t.zero = .ok (v, some e) r) :
    (∃ N, ∀ fuel, N ≤ fuel → ∃ r', x.decode a fuel = .ok (none, some e) r') ∨ ∃ N, ∀ fuel, N ≤ fuel → ∃ w, x.decode a fuel = .panic w := by
  have h1 := (ty_faults t .decode .eof x.data (.err e)).1 ⟨v, r, h⟩
  have hs' : Spelled act.type b arr false false := by
    cases ext with
    | true => exact absurd hs (hx _ _ _ _ .refl)
    | false => exact hs
  obtain ⟨k1, k2, _⟩ := C95_action_decode a x act ha hn
  exact (body_refuses hx tw .decode (.inl rfl) .refl hs' x.data hL h1).imp (fun h => (k1 e).2 (.inl (.plain hs' h))) fun h => k2.2 (.plain hs' h)

/-! ## Examples -/

/- a deposit whose second asset is cut off within its amount; the presence byte of the memo is missing -/
example : ∃ v r, (decode twinTy twinTy.zero).run [1, 0, 0, 0, 0, 0, 0, 0, 2, 0, 0, 0, 0, 0, 0, 0, 2, 5, 0, 0, 0, 0, 0, 0, 0, 4, 0, 0, 0, 0, 0, 0, 0, 6, 0] = .ok (v, some .unexpectedEOF) r := ⟨_, _, rfl⟩
example : ∃ v r, (decode twinTy twinTy.zero).run [1, 0, 0, 0, 0, 0, 0, 0, 2, 0, 0, 0, 0, 0, 0, 0, 0] = .ok (v, some .eof) r := ⟨_, _, rfl⟩
example (fuel : Nat) : ∃ x r, (twinAbi.decode (fuel + 5) (asc "deposit")).run [1, 0, 0, 0, 0, 0, 0, 0, 2, 0, 0, 0, 0, 0, 0, 0, 0] = .ok (x, some .eof) r := ⟨_, _, rfl⟩

/- the error of a reader that breaks -/
example (code : Nat) : ∃ v r, (decode twinTy twinTy.zero).runE (.io code) [1, 0, 0] = .ok (v, some (.io code)) r := ⟨_, _, rfl⟩

example (fin : Err) (bs : Bytes) (hL : bs.length < 2 ^ 44) (fuel : Nat) (x : AV) (o : Option Err) (r : Bytes) (ha : (twinAbi.decode fuel (asc "deposit")).runE fin bs = .ok (x, o) r) (v : twinTy.Val)
    (o' : Option Err) (r' : Bytes) (hd : (decode twinTy twinTy.zero).runE fin bs = .ok (v, o') r') : o = o' :=
  C113_same twinAbi (asc "deposit") (asc "deposit") false false (twin_spelled (by decide +kernel)) twin_short twin_plain twinTy twinDeposit fin bs
    (by have : maxAlloc = 2 ^ 48 := rfl; omega) fuel x o r ha v o' r' hd

example : twinAbi.getAction 5 = some ⟨5, asc "deposit", []⟩ ∧ ∃ v r, (newAction 1 5 [] [1, 2]).decodeInto twinTy twinTy.zero = .ok (v, some .unexpectedEOF) r := ⟨by decide +kernel, _, _, rfl⟩

/-! ## Where they differ -/

/-- An array that is announced to have 2^43 elements of 64 bytes: Decode panics, Abi.Decode finds the end of the input. With 2^45 elements of one byte it is the other way round.
(As far as the memory of the machine is no limit, which the model leaves out.) -/
theorem C113_panic_violated :
    (∃ w, (decode (.slice (.chain .checksum512)) (Ty.slice (.chain .checksum512)).zero).run [0x80, 0x80, 0x80, 0x80, 0x80, 0x80, 2] = .panic w) ∧
    (∃ N, ∀ fuel, N ≤ fuel → ∃ x r, (Abi.decode {} fuel (asc "checksum512[]")).run [0x80, 0x80, 0x80, 0x80, 0x80, 0x80, 2] = .ok (x, some .eof) r) ∧
    (∃ v r, (decode (.slice (.basic .i8)) (Ty.slice (.basic .i8)).zero).run [0x80, 0x80, 0x80, 0x80, 0x80, 0x80, 8] = .ok (v, some .eof) r) ∧
    ∃ N, ∀ fuel, N ≤ fuel → ∃ w, (Abi.decode {} fuel (asc "int8[]")).run [0x80, 0x80, 0x80, 0x80, 0x80, 0x80, 8] = .panic w := by
  have l1 : AnyLeb [0x80, 0x80, 0x80, 0x80, 0x80, 0x80, 2] (2 ^ 43) := ⟨⟨[0x80, 0x80, 0x80, 0x80, 0x80, 0x80], _, rfl, by decide, by decide⟩, by decide, by decide +kernel, by decide⟩
  have l2 : AnyLeb [0x80, 0x80, 0x80, 0x80, 0x80, 0x80, 8] (2 ^ 45) := ⟨⟨[0x80, 0x80, 0x80, 0x80, 0x80, 0x80], _, rfl, by decide, by decide⟩, by decide, by decide +kernel, by decide⟩
  have nd (b : Bytes) : NotDefined {} b := ⟨⟨nofun, nofun⟩, nofun⟩
  refine ⟨?_, ?_, ?_, ?_⟩
  · exact (ty_faults (.slice (.chain .checksum512)) .decode .eof _ .panic).2 (.inl ⟨.inl rfl, .inr ⟨2 ^ 43, _, [], l1, (List.append_nil _).symm, .inl ⟨.inr (by decide +kernel), rfl⟩⟩⟩)
  · exact (C95_decode {} (asc "checksum512[]") (noShort_of (by decide +kernel)) .eof _ (.err .eof)).2 (.inl (.plain (b := asc "checksum512") (arr := true) (twin_spelled (by decide +kernel))
      (.element (s := []) l1 (by decide) (by decide +kernel) (.here (.builtin (nd _) (.chain (c := .checksum512) (by decide) ⟨by decide, rfl⟩))))))
  · exact (ty_faults (.slice (.basic .i8)) .decode .eof _ (.err .eof)).2 (.inl ⟨.inl rfl, .inr ⟨2 ^ 45, _, [], l2, (List.append_nil _).symm, .inr ⟨by decide, by decide +kernel,
      [], [], by decide, .nil, .inl ⟨.inr (.inl rfl), by decide, rfl⟩⟩⟩⟩)
  · exact (C95_decode {} (asc "int8[]") (noShort_of (by decide +kernel)) .eof _ .panic).2 (.inl (.plain (b := asc "int8") (arr := true) (twin_spelled (by decide +kernel))
      (.large (s := []) l2 (.inr (by decide +kernel)))))

end Verif
