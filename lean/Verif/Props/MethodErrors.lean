import Verif.Lemmas.MethodErrors
import Verif.Props.Methods
/-! # C115: errors of the methods MarshalABI and UnmarshalABI -/
namespace Verif

/-- Encode returns the error of the first MarshalABI that returns one, unchanged, and has then written the parts before it in their form and what the method wrote, nothing else -/
theorem C115_encode (W : Formats) (M : Program) (hM : M.Keeps W) (e : Err) (F : Refusals) (hF : ∀ i t v bs, F i t v bs → ((M i t).marshal v).run = .ok (some e) bs) (t : MTy)
    (v : t.bare.Val) (hs : t.Sound W (fun i t => (M i t).receiver) .decode false) (h : t.Stuck W F v) :
    ∃ bs, t.Broken W F v bs ∧ (encodeM M t v).run = .ok (some e) bs := encodeM_stops hM hF t v .decode hs h

/-- So does Encode of a pointer to the value -/
theorem C115_pointer (W : Formats) (M : Program) (hM : M.Keeps W) (e : Err) (F : Refusals) (hF : ∀ i t v bs, F i t v bs → ((M i t).marshal v).run = .ok (some e) bs) (t : MTy)
    (v : t.bare.Val) (hs : t.Sound W (fun i t => (M i t).receiver) .decode true) (h : t.Stuck W F v) :
    ∃ bs, t.Broken W F v bs ∧ (encodeM M (.ptr t) (some v : Option t.bare.Val)).run = .ok (some e) bs := by
  obtain ⟨bs, ⟨x, hx, h1⟩, h2⟩ := encodeM_stops hM hF (.ptr t) (some v : Option t.bare.Val) .elem hs ⟨v, rfl, h⟩
  cases hx
  exact ⟨bs, h1, h2⟩

/-- Decode returns the error of the first UnmarshalABI that returns one, unchanged, unless it is io.EOF -/
theorem C115_decode (W : Formats) (M : Program) (hM : M.Keeps W) (e : Err) (he : e ≠ .eof) (D : Nat → MTy → Bytes → Prop)
    (hD : ∀ i t bs, D i t bs → ∃ u, (M i t).unmarshal = some u ∧ ∀ old, t.bare.Clean old → ∀ fin, ∃ w r, (u old).runE fin bs = .ok (w, some e) r) (t : MTy) (b : Bool)
    (hs : t.Sound W (fun i t => (M i t).receiver) .decode b) (bs : Bytes) (h : t.Spoiled W D bs) (old : t.bare.Val) (hc : t.bare.Clean old) (fin : Err) :
    ∃ w r, (decodeM M t .decode old).runE fin bs = .ok (w, some e) r := decodeM_stops he hM hD t .decode b old bs (.inl rfl) hs hc h fin

/-! ### An example: struct { A uint8 }, whose methods return the error e for A = 9 -/

def fussy (e : Err) : Program := fun _ t =>
  match t with
  | .struct (.cons .none (.plain (.basic .u8)) .nil) =>
    { receiver := .value
      marshal := fun v => if (show UInt8 × Unit from v).1 = 9 then pure (some e) else writeByte (show UInt8 × Unit from v).1
      marshalNil := pure none
      unmarshal := some fun old => do
        let (b, err) ← readByte
        match err with
        | some e => pure (old, some e)
        | none => if b = 9 then pure (old, some e) else pure (((b, ()) : UInt8 × Unit), none) }
  | _ => ⟨.none, fun _ => pure none, pure none, none⟩

def notNine : Formats := fun _ t =>
  match t with
  | .struct (.cons .none (.plain (.basic .u8)) .nil) => some ⟨fun v => (show UInt8 × Unit from v).1 ≠ 9, fun v bs => bs = [(show UInt8 × Unit from v).1]⟩
  | _ => none

def nine : Refusals := fun _ t v bs =>
  match t, v with
  | .struct (.cons .none (.plain (.basic .u8)) .nil), v => (show UInt8 × Unit from v).1 = 9 ∧ bs = []
  | _, _ => False

def nineData : Nat → MTy → Bytes → Prop := fun _ t bs =>
  match t with
  | .struct (.cons .none (.plain (.basic .u8)) .nil) => bs.head? = some 9
  | _ => False

theorem fussy_keeps (e : Err) : (fussy e).Keeps notNine := by
  intro i t
  unfold notNine
  split
  · next f hf =>
    split at hf
    · cases hf
      refine ⟨fun v hv => ?_, _, rfl, fun v old bs hv _ hb => ?_⟩
      · obtain ⟨a, u⟩ : UInt8 × Unit := v
        refine ⟨_, rfl, ?_⟩
        show Enc.run (if a = 9 then pure (some e) else writeByte a) = _
        rw [if_neg hv]
        rfl
      · obtain ⟨a, u⟩ : UInt8 × Unit := v
        subst hb
        refine ⟨((a, ()) : UInt8 × Unit), ⟨rfl, trivial⟩, fun fin rest => ?_⟩
        show Dec.runE fin (if a = 9 then pure (old, some e) else pure (((a, ()) : UInt8 × Unit), none)) rest = _
        rw [if_neg hv]
        rfl
    · cases hf
  · next hf =>
    split at hf
    · cases hf
    · next h =>
      unfold fussy
      split
      · exact absurd rfl h
      · exact ⟨rfl, rfl⟩

theorem fussy_refuses (e : Err) (i : Nat) (t : MTy) (v : t.bare.Val) (bs : Bytes) (h : nine i t v bs) : ((fussy e i t).marshal v).run = .ok (some e) bs := by
  unfold nine at h
  split at h
  · obtain ⟨h1, rfl⟩ := h
    next v =>
    obtain ⟨a, u⟩ : UInt8 × Unit := v
    cases h1
    rfl
  · exact h.elim

theorem fussy_spoils (e : Err) (i : Nat) (t : MTy) (bs : Bytes) (h : nineData i t bs) :
    ∃ u, (fussy e i t).unmarshal = some u ∧ ∀ old, t.bare.Clean old → ∀ fin, ∃ w r, (u old).runE fin bs = .ok (w, some e) r := by
  unfold nineData at h
  split at h
  · refine ⟨_, rfl, fun old _ fin => ?_⟩
    cases bs with
    | nil => cases h
    | cons b bs => cases h; exact ⟨old, bs, rfl⟩
  · exact h.elim

/-- Contrary to C115_decode, io.EOF: struct { T `extension`; B uint8 }, where the UnmarshalABI of T returns io.EOF after having read a byte; Decode returns no error -/
theorem C115_eof_violated : (decodeM (fussy .eof) (.struct (.cons .extension (.own 0 (.struct oneByte)) (.cons .none (.plain (.basic .u8)) .nil))) .decode
    (((1, ()), 2, ()) : (UInt8 × Unit) × UInt8 × Unit)).run [9, 7] = .ok ((((0, ()), 7, ()) : (UInt8 × Unit) × UInt8 × Unit), none) [] := rfl

/-- A slice of it: 1, 9, 2. Two bytes are written, then the error -/
example : MTy.Stuck notNine nine (.slice (.own 0 (.struct oneByte))) (some [(1, ()), (9, ()), (2, ())] : Option (List (UInt8 × Unit))) :=
  ⟨by show 3 < 2 ^ 28; decide, .later (by show (1 : UInt8) ≠ 9; decide) (.here ⟨[], rfl, rfl⟩)⟩
example : MTy.Sound notNine (fun i t => (fussy .unexpectedEOF i t).receiver) (.slice (.own 0 (.struct oneByte))) .decode false := .inl rfl
example (e : Err) : (encodeM (fussy e) (.slice (.own 0 (.struct oneByte))) (some [(1, ()), (9, ()), (2, ())] : Option (List (UInt8 × Unit)))).run = .ok (some e) [3, 1] := rfl
example : MTy.Spoiled notNine nineData (.slice (.own 0 (.struct oneByte))) ([2] ++ ([1] ++ [9])) :=
  ⟨2, [2], [1] ++ [9], by decide, by show 2 * 1 ≤ maxAlloc; decide, varuintBytes_minLeb 2 (by decide),
    .later (x := ((1, ()) : UInt8 × Unit)) (by show (1 : UInt8) ≠ 9; decide) rfl (.here rfl), rfl⟩

end Verif
