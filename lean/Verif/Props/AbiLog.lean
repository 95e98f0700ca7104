import Verif.Lemmas.AbiLog
import Verif.Props.Full
/-! # C106: values of an ABI type one after the other on one stream, which may be cut anywhere -/
namespace Verif

/-- The first i bytes of a stream of values, for every i: decoding in a loop yields the values that are complete and then io.EOF or io.ErrUnexpectedEOF; io.EOF exactly if the type can
stop with it on what is left, and always if nothing is left. -/
theorem C106_read (a : Abi) (n : Bytes) (hn : a.NoShort n) (hx : a.NoExtension n) (hne : ∃ v w, Accepts a n v w ∧ w ≠ []) (vs : List AV) (ws : List Bytes)
    (h : List.Forall₂ (Accepts a n) vs ws) (i : Nat) :
    ∃ D k e s, Complete ws i k ∧ ws.flatten.take i = (ws.take k).flatten ++ s ∧
      (∀ depth, D ≤ depth → ∀ fuel, k < fuel → (a.readLog depth n fuel).run (ws.flatten.take i) = .ok (vs.take k, e) []) ∧
      (e = .eof ∨ e = .unexpectedEOF) ∧ (e = .eof ↔ ∃ x, StopsIn a .eof n s x) ∧ (s = [] → a.Closed n → e = .eof) := by
  obtain ⟨v₀, w₀, h₀, hw⟩ := hne
  exact abiLog_cut hn hx v₀ w₀ h₀ hw vs ws h i

/-- The whole stream: all values, then io.EOF. -/
theorem C106_whole (a : Abi) (n : Bytes) (hn : a.NoShort n) (hx : a.NoExtension n) (hc : a.Closed n) (hne : ∃ v w, Accepts a n v w ∧ w ≠ []) (vs : List AV) (ws : List Bytes)
    (h : List.Forall₂ (Accepts a n) vs ws) : ∃ D, ∀ depth, D ≤ depth → ∀ fuel, vs.length < fuel → (a.readLog depth n fuel).run ws.flatten = .ok (vs, .eof) [] := by
  obtain ⟨D, k, e, s, ⟨h1, h2, h3⟩, hs, hr, _, _, h4⟩ := C106_read a n hn hx hne vs ws h ws.flatten.length
  have hl : vs.length = ws.length := h.length_eq
  have hk : ws.flatten = (ws.take k).flatten ++ (ws.drop k).flatten := by rw [← List.flatten_append, List.take_append_drop]
  rw [List.take_length] at hs hr
  have hse : s = (ws.drop k).flatten := List.append_cancel_left (hs.symm.trans hk)
  rcases h3 with h3 | h3
  · have : s = [] := by rw [hse, h3, List.drop_length]; rfl
    refine ⟨D, fun depth hd fuel hf => ?_⟩
    rw [← h4 this hc]
    have := hr depth hd fuel (by omega)
    rwa [List.take_of_length_le (by omega)] at this
  · exfalso
    have : (ws.take (k + 1)).flatten.length ≤ ws.flatten.length := by
      rw [show ws.flatten = (ws.take (k + 1)).flatten ++ (ws.drop (k + 1)).flatten by rw [← List.flatten_append, List.take_append_drop], List.length_append]
      omega
    omega

/-- Values are encoded one after the other to a writer that runs full. It has the beginning of the stream, and decoding in a loop gives back the values that were complete when it ran full.
The error of the writer is returned unless the first byte that is missing is a presence flag. -/
theorem C106_crash (a : Abi) (n : Bytes) (hn : a.NoShort n) (hx : a.NoExtension n) (hne : ∃ v w, Accepts a n v w ∧ w ≠ []) (vs : List AV) (ws : List Bytes)
    (h : List.Forall₂ (Wire a Plain true n) vs ws) (x : Err) (i : Nat) :
    ∃ D k e, Complete ws i k ∧ (e = .eof ∨ e = .unexpectedEOF) ∧ ∀ depth, D ≤ depth → ∃ r out, (a.writeLog depth n vs).runFull x i = .ok r out ∧ out = ws.flatten.take i ∧
      (r = some x ∧ i < ws.flatten.length ∨ r = none ∧ (ws.flatten.length ≤ i ∨ FlagFirst (ws.flatten.drop i))) ∧
      ∀ fuel, k < fuel → (a.readLog depth n fuel).run out = .ok (vs.take k, e) [] := by
  have hA : List.Forall₂ (Accepts a n) vs ws := by
    refine h.imp fun v w hw => ?_
    obtain ⟨N, hN⟩ := (C47_exact_partial a n hn v w hw).2
    obtain ⟨w', e, hw'⟩ := C82_sound a n hn hx N .eof _ v [] (hN N (Nat.le_refl _) .eof [])
    rw [List.append_nil, List.append_nil] at e
    rw [e]
    exact hw'
  have hW : ∃ N, ∀ depth, N ≤ depth → (a.writeLog depth n vs).run = .ok none ws.flatten := by
    clear hA
    induction h with
    | nil => exact ⟨0, fun _ _ => rfl⟩
    | cons hv _ ih =>
      obtain ⟨N, hN⟩ := ih
      obtain ⟨M, hM⟩ := (C47_exact_partial a n hn _ _ hv).1
      exact ⟨N + M, fun depth hd => Enc.Writes.bind (hM depth (by omega)) (hN depth (by omega))⟩
  obtain ⟨N, hN⟩ := hW
  obtain ⟨D, k, e, s, hk, _, hr, hee, _⟩ := C106_read a n hn hx hne vs ws hA i
  refine ⟨D + N, k, e, hk, hee, fun depth hd => ?_⟩
  have hF : (a.writeLog depth n vs).Fills FlagFirst := by
    clear hA hN hr h hk
    induction vs with
    | nil => exact fills_none
    | cons v vs ih => exact fills_seq grows_first (fun y j b hb => C101_abi_optional a n depth v y j b hb) ih
  have hF := hF x i _ (hN depth (by omega))
  have hr := hr depth (by omega)
  split at hF
  · rename_i hl
    exact ⟨none, ws.flatten.take i, by rw [List.take_of_length_le hl]; exact hF, rfl, .inr ⟨rfl, .inl hl⟩, hr⟩
  · rename_i hl
    rcases hF with hF | ⟨hF, hm⟩
    · exact ⟨some x, _, hF, rfl, .inl ⟨rfl, by omega⟩, hr⟩
    · exact ⟨none, _, hF, rfl, .inr ⟨rfl, .inr hm⟩, hr⟩

/-- A type that is read from no input, as every extension (C54_absent): the loop does not end when the stream does. -/
theorem C106_endless_violated (a : Abi) (n : Bytes) (depth : Nat) (v : AV) (h : (a.decode depth n).run [] = .ok (v, none) []) (fuel : Nat) : (a.readLog depth n fuel).run [] = .diverge := by
  induction fuel with
  | zero => rfl
  | succ fuel ih =>
    have h : (a.decode depth n).runE .eof [] = .ok (v, none) [] := h
    have ih : (a.readLog depth n fuel).runE .eof [] = .diverge := ih
    show (a.decode depth n >>= _).runE .eof [] = _
    rw [Dec.runE_bind, h]
    show (a.readLog depth n fuel >>= _).runE .eof [] = _
    rw [Dec.runE_bind, ih]
    rfl

/-- A row -/
def rowAbi : Abi where
  structs := [⟨asc "row", [], [⟨asc "id", asc "uint8"⟩, ⟨asc "note", asc "string?"⟩]⟩]
def rowOf (x : UInt8) (y : AV) : AV := .map [(asc "id", .basic .u8 x), (asc "note", y)]

theorem row_short : rowAbi.NoShort (asc "row") := noShort_of (by decide +kernel)
theorem row_noExtension : rowAbi.NoExtension (asc "row") := noExtension_of (by decide +kernel)

theorem row_accepts {w : Bytes} {v : AV} (h : (rowAbi.decode 3 (asc "row")).runE .eof w = .ok (v, none) []) : Accepts rowAbi (asc "row") v w := by
  obtain ⟨w', e, h⟩ := C82_sound rowAbi _ row_short row_noExtension 3 .eof w v [] h
  rw [List.append_nil] at e
  rw [e]
  exact h

theorem row_entries : List.Forall₂ (Accepts rowAbi (asc "row")) [rowOf 7 .nil, rowOf 8 (.basic .string (asc "hi"))] [[7, 0], [8, 1, 2, 104, 105]] :=
  .cons (row_accepts rfl) (.cons (row_accepts rfl) .nil)

/-- io.EOF does not mean that the stream ended after a value: the second row has lost its note. -/
theorem C106_eof_violated : ∃ (a : Abi) (n : Bytes) (vs : List AV) (ws : List Bytes) (i : Nat), List.Forall₂ (Accepts a n) vs ws ∧ (∀ k, ws.flatten.take i ≠ (ws.take k).flatten) ∧
    ∀ depth fuel, (a.readLog (depth + 2) n (fuel + 2)).run (ws.flatten.take i) = .ok (vs.take 1, .eof) [] := by
  refine ⟨rowAbi, asc "row", _, _, 3, row_entries, fun k => ?_, fun depth fuel => rfl⟩
  match k with
  | 0 | 1 | k + 2 => simp

/-! ## Examples -/

theorem sampleNode_accepts : Accepts sampleAbi (asc "node") sampleNode [7, 1, 1, 0, 1, 1, 5, 0, 0, 0, 0, 0, 0, 0] := by
  obtain ⟨N, hN⟩ := (C47_exact_partial sampleAbi _ (noShort_of (by decide +kernel)) _ _ sampleNode_wire).2
  obtain ⟨w', e, h⟩ := C82_sound sampleAbi _ (noShort_of (by decide +kernel)) (noExtension_of (by decide +kernel)) N .eof _ _ [] (hN N (Nat.le_refl _) .eof [])
  rw [List.append_nil, List.append_nil] at e
  rw [e]
  exact h

/-- The hypotheses are met -/
example := C106_read rowAbi (asc "row") row_short row_noExtension ⟨_, _, row_accepts (w := [7, 0]) rfl, by simp⟩ _ _ row_entries 6
/-- Six of seven bytes: one row, and io.ErrUnexpectedEOF. -/
example : (rowAbi.readLog 3 (asc "row") 9).run [7, 0, 8, 1, 2, 104] = .ok ([rowOf 7 .nil], .unexpectedEOF) [] := rfl
example : (rowAbi.readLog 3 (asc "row") 9).run [7, 0, 8, 1, 2, 104, 105] = .ok ([rowOf 7 .nil, rowOf 8 (.basic .string (asc "hi"))], .eof) [] := rfl
/-- A writer with room for three bytes: the flag of the second row does not fit, and neither row fails to be written. -/
example : (rowAbi.writeLog 3 (asc "row") [rowOf 7 .nil, rowOf 8 (.basic .string (asc "hi"))]).run = .ok none [7, 0, 8, 1, 2, 104, 105] ∧
    (rowAbi.writeLog 3 (asc "row") [rowOf 7 .nil, rowOf 8 (.basic .string (asc "hi"))]).runFull (.io 28) 3 = .ok none [7, 0, 8] ∧
    (rowAbi.writeLog 3 (asc "row") [rowOf 7 .nil, rowOf 8 (.basic .string (asc "hi"))]).runFull (.io 28) 4 = .ok (some (.io 28)) [7, 0, 8, 1] := ⟨rfl, rfl, rfl⟩
/-- The hypotheses of C106_crash are met: two nodes of a tree, of 14 bytes each. -/
example := C106_crash sampleAbi (asc "node") (noShort_of (by decide +kernel)) (noExtension_of (by decide +kernel))
  ⟨_, _, sampleNode_accepts, by simp⟩ [sampleNode, sampleNode] _ (.cons sampleNode_wire (.cons sampleNode_wire .nil)) (.io 28) 20
/-- uint8$ -/
example : (Abi.readLog {} 3 (asc "uint8$") 5).run [] = .diverge := C106_endless_violated {} _ 3 (.basic .u8 (0 : UInt8)) rfl 5

end Verif
