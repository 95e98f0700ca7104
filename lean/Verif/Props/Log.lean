import Verif.Lemmas.Log
import Verif.Props.Reflect
/-! # C102: values one after the other on one stream, which may be cut anywhere -/
namespace Verif

/-- The first n bytes of a stream of values, for every n: decoding in a loop yields the values that are complete and then io.EOF or io.ErrUnexpectedEOF; io.EOF exactly if Decode can
end with it on what is left, and always if nothing is left. -/
theorem C102_read (t : Ty) (ht : t.Strait) (hne : ∃ v w, t.Takes .decode v w ∧ w ≠ []) (vs : List t.Val) (ws : List Bytes) (h : Entries t vs ws) (n : Nat) :
    ∃ k e s, Complete ws n k ∧ ws.flatten.take n = (ws.take k).flatten ++ s ∧ (∀ fuel, k < fuel → (readLog t fuel).run (ws.flatten.take n) = .ok (vs.take k, e) []) ∧
      (e = .eof ∨ e = .unexpectedEOF) ∧ (e = .eof ↔ t.Stops .decode s) ∧ (s = [] → e = .eof) := by
  obtain ⟨v₀, w₀, h₀, hw⟩ := hne
  exact readLog_cut t ht v₀ w₀ h₀ hw vs ws h n

/-- The whole stream: all values, then io.EOF. -/
theorem C102_whole (t : Ty) (ht : t.Strait) (hne : ∃ v w, t.Takes .decode v w ∧ w ≠ []) (vs : List t.Val) (ws : List Bytes) (h : Entries t vs ws) (fuel : Nat) (hf : vs.length < fuel) :
    (readLog t fuel).run ws.flatten = .ok (vs, .eof) [] := by
  obtain ⟨k, e, s, ⟨h1, h2, h3⟩, hs, hr, _, _, h4⟩ := C102_read t ht hne vs ws h ws.flatten.length
  have hl : vs.length = ws.length := h.length_eq
  have hk : ws.flatten = (ws.take k).flatten ++ (ws.drop k).flatten := by rw [← List.flatten_append, List.take_append_drop]
  rw [List.take_length] at hs hr
  have hse : s = (ws.drop k).flatten := List.append_cancel_left (hs.symm.trans hk)
  rcases h3 with h3 | h3
  · have : s = [] := by rw [hse, h3, List.drop_length]; rfl
    rw [← h4 this]
    have := hr fuel (by omega)
    rwa [List.take_of_length_le (by omega)] at this
  · exfalso
    have : (ws.take (k + 1)).flatten.length ≤ ws.flatten.length := by
      rw [show ws.flatten = (ws.take (k + 1)).flatten ++ (ws.drop (k + 1)).flatten by rw [← List.flatten_append, List.take_append_drop], List.length_append]
      omega
    omega

/-- Values are encoded one after the other to a writer that runs full. It has the beginning of the stream, and decoding in a loop gives back the values that were complete when it ran full.
The error of the writer is returned unless nothing but presence flags is missing. -/
theorem C102_crash (t : Ty) (he : t.Encodable) (hd : t.Decodable .decode) (ht : t.Strait) (hne : ∃ v w, t.Takes .decode v w ∧ w ≠ []) (vs : List t.Val) (hv : ∀ v ∈ vs, t.Wf v) (x : Err) (n : Nat) :
    ∃ ws a out k vs' e, List.Forall₂ (fun v w => (encode t v).Writes w) vs ws ∧ (writeLog t vs).runFull x n = .ok a out ∧ out = ws.flatten.take n ∧
      (a = some x ∨ a = none ∧ ∀ b ∈ ws.flatten.drop n, b = 0 ∨ b = 1) ∧
      Complete ws n k ∧ List.Forall₂ t.Same (vs.take k) vs' ∧ (e = .eof ∨ e = .unexpectedEOF) ∧ ∀ fuel, k < fuel → (readLog t fuel).run out = .ok (vs', e) [] := by
  have key : ∃ ws vs', List.Forall₂ (fun v w => (encode t v).Writes w) vs ws ∧ (writeLog t vs).run = .ok none ws.flatten ∧ List.Forall₂ t.Same vs vs' ∧ Entries t vs' ws := by
    induction vs with
    | nil => exact ⟨[], [], .nil, rfl, .nil, .nil⟩
    | cons v vs ih =>
      obtain ⟨ws, vs', h1, h2, h3, h4⟩ := ih fun v hm => hv v (List.mem_cons_of_mem _ hm)
      obtain ⟨w, hl, hw⟩ := C40_layout t v he (hv v (List.mem_cons_self ..))
      obtain ⟨v', hs, hr⟩ := C40_reads t v t.zero w hd (hv v (List.mem_cons_self ..)) (clean_zero t) hl
      have hr' : (decode t t.zero).runE .eof (w ++ []) = .ok (v', none) [] := hr .eof []
      obtain ⟨w', hw', hT⟩ := (C81_decode t ht .eof (w ++ []) v' []).1 hr'
      rw [List.append_nil, List.append_nil] at hw'
      cases hw'
      refine ⟨w :: ws, v' :: vs', .cons hw h1, ?_, .cons hs h3, .cons hT h4⟩
      exact Enc.Writes.bind hw h2
  obtain ⟨ws, vs', h1, h2, h3, h4⟩ := key
  obtain ⟨k, e, s, hk, _, hr, hee, _⟩ := C102_read t ht hne vs' ws h4 n
  have hF : (writeLog t vs).Fills AllFlags := by
    clear h1 h2 h3 hv
    induction vs with
    | nil => exact fills_none
    | cons v vs ih => exact fills_seq grows_flags (tyWrite_fills grows_flags t (.inl ⟨by simp [AllFlags], by simp [AllFlags]⟩) v) ih
  have hF := hF x n _ h2
  have h3' : List.Forall₂ t.Same (vs.take k) (vs'.take k) := List.forall₂_take k h3
  split at hF
  · rename_i hl
    refine ⟨ws, none, ws.flatten.take n, k, vs'.take k, e, h1, ?_, rfl, .inr ⟨rfl, ?_⟩, hk, h3', hee, hr⟩
    · rw [List.take_of_length_le hl]; exact hF
    · rw [List.drop_of_length_le hl]; simp
  · rcases hF with hF | ⟨hF, hm⟩
    · exact ⟨ws, some x, ws.flatten.take n, k, vs'.take k, e, h1, hF, rfl, .inl rfl, hk, h3', hee, hr⟩
    · exact ⟨ws, none, ws.flatten.take n, k, vs'.take k, e, h1, hF, rfl, .inr ⟨rfl, hm⟩, hk, h3', hee, hr⟩

/-- io.EOF does not mean that the stream ended after a value: the second string has lost all its bytes. -/
theorem C102_eof_violated : ∃ (vs : List Bytes) (ws : List Bytes), Entries (.basic .string) vs ws ∧ vs = [asc "a", asc "bc"] ∧ ws.flatten.take 3 = [1, 97, 2] ∧
    (readLog (.basic .string) 3).run (ws.flatten.take 3) = .ok ([asc "a"], .eof) [] :=
  ⟨[asc "a", asc "bc"], [[1, 97], [2, 98, 99]],
    .cons ⟨.inl rfl, [1], ⟨⟨[], 1, rfl, by simp, by decide⟩, by decide, by decide, by decide⟩, by decide, rfl⟩
      (.cons ⟨.inl rfl, [2], ⟨⟨[], 2, rfl, by simp, by decide⟩, by decide, by decide, by decide⟩, by decide, rfl⟩ .nil), rfl, rfl, rfl⟩

/-- Values that take no bytes: the loop does not end. -/
theorem C102_endless_violated (t : Ty) (ht : t.Strait) (v : t.Val) (h : t.Takes .decode v []) (s : Bytes) (fuel : Nat) : (readLog t fuel).run s = .diverge := by
  induction fuel with
  | zero => rfl
  | succ fuel ih =>
    have h1 : (decode t t.zero).runE .eof ([] ++ s) = .ok (v, none) s := (C81_decode t ht).reads h .eof s
    have ih : (readLog t fuel).runE .eof s = .diverge := ih
    show (decode t t.zero >>= _).runE .eof ([] ++ s) = _
    rw [Dec.runE_bind, h1]
    show (readLog t fuel >>= _).runE .eof s = _
    rw [Dec.runE_bind, ih]
    rfl

/-! ## Examples -/

/-- Three uint16, five bytes of six: two values, and io.ErrUnexpectedEOF. -/
example : (readLog (.basic .u16) 3).run [1, 0, 2, 0, 3] = .ok ([(1 : UInt16), (2 : UInt16)], .unexpectedEOF) [] := rfl
/-- The stream of C102_eof_violated in full. -/
example : (readLog (.basic .string) 3).run [1, 97, 2, 98, 99] = .ok ([asc "a", asc "bc"], .eof) [] := rfl
/-- The hypotheses are met by two values of type []uint16; the writer has room for six of eight bytes. -/
example := C102_crash (.slice (.basic .u16)) trivial (fun h => by cases h) trivial (by
    obtain ⟨w, h, ht⟩ := (C81_decode (.slice (.basic .u16)) trivial .eof [1, 1, 0] (some [(1 : UInt16)] : Option (List UInt16)) []).1 rfl
    exact ⟨_, w, ht, by rintro rfl; cases h⟩)
  [(some [(1 : UInt16)] : Option (List UInt16)), (some [(2 : UInt16), (3 : UInt16)] : Option (List UInt16))] (by
    intro v hv
    rcases List.mem_cons.1 hv with rfl | hv
    · exact ⟨by decide, by decide, fun x hx => trivial⟩
    · cases List.mem_singleton.1 hv
      exact ⟨by decide, by decide, fun x hx => trivial⟩) (.io 28) 6
example : (writeLog (.slice (.basic .u16)) [(some [(1 : UInt16)] : Option (List UInt16)), (some [(2 : UInt16), (3 : UInt16)] : Option (List UInt16))]).runFull (.io 28) 6 = .ok (some (.io 28)) [1, 1, 0, 2, 2, 0] ∧
    (readLog (.slice (.basic .u16)) 9).run [1, 1, 0, 2, 2, 0] = .ok ([(some [(1 : UInt16)] : Option (List UInt16))], .eof) [] := ⟨rfl, rfl⟩
/-- struct{} -/
example : (readLog (.struct .nil) 5).run [1] = .diverge := C102_endless_violated (.struct .nil) trivial () rfl [1] 5

end Verif
