import Verif.Spec.AbiLog
import Verif.Lemmas.Log
import Verif.Props.AbiEnds
import Verif.Props.Observed
/-! Helper lemmas: values of an ABI type one after the other on one stream. -/
namespace Verif

section
variable {a : Abi} {depth : Nat} {n : Bytes}

theorem abiLog_stop {s : Bytes} {x : AV} {e : Err} (h : (a.decode depth n).run s = .ok (x, some e) []) {fuel : Nat} (hf : 0 < fuel) : (a.readLog depth n fuel).run s = .ok ([], e) [] := by
  cases fuel with
  | zero => omega
  | succ fuel =>
    have h : (a.decode depth n).runE .eof s = .ok (x, some e) [] := h
    show (a.decode depth n >>= _).runE .eof s = _
    rw [Dec.runE_bind, h]
    rfl

theorem abiLog_step {s s' r : Bytes} {x : AV} {xs : List AV} {e : Err} {fuel : Nat} (h : (a.decode depth n).run s = .ok (x, none) s') (h' : (a.readLog depth n fuel).run s' = .ok (xs, e) r) :
    (a.readLog depth n (fuel + 1)).run s = .ok (x :: xs, e) r := by
  have h : (a.decode depth n).runE .eof s = .ok (x, none) s' := h
  have h' : (a.readLog depth n fuel).runE .eof s' = .ok (xs, e) r := h'
  show (a.decode depth n >>= _).runE .eof s = _
  rw [Dec.runE_bind, h]
  show (a.readLog depth n fuel >>= _).runE .eof s' = _
  rw [Dec.runE_bind, h']
  rfl
end

/-- Decode of the beginning of a value. -/
theorem abi_cut {a : Abi} {n : Bytes} (hn : a.NoShort n) (hx : a.NoExtension n) {v : AV} {w : Bytes} (h : Accepts a n v w) {i : Nat} (hi : i < w.length) :
    ∃ D e, (∀ depth, D ≤ depth → ∃ x, (a.decode depth n).run (w.take i) = .ok (x, some e) []) ∧ (e = .eof ∨ e = .unexpectedEOF) ∧ (e = .eof ↔ ∃ x, StopsIn a .eof n (w.take i) x) ∧
      (w.take i = [] → a.Closed n → e = .eof) := by
  have hx' : a.NoExt n := fun m b arr ext opt hm hs => by
    cases ext
    · rfl
    · exact absurd hs (hx m b arr opt hm)
  obtain ⟨ts, hts⟩ := noShort_resolves hn
  obtain ⟨hr, t, ht⟩ := resolve_ready hts
  obtain ⟨N, hN⟩ := (C82_decode a n hn hx .eof w v []).2 ⟨w, by simp, h⟩
  have reads : ∀ depth, N ≤ depth → (a.decode depth n).Reads w v := fun depth hd fin r => by
    obtain ⟨M, hM⟩ := (C82_decode a n hn hx fin (w ++ r) v r).2 ⟨w, rfl, h⟩
    exact ((decode_steps hn hx).1 depth fin (w ++ r) v r).2 (by
      obtain ⟨w', e, hw'⟩ := ((decode_steps hn hx).1 depth .eof w v []).1 (hN depth hd)
      rw [List.append_nil] at e
      subst e
      exact ⟨w, rfl, hw'⟩)
  have cut := fun depth hd => C09_abi_cut a n hx' depth w v (reads depth hd) .eof i hi
  classical
  by_cases hs : ∃ x, StopsIn a .eof n (w.take i) x
  · obtain ⟨x, hs⟩ := hs
    obtain ⟨M, hM⟩ := (C89_stops a n hn .eof (w.take i) x []).2 ⟨hs, rfl⟩
    exact ⟨M, .eof, fun depth hd => ⟨x, hM depth hd⟩, .inl rfl, ⟨fun _ => ⟨x, hs⟩, fun _ => rfl⟩, fun _ _ => rfl⟩
  · refine ⟨N, .unexpectedEOF, fun depth hd => ?_, .inr rfl, ⟨(fun h => nomatch h), fun h => absurd h hs⟩, fun he hc => ?_⟩
    · obtain ⟨x, e, h1, h2⟩ := cut depth hd
      rcases h2 with rfl | ⟨_, rfl⟩
      · exact absurd ⟨x, ((C89_sound a n hn .eof depth _ x []).2 h1).1⟩ hs
      · exact ⟨x, h1⟩
    · exfalso
      obtain ⟨x, e, h1, h2⟩ := cut N (Nat.le_refl _)
      rw [he] at h1 hs
      have h3 := type_empty hr (known_of hts hc) N n t ht
      rw [show decodeTypeF ts N n = a.decode N n by simp only [Abi.decode, hts], h1] at h3
      rcases h3 with h3 | ⟨_, v', h3⟩ | ⟨_, v', h3⟩
      · cases h3
      · cases h3
        exact hs ⟨_, ((C89_sound a n hn .eof N _ _ []).2 h1).1⟩
      · cases h3

theorem abiLog_cut {a : Abi} {n : Bytes} (hn : a.NoShort n) (hx : a.NoExtension n) (v₀ : AV) (w₀ : Bytes) (h₀ : Accepts a n v₀ w₀) (hw : w₀ ≠ []) (vs : List AV) (ws : List Bytes)
    (h : List.Forall₂ (Accepts a n) vs ws) (i : Nat) :
    ∃ D k e s, Complete ws i k ∧ ws.flatten.take i = (ws.take k).flatten ++ s ∧
      (∀ depth, D ≤ depth → ∀ fuel, k < fuel → (a.readLog depth n fuel).run (ws.flatten.take i) = .ok (vs.take k, e) []) ∧
      (e = .eof ∨ e = .unexpectedEOF) ∧ (e = .eof ↔ ∃ x, StopsIn a .eof n s x) ∧ (s = [] → a.Closed n → e = .eof) := by
  induction h generalizing i with
  | nil =>
    obtain ⟨D, e, h1, h2, h3, h4⟩ := abi_cut hn hx h₀ (i := 0) (List.length_pos_iff.2 hw)
    rw [List.take_zero] at h1 h3 h4
    refine ⟨D, 0, e, [], ⟨Nat.le_refl _, Nat.zero_le _, .inl rfl⟩, by simp, fun depth hd fuel hf => ?_, h2, h3, h4⟩
    simp only [List.flatten_nil, List.take_nil]
    obtain ⟨x, h1⟩ := h1 depth hd
    exact abiLog_stop h1 hf
  | @cons v w vs ws hv _ ih =>
    by_cases hl : w.length ≤ i
    · obtain ⟨D, k, e, s, ⟨hk1, hk2, hk3⟩, hs, hr, h2, h3, h4⟩ := ih (i - w.length)
      have hb : (w :: ws).flatten.take i = w ++ ws.flatten.take (i - w.length) := by
        rw [List.flatten_cons, List.take_append, List.take_of_length_le hl]
      obtain ⟨N, hN⟩ := (C82_decode a n hn hx .eof (w ++ ws.flatten.take (i - w.length)) v (ws.flatten.take (i - w.length))).2 ⟨w, rfl, hv⟩
      refine ⟨D + N, k + 1, e, s, ⟨by simpa using hk1, ?_, ?_⟩, ?_, fun depth hd fuel hf => ?_, h2, h3, h4⟩
      · simp only [List.take_succ_cons, List.flatten_cons, List.length_append]; omega
      · rcases hk3 with hk3 | hk3
        · exact .inl (by simp [hk3])
        · right; simp only [List.take_succ_cons, List.flatten_cons, List.length_append] at hk3 ⊢; omega
      · rw [hb, hs, List.take_succ_cons, List.flatten_cons, List.append_assoc]
      · cases fuel with
        | zero => omega
        | succ fuel =>
          rw [hb, List.take_succ_cons]
          exact abiLog_step (hN depth (by omega)) (hr depth (by omega) fuel (by omega))
    · obtain ⟨D, e, h1, h2, h3, h4⟩ := abi_cut hn hx hv (i := i) (by omega)
      have hb : (w :: ws).flatten.take i = w.take i := by
        rw [List.flatten_cons, List.take_append_of_le_length (by omega)]
      refine ⟨D, 0, e, w.take i, ⟨Nat.zero_le _, Nat.zero_le _, .inr ?_⟩, by rw [hb]; rfl, fun depth hd fuel hf => ?_, h2, h3, h4⟩
      · simp; omega
      · rw [hb]
        obtain ⟨x, h1⟩ := h1 depth hd
        exact abiLog_stop h1 hf

end Verif
