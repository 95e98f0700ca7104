import Verif.Spec.Log
import Verif.Lemmas.FailsKnown
import Verif.Lemmas.Full
import Verif.Props.Takes
/-! Helper lemmas: values one after the other on one stream. -/
namespace Verif

/-- On no input the error is not io.ErrUnexpectedEOF. -/
def NotTorn (F : Err → Bytes → Failure → Prop) : Prop := ∀ x, F .eof [] x → x ≠ .err .unexpectedEOF

theorem leb_nonempty {lb s : Bytes} {n : Nat} (h : AnyLeb lb n) (e : [] = lb ++ s) : False := by
  obtain ⟨⟨i, l, rfl, _⟩, _⟩ := h
  simp at e
theorem count_nonempty {lb s : Bytes} {n : Nat} (h : AnyCount lb n) (e : [] = lb ++ s) : False := by
  rcases h with ⟨h, _⟩ | ⟨_, _, h, _⟩ <;> exact leb_nonempty h e

theorem torn_bare (n : Nat) : NotTorn (Torn n) := by
  rintro x ⟨_, rfl⟩
  simp
theorem leb_bare : NotTorn LebFault := by
  rintro x (⟨_, _, rfl⟩ | ⟨_, _, _, _, rfl⟩) <;> simp
theorem NotTorn.afterLeb {F : Nat → Err → Bytes → Failure → Prop} : NotTorn (AfterLeb F) := by
  rintro x ⟨n, lb, s, h, e, _⟩
  exact (leb_nonempty h e).elim
theorem NotTorn.after {F : Err → Bytes → Failure → Prop} (n : Nat) (hn : 0 < n) : NotTorn (After n F) := by
  rintro x ⟨h, s, hl, e, _⟩
  cases h with
  | nil => exact absurd hl (by simp; omega)
  | cons _ _ => cases e
theorem NotTorn.or {F K : Err → Bytes → Failure → Prop} (h : NotTorn F) (h' : NotTorn K) : NotTorn fun fin s x => F fin s x ∨ K fin s x := fun x h1 => h1.elim (h x) (h' x)
theorem sized_bare : NotTorn SizedFault := leb_bare.or .afterLeb

theorem inTurn_bare {α : Type} {R : α → Bytes → Bytes → Prop} (hR : ∀ x r, R x [] r → r = []) {xs : List α} {r : Bytes} (h : InTurn R xs [] r) : r = [] := by
  induction xs with
  | nil => cases h; rfl
  | cons x xs ih =>
    cases h with
    | cons h1 h2 =>
      rw [hR _ _ h1] at h2
      exact ih h2

theorem among_bare {α : Type} {R : α → Bytes → Bytes → Prop} {F : Bytes → Failure → Prop} (hR : ∀ x r, R x [] r → r = []) (h : ∀ x, F [] x → x ≠ .err .unexpectedEOF) {n : Nat} {x : Failure}
    (h1 : FaultAmong R F n [] x) : x ≠ .err .unexpectedEOF := by
  obtain ⟨_, m, _, h3, h2⟩ := h1
  rw [inTurn_bare hR h3] at h2
  exact h _ h2

theorem slice_bare {α : Type} {R : α → Bytes → Bytes → Prop} {F : Bytes → Failure → Prop} {size : Nat} {x : Failure} (h1 : FaultSlice size R F .eof [] x) : x ≠ .err .unexpectedEOF := by
  rcases h1 with h1 | ⟨n, _, s', h, e, _⟩
  · exact leb_bare _ h1
  · exact (leb_nonempty h e).elim

theorem loop_bare {α : Type} {R : α → Bytes → Bytes → Prop} {F : Bytes → Failure → Prop} {x : Failure} (h1 : FaultLoop R F .eof [] x) : x ≠ .err .unexpectedEOF := by
  rcases h1 with h1 | ⟨n, _, s', h, e, _⟩
  · exact leb_bare _ h1
  · exact (count_nonempty h e).elim

theorem basic_bare (b : Basic) : NotTorn b.Failure := by
  cases b
  case string => exact sized_bare
  case int => exact leb_bare
  case uint => exact leb_bare
  all_goals exact torn_bare _

theorem header_bare : NotTorn HeaderFault := (torn_bare 4).or ((NotTorn.after 4 (by decide)).or ((NotTorn.after 6 (by decide)).or ((NotTorn.after 10 (by decide)).or ((NotTorn.after 10 (by decide)).or (NotTorn.after 10 (by decide))))))

theorem chain_bare (c : ChainTy) : NotTorn c.Failure := by
  cases c
  case action =>
    rintro x (⟨_, rfl⟩ | ⟨h, s', hl, e, _⟩)
    · simp
    · cases h with
      | nil => cases hl
      | cons _ _ => cases e
  case blob => exact sized_bare
  case bytes => exact sized_bare
  case permissionLevel =>
    rintro x (⟨_, rfl⟩ | h)
    · simp
    · exact NotTorn.after 8 (by decide) _ h
  case publicKey =>
    rintro x (h | ⟨_, _, h, _⟩)
    · exact torn_bare _ _ h
    · cases h
  case signature =>
    rintro x (h | ⟨_, _, h, _⟩)
    · exact torn_bare _ _ h
    · cases h
  case transaction =>
    rintro x (h | ⟨h, hb, s, h1, e, _⟩)
    · exact header_bare _ h
    · cases hb with
      | nil =>
        obtain ⟨_, _, _, _, _, d, _, _, _, _, _, hd, e'⟩ := h1
        exact (leb_nonempty (s := []) hd (by simp only [List.nil_eq, List.append_eq_nil_iff] at e'; rw [e'.2]; rfl)).elim
      | cons _ _ => cases e
  case transactionExtension => exact (torn_bare 2).or (NotTorn.after 2 (by decide))
  case transactionHeader => exact header_bare
  case asset => exact (torn_bare 8).or (NotTorn.after 8 (by decide))
  case int128 => exact (torn_bare 8).or (NotTorn.after 8 (by decide))
  case uint128 => exact (torn_bare 8).or (NotTorn.after 8 (by decide))
  case extendedAsset => exact (torn_bare 8).or ((NotTorn.after 8 (by decide)).or (NotTorn.after 16 (by decide)))
  all_goals exact torn_bare _

theorem refuses_bare {m : Mode} {x : Failure} (h : m.Refuses x) : x ≠ .err .unexpectedEOF := by
  rcases h with ⟨_, rfl⟩ | ⟨_, rfl⟩ <;> simp
theorem unsupported_bare {x : Failure} (h : Unsupported x) : x ≠ .err .unexpectedEOF := by
  rw [show x = _ from h]
  simp

theorem gives_bare (t : Ty) (m : Mode) (v : t.Val) (r : Bytes) (h : t.Gives .eof m v [] r) : r = [] := by
  obtain ⟨c, hc⟩ := Dec.runE_suffix _ _ _ _ _ (((ty_does t m).gives .eof [] v r).2 h)
  exact (List.append_eq_nil_iff.1 hc.symm).2

mutual
theorem ty_bare : (t : Ty) → (m : Mode) → (x : Failure) → t.Fails .eof m [] x → x ≠ .err .unexpectedEOF
  | .basic b, m, x, h => by
      rcases h with ⟨_, h⟩ | ⟨_, _, h⟩ | h
      · exact basic_bare b _ h
      · exact unsupported_bare h
      · exact refuses_bare h
  | .named b, m, x, h => by
      rcases h with ⟨_, ⟨_, h⟩ | ⟨_, h⟩⟩ | h
      · exact basic_bare b _ h
      · exact unsupported_bare h
      · exact refuses_bare h
  | .unsupported, m, x, h => h.elim (fun h => unsupported_bare h.2) refuses_bare
  | .bytes, m, x, h => by
      rcases h with ⟨_, h⟩ | ⟨_, h | ⟨_, _, _, h1, e, _⟩⟩ | h
      · exact sized_bare _ h
      · exact leb_bare _ h
      · exact (leb_nonempty h1 e).elim
      · exact refuses_bare h
  | .chain c, m, x, h => h.elim (fun h => chain_bare c _ h.2) fun h => refuses_bare h.2
  | .ptr t, m, x, h => ty_bare t _ x h
  | .slice t, m, x, h => h.elim (fun h => slice_bare h.2) refuses_bare
  | .array n t, m, x, h => h.elim (fun h => among_bare (gives_bare t .elem) (ty_bare t .elem) h.2) refuses_bare
  | .map k e, m, x, h => h.elim (fun h => loop_bare h.2) refuses_bare
  | .struct fs, m, x, h => match m, h with
      | .variant i, h => by
        rcases h with ⟨_, rfl⟩ | ⟨_, ⟨_, rfl⟩ | ⟨_, h⟩⟩
        · simp
        · simp
        · exact member_bare fs i x h
      | .member, h => refuses_bare h
      | .elem, h => fields_bare fs false x h
      | .decode, h => fields_bare fs false x h
      | .value, h => fields_bare fs false x h
  | .ref _ _ _, m, x, h => by
      rcases h with ⟨_, rfl⟩ | ⟨_, h⟩
      · simp
      · exact refuses_bare h
theorem fields_bare : (fs : Fields) → (before : Bool) → (x : Failure) → fs.Fails .eof before [] x → x ≠ .err .unexpectedEOF
  | .nil, before, x, h => by
      rw [h.2]
      simp
  | .cons vis tag t fs, before, x, h => match vis, tag, h with
      | .blank, _, h => fields_bare fs before x h
      | .unexported, _, h => by
        rw [show x = .panic from h]
        simp
      | .exported, .optional, h => by
        rcases h with h | ⟨_, h, _⟩ | ⟨_, _, _, h, _⟩
        · exact torn_bare _ _ h
        · cases h
        · cases h
      | .exported, .variant, h => by
        rcases h with h | ⟨_, _, h, _⟩
        · exact torn_bare _ _ h
        · cases h
      | .exported, .extension, h => by
        rcases h with ⟨h, _⟩ | ⟨h, h'⟩ | ⟨v, m, h1, h⟩
        · exact ty_bare t .elem x h
        · exact fields_bare fs true x h'
        · rw [gives_bare t _ v m h1] at h
          exact fields_bare fs false x h
      | .exported, .none, h => by
        rcases h with h | ⟨v, m, h1, h⟩
        · exact ty_bare t .elem x h
        · rw [gives_bare t _ v m h1] at h
          exact fields_bare fs false x h
theorem member_bare : (fs : Fields) → (i : Nat) → (x : Failure) → fs.FailsMember .eof i [] x → x ≠ .err .unexpectedEOF
  | .nil, _, _, h => h.elim
  | .cons vis _ t _, 0, x, h => by
      rcases h with h | ⟨_, rfl, _⟩
      · exact ty_bare t .member x h
      · simp
  | .cons _ _ _ fs, n + 1, x, h => member_bare fs n x h
end

mutual
theorem strait_noExt : (t : Ty) → t.Strait → t.NoExt true
  | .ptr t, h => strait_noExt t h
  | .slice t, h => strait_noExt t h
  | .array _ t, h => strait_noExt t h
  | .map k e, h => ⟨strait_noExt k h.2.1, strait_noExt e h.2.2⟩
  | .struct fs, h => fields_noExt fs h
  | .basic _, _ | .named _, _ | .unsupported, _ | .bytes, _ | .ref _ _ _, _ => trivial
  | .chain _, _ => .inl rfl
theorem fields_noExt : (fs : Fields) → fs.Strait → fs.NoExt true
  | .nil, _ => trivial
  | .cons _ _ t fs, h => ⟨h.1, strait_noExt t h.2.1, fields_noExt fs h.2.2⟩
end

/-- Decode of the beginning of a value. -/
theorem decode_cut (t : Ty) (ht : t.Strait) (v : t.Val) (w : Bytes) (h : t.Takes .decode v w) (n : Nat) (hn : n < w.length) :
    ∃ x e, (decode t t.zero).run (w.take n) = .ok (x, some e) [] ∧ (e = .eof ∨ e = .unexpectedEOF) ∧ (e = .eof ↔ t.Stops .decode (w.take n)) ∧ (w.take n = [] → e = .eof) := by
  obtain ⟨x, e, h1, h2⟩ := C09_truncation true _ (ty_strict true t (strait_noExt t ht) .decode t.zero) w v ((C81_decode t ht).reads h) n hn
  have h1 : (decode t t.zero).runE .eof (w.take n) = .ok (x, some e) [] := h1
  refine ⟨x, e, h1, h2, ⟨?_, ?_⟩, fun he => ?_⟩
  · rintro rfl
    exact (((ty_does t .decode).stops .eof (w.take n) []).1 ⟨x, h1⟩).2.1
  · intro hs
    obtain ⟨y, hy⟩ := ((ty_does t .decode).stops .eof (w.take n) []).2 ⟨rfl, hs, rfl⟩
    have hy : (decode t t.zero).runE .eof (w.take n) = .ok (y, some .eof) [] := hy
    rw [h1] at hy
    cases hy
    rfl
  · rcases h2 with h2 | h2
    · exact h2
    · rw [he, h2] at h1
      exact absurd rfl (ty_bare t .decode _ ((ty_faults t .decode .eof [] (.err .unexpectedEOF)).1 ⟨x, [], h1⟩))

theorem readLog_stop (t : Ty) (s : Bytes) (x : t.Val) (e : Err) (h : (decode t t.zero).run s = .ok (x, some e) []) (fuel : Nat) (hf : 0 < fuel) : (readLog t fuel).run s = .ok ([], e) [] := by
  cases fuel with
  | zero => omega
  | succ fuel =>
    have h : (decode t t.zero).runE .eof s = .ok (x, some e) [] := h
    show (decode t t.zero >>= _).runE .eof s = _
    rw [Dec.runE_bind, h]
    rfl

theorem readLog_step (t : Ty) (s s' r : Bytes) (x : t.Val) (xs : List t.Val) (e : Err) (fuel : Nat) (h : (decode t t.zero).run s = .ok (x, none) s') (h' : (readLog t fuel).run s' = .ok (xs, e) r) :
    (readLog t (fuel + 1)).run s = .ok (x :: xs, e) r := by
  have h : (decode t t.zero).runE .eof s = .ok (x, none) s' := h
  have h' : (readLog t fuel).runE .eof s' = .ok (xs, e) r := h'
  show (decode t t.zero >>= _).runE .eof s = _
  rw [Dec.runE_bind, h]
  show (readLog t fuel >>= _).runE .eof s' = _
  rw [Dec.runE_bind, h']
  rfl

theorem readLog_cut (t : Ty) (ht : t.Strait) (v₀ : t.Val) (w₀ : Bytes) (h₀ : t.Takes .decode v₀ w₀) (hw : w₀ ≠ []) (vs : List t.Val) (ws : List Bytes) (h : Entries t vs ws) (n : Nat) :
    ∃ k e s, Complete ws n k ∧ ws.flatten.take n = (ws.take k).flatten ++ s ∧ (∀ fuel, k < fuel → (readLog t fuel).run (ws.flatten.take n) = .ok (vs.take k, e) []) ∧
      (e = .eof ∨ e = .unexpectedEOF) ∧ (e = .eof ↔ t.Stops .decode s) ∧ (s = [] → e = .eof) := by
  induction h generalizing n with
  | nil =>
    obtain ⟨x, e, h1, h2, h3, h4⟩ := decode_cut t ht v₀ w₀ h₀ 0 (List.length_pos_iff.2 hw)
    rw [List.take_zero] at h1 h3 h4
    refine ⟨0, e, [], ⟨Nat.le_refl _, Nat.zero_le _, .inl rfl⟩, by simp, fun fuel hf => ?_, h2, h3, h4⟩
    simp only [List.flatten_nil, List.take_nil]
    exact readLog_stop t [] x e h1 fuel hf
  | @cons v w vs ws hv _ ih =>
    by_cases hl : w.length ≤ n
    · obtain ⟨k, e, s, ⟨hk1, hk2, hk3⟩, hs, hr, h2, h3, h4⟩ := ih (n - w.length)
      have hb : (w :: ws).flatten.take n = w ++ ws.flatten.take (n - w.length) := by
        rw [List.flatten_cons, List.take_append, List.take_of_length_le hl]
      refine ⟨k + 1, e, s, ⟨by simpa using hk1, ?_, ?_⟩, ?_, fun fuel hf => ?_, h2, h3, h4⟩
      · simp only [List.take_succ_cons, List.flatten_cons, List.length_append]; omega
      · rcases hk3 with hk3 | hk3
        · exact .inl (by simp [hk3])
        · right; simp only [List.take_succ_cons, List.flatten_cons, List.length_append] at hk3 ⊢; omega
      · rw [hb, hs, List.take_succ_cons, List.flatten_cons, List.append_assoc]
      · cases fuel with
        | zero => omega
        | succ fuel =>
          rw [hb, List.take_succ_cons]
          exact readLog_step t _ _ _ v _ e fuel ((C81_decode t ht).reads hv .eof _) (hr fuel (by omega))
    · obtain ⟨x, e, h1, h2, h3, h4⟩ := decode_cut t ht v w hv n (by omega)
      have hb : (w :: ws).flatten.take n = w.take n := by
        rw [List.flatten_cons, List.take_append_of_le_length (by omega)]
      refine ⟨0, e, w.take n, ⟨Nat.zero_le _, Nat.zero_le _, .inr ?_⟩, by rw [hb]; rfl, fun fuel hf => ?_, h2, h3, h4⟩
      · simp; omega
      · rw [hb]
        exact readLog_stop t _ x e h1 fuel hf

theorem writeLog_run (t : Ty) (vs : List t.Val) (b : Bytes) (h : (writeLog t vs).run = .ok none b) :
    ∃ ws, b = ws.flatten ∧ List.Forall₂ (fun v w => (encode t v).run = .ok none w) vs ws := by
  induction vs generalizing b with
  | nil => cases h; exact ⟨[], rfl, .nil⟩
  | cons v vs ih =>
    obtain ⟨r, b₁, b₂, h1, h2, rfl⟩ := run_bind_ok h
    cases r with
    | some x => cases h2
    | none =>
      obtain ⟨ws, rfl, hw⟩ := ih b₂ h2
      exact ⟨b₁ :: ws, rfl, .cons h1 hw⟩

end Verif
