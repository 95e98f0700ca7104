import Verif.Lemmas.Run
import Verif.Spec.Codec
/-!
Functions that give up on the first failed read or write. `Strict s` (s = false): after any failed read the function returns an error
whatever happens later. `Strict true` (sticky): the same, assuming that once a read has failed all later ones fail too (true of
in-memory streams and of readers without transient faults).
-/
namespace Verif

/-- A set of errors closed under what `io.ReadFull`/`binary.ReadUvarint` do to `io.EOF`. -/
def ErrClosed (P : Err → Prop) : Prop := P .eof → P .unexpectedEOF

/-- The function returns, with an error in `P`, assuming that failed reads deliver errors in `P`. -/
def Dec.AllErr {α : Type} (s : Bool) (P : Err → Prop) : Dec (α × Option Err) → Prop
  | .ret (_, some e) => P e
  | .ret (_, none) => False
  | .panic _ => False
  | .diverge => False
  | .read n k => (if s then 0 < n else ∀ b c, (k b c none).AllErr s P) ∧ ∀ b c e, P e → (k b c (some e)).AllErr s P

/-- After the first failed read the function only returns errors. -/
def Dec.StrictP {α : Type} (s : Bool) (P : Err → Prop) : Dec (α × Option Err) → Prop
  | .read n k => 0 < n ∧ (∀ b c e, P e → (k b c (some e)).AllErr s P) ∧ ∀ b, b.length = n → (k b n none).StrictP s P
  | _ => True

def Dec.Strict {α : Type} (s : Bool) (p : Dec (α × Option Err)) : Prop := ∀ P, ErrClosed P → p.StrictP s P

theorem Dec.AllErr.bind {α β : Type} {s : Bool} {P : Err → Prop} {p : Dec (α × Option Err)} {g : α × Option Err → Dec (β × Option Err)}
    (hp : p.AllErr s P) (hg : ∀ a e, P e → (g (a, some e)).AllErr s P) : (p >>= g).AllErr s P := by
  change (Dec.bind p g).AllErr s P
  induction p with
  | ret a =>
    obtain ⟨a, _ | e⟩ := a
    · exact hp.elim
    · exact hg a e hp
  | panic w => exact hp.elim
  | diverge => exact hp.elim
  | read n k ih =>
    obtain ⟨h1, h2⟩ := hp
    refine ⟨?_, fun b c e he => ih b c (some e) (h2 b c e he)⟩
    cases s with
    | true => exact h1
    | false => intro b c; exact ih b c none (h1 b c)

theorem Dec.StrictP.bind {α β : Type} {s : Bool} {P : Err → Prop} {p : Dec (α × Option Err)} {g : α × Option Err → Dec (β × Option Err)}
    (hp : p.StrictP s P) (hg : ∀ r, (g r).StrictP s P) (he : ∀ a e, P e → (g (a, some e)).AllErr s P) :
    (p >>= g).StrictP s P := by
  change (Dec.bind p g).StrictP s P
  induction p with
  | ret a => exact hg a
  | panic w => trivial
  | diverge => trivial
  | read n k ih =>
    obtain ⟨h0, h1, h2⟩ := hp
    exact ⟨h0, fun b c e hPe => (h1 b c e hPe).bind he, fun b hb => ih b n none (h2 b hb)⟩

/-- Conjoin an invariant of the values a function can return. -/
def Dec.AllRet {α : Type} (Q : α → Prop) : Dec α → Prop
  | .ret a => Q a
  | .panic _ => True
  | .diverge => True
  | .read _ k => ∀ b c e, (k b c e).AllRet Q

theorem Dec.AllErr.run {α : Type} {s : Bool} {P : Err → Prop} {p : Dec (α × Option Err)} (h : p.AllErr s P) (fin : Err) (hf : P fin)
    : ∃ a e, p.runE fin [] = .ok (a, some e) [] ∧ P e := by
  induction p with
  | ret a =>
    obtain ⟨a, _ | e⟩ := a
    · exact h.elim
    · exact ⟨a, e, rfl, h⟩
  | panic w => exact h.elim
  | diverge => exact h.elim
  | read n k ih =>
    obtain ⟨h1, h2⟩ := h
    by_cases hn : n = 0
    · subst hn
      cases s with
      | true => simp at h1
      | false =>
        simp only [Dec.runE, List.length_nil, Nat.le_refl, if_true, List.take_nil, List.drop_nil]
        exact ih _ _ _ (h1 _ _)
    · rw [Dec.runE_read_short _ _ _ _ (by simp; omega)]
      exact ih _ _ _ (h2 _ _ _ (by simpa [shortErr] using hf))

/-- A strict function that returns a nil error never came short. -/
theorem Dec.StrictP.fits {α : Type} {s : Bool} {P : Err → Prop} {p : Dec (α × Option Err)} (h : p.StrictP s P) (fin : Err)
    (hc : ErrClosed P) (hf : P fin) (bs : Bytes) (a : α) (r : Bytes) (hr : p.runE fin bs = .ok (a, none) r) : p.fits bs := by
  induction p generalizing bs with
  | ret a => trivial
  | panic w => trivial
  | diverge => trivial
  | read n k ih =>
    obtain ⟨h0, h1, h2⟩ := h
    by_cases hn : n ≤ bs.length
    · simp only [Dec.runE, hn, if_true] at hr
      exact ⟨hn, ih _ _ _ (h2 _ (by simp; omega)) _ hr⟩
    · rw [Dec.runE_read_short _ _ _ _ (by omega)] at hr
      have hp : P (shortErr fin bs.length) := by
        unfold shortErr; split
        · rename_i h; exact hc (h.2 ▸ hf)
        · exact hf
      obtain ⟨a', e', h', _⟩ := (h1 _ _ _ hp).run fin hf
      rw [h'] at hr
      simp at hr

/-- Truncation: every proper prefix of what a strict function consumed makes it fail. -/
theorem Dec.StrictP.trunc {α : Type} {s : Bool} {P : Err → Prop} {p : Dec (α × Option Err)} (h : p.StrictP s P) (fin : Err)
    (hc : ErrClosed P) (hf : P fin) (bs : Bytes) (a : α) (hfit : p.fits bs) (hr : p.runE fin bs = .ok (a, none) [])
    (n : Nat) (hn : n < bs.length) : ∃ a' e, p.runE fin (bs.take n) = .ok (a', some e) [] ∧ P e := by
  induction p generalizing bs n with
  | ret b => simp [Dec.runE] at hr; rw [hr.2] at hn; simp at hn
  | panic w => simp [Dec.runE] at hr
  | diverge => simp [Dec.runE] at hr
  | read m k ih =>
    obtain ⟨h0, h1, h2⟩ := h
    obtain ⟨f1, f2⟩ := hfit
    simp only [Dec.runE, f1, if_true] at hr
    by_cases hm : m ≤ n
    · have hl : m ≤ (bs.take n).length := by simp; omega
      simp only [Dec.runE, hl, if_true]
      have e1 : (bs.take n).take m = bs.take m := by rw [List.take_take]; congr 1; omega
      have e2 : (bs.take n).drop m = (bs.drop m).take (n - m) := by rw [List.drop_take]
      rw [e1, e2]
      exact ih _ _ _ (h2 _ (by simp; omega)) _ f2 hr _ (by simp; omega)
    · have hl : (bs.take n).length < m := by simp; omega
      rw [Dec.runE_read_short _ _ _ _ hl]
      refine (h1 _ _ _ ?_).run fin hf
      unfold shortErr; split
      · rename_i h; exact hc (h.2 ▸ hf)
      · exact hf

/-- The errors a stream that ends with `fin` can produce. -/
def StreamErr (fin e : Err) : Prop := e = fin ∨ (fin = .eof ∧ e = .unexpectedEOF)

theorem StreamErr.closed (fin : Err) : ErrClosed (StreamErr fin) := by
  intro h
  rcases h with h | h
  · exact Or.inr ⟨h.symm, rfl⟩
  · exact Or.inr ⟨h.1, rfl⟩

theorem Dec.Strict.truncated {α : Type} {s : Bool} {p : Dec (α × Option Err)} (h : p.Strict s) {bs : Bytes} {a : α} (hr : p.Reads bs a)
    (fin : Err) (n : Nat) (hn : n < bs.length) : ∃ a' e, p.runE fin (bs.take n) = .ok (a', some e) [] ∧ StreamErr fin e := by
  have h0 := hr fin []
  rw [List.append_nil] at h0
  have hP := h (StreamErr fin) (StreamErr.closed fin)
  exact hP.trunc fin (StreamErr.closed fin) (Or.inl rfl) bs a
    (hP.fits fin (StreamErr.closed fin) (Or.inl rfl) bs a [] h0) h0 n hn

theorem Dec.Strict.reads {α : Type} {s : Bool} {p : Dec (α × Option Err)} (h : p.Strict s) (fin : Err) {c : Bytes} {a : α}
    (hr : p.runE fin c = .ok (a, none) []) : p.Reads c a := by
  intro g rest
  have hP := h (fun _ => True) (fun _ => trivial)
  have := Dec.runE_append fin g p c rest (hP.fits fin (fun _ => trivial) trivial c _ _ hr) _ _ hr
  simpa using this

/-- Success on a stream means success on exactly the consumed bytes, whatever follows them. -/
theorem Dec.fits_take {α : Type} (f : Err) (p : Dec α) (c r : Bytes) (a : α) (hf : p.fits (c ++ r)) (hr : p.runE f (c ++ r) = .ok a r) :
    p.fits c ∧ p.runE f c = .ok a [] := by
  induction p generalizing c with
  | ret b => simp [Dec.runE] at hr ⊢; exact ⟨trivial, hr⟩
  | panic w => simp [Dec.runE] at hr
  | diverge => simp [Dec.runE] at hr
  | read n k ih =>
    obtain ⟨f1, f2⟩ := hf
    have hr' := hr
    simp only [Dec.runE, f1, if_true] at hr
    obtain ⟨d, hd⟩ := Dec.runE_suffix _ _ _ _ _ hr
    have hl := congrArg List.length hd
    simp at hl f1
    have hn : n ≤ c.length := by omega
    rw [List.take_append_of_le_length hn, List.drop_append_of_le_length hn] at hr f2
    obtain ⟨g1, g2⟩ := ih _ _ _ _ f2 hr
    refine ⟨⟨hn, g1⟩, ?_⟩
    simp only [Dec.runE, hn, if_true]; exact g2

theorem Dec.Strict.local {α : Type} {s : Bool} {p : Dec (α × Option Err)} (h : p.Strict s) (fin : Err) (bs : Bytes) (a : α) (r : Bytes)
    (hr : p.runE fin bs = .ok (a, none) r) : ∃ c, bs = c ++ r ∧ p.Reads c a := by
  obtain ⟨c, rfl⟩ := Dec.runE_suffix _ _ _ _ _ hr
  have hP := h (fun _ => True) (fun _ => trivial)
  have hfit := hP.fits fin (fun _ => trivial) trivial _ _ _ hr
  exact ⟨c, rfl, h.reads fin (Dec.fits_take fin p c r _ hfit hr).2⟩

/-! ### Encoders -/

/-- After the first failed write the function returns its error. -/
def Enc.Strict : Enc (Option Err) → Prop
  | .write _ k => (∀ e, k (some e) = .ret (some e)) ∧ (k none).Strict
  | _ => True

theorem Enc.Strict.bindE {p : Enc (Option Err)} {g : Option Err → Enc (Option Err)} (hp : p.Strict) (hg : ∀ e, g (some e) = .ret (some e))
    (hn : (g none).Strict) : (p >>= g).Strict := by
  change (Enc.bind p g).Strict
  induction p with
  | ret e =>
    cases e with
    | none => exact hn
    | some e => show (g (some e)).Strict; rw [hg e]; trivial
  | panic w => trivial
  | diverge => trivial
  | write bs k ih => exact ⟨fun e => by show Enc.bind (k (some e)) g = _; rw [hp.1 e]; exact hg e, ih none hp.2⟩

theorem Enc.Strict.write_ret (bs : Bytes) : (Enc.write bs Enc.ret).Strict := ⟨fun _ => rfl, trivial⟩

end Verif

namespace Verif

/-! ### Encoders over writers that keep failing -/

/-- Assuming every write fails: the function does not return a nil error. -/
def Enc.AllErrS : Enc (Option Err) → Prop
  | .ret e => e ≠ none
  | .panic _ => True
  | .diverge => True
  | .write _ k => ∀ e, (k (some e)).AllErrS

/-- After the first failed write, with all later writes failing, the function does not return a nil error. -/
def Enc.StrictS : Enc (Option Err) → Prop
  | .write _ k => (∀ e, (k (some e)).AllErrS) ∧ (k none).StrictS
  | _ => True

theorem Enc.Strict.sticky {p : Enc (Option Err)} (h : p.Strict) : p.StrictS := by
  induction p with
  | ret e => trivial
  | panic _ => trivial
  | diverge => trivial
  | write bs k ih => exact ⟨fun e => by rw [h.1 e]; show some e ≠ none; simp, ih none h.2⟩

theorem Enc.AllErrS.runW {p : Enc (Option Err)} (h : p.AllErrS) (w : Nat → WEv) (hw : ∀ i, ∃ n e, w i = .fail n e) (e : Option Err) (out : Bytes) (f : Bool)
    (hr : p.runW w = .ok e out f) : e ≠ none := by
  induction p generalizing w out f with
  | ret e' =>
    simp only [Enc.runW, WOut.ok.injEq] at hr
    rw [← hr.1]; exact h
  | panic _ => simp [Enc.runW] at hr
  | diverge => simp [Enc.runW] at hr
  | write bs k ih =>
    obtain ⟨n, e', h0⟩ := hw 0
    simp only [Enc.runW, h0] at hr
    cases hh : (k (some e')).runW (fun i => w (i + 1)) with
    | ok a o g =>
      rw [hh] at hr
      simp [WOut.prepend] at hr
      obtain ⟨rfl, _⟩ := hr
      exact ih _ (h _) _ (fun i => hw (i + 1)) _ _ hh
    | panic _ => rw [hh] at hr; simp [WOut.prepend] at hr
    | diverge => rw [hh] at hr; simp [WOut.prepend] at hr

theorem Enc.StrictS.reports {p : Enc (Option Err)} (h : p.StrictS) (w : Nat → WEv)
    (hw : ∀ i n e, w i = .fail n e → ∃ n' e', w (i + 1) = .fail n' e') (e : Option Err) (out : Bytes) (hr : p.runW w = .ok e out true) : e ≠ none := by
  induction p generalizing w out with
  | ret e' => simp [Enc.runW] at hr
  | panic _ => simp [Enc.runW] at hr
  | diverge => simp [Enc.runW] at hr
  | write bs k ih =>
    simp only [Enc.runW] at hr
    split at hr
    · cases hh : (k none).runW (fun i => w (i + 1)) with
      | ok a o f =>
        rw [hh] at hr
        simp [WOut.prepend] at hr
        obtain ⟨rfl, _, rfl⟩ := hr
        exact ih none h.2 _ (fun i => hw (i + 1)) _ hh
      | panic _ => rw [hh] at hr; simp [WOut.prepend] at hr
      | diverge => rw [hh] at hr; simp [WOut.prepend] at hr
    · rename_i n e' h0
      have hall : ∀ i, ∃ n e, w (i + 1) = .fail n e := by
        intro i
        induction i with
        | zero => exact hw 0 _ _ h0
        | succ i ih => obtain ⟨n, e, hi⟩ := ih; exact hw _ _ _ hi
      cases hh : (k (some e')).runW (fun i => w (i + 1)) with
      | ok a o f =>
        rw [hh] at hr
        simp [WOut.prepend] at hr
        obtain ⟨rfl, _⟩ := hr
        exact (h.1 e').runW _ hall _ _ _ hh
      | panic _ => rw [hh] at hr; simp [WOut.prepend] at hr
      | diverge => rw [hh] at hr; simp [WOut.prepend] at hr

theorem Enc.AllErrS.bindE {p : Enc (Option Err)} {g : Option Err → Enc (Option Err)} (hp : p.AllErrS) (hg : ∀ e, (g (some e)).AllErrS) : (p >>= g).AllErrS := by
  change (Enc.bind p g).AllErrS
  induction p with
  | ret e =>
    cases e with
    | none => exact absurd rfl hp
    | some e => exact hg e
  | panic w => trivial
  | diverge => trivial
  | write bs k ih => intro e; exact ih _ (hp e)

theorem Enc.StrictS.bindE {p : Enc (Option Err)} {g : Option Err → Enc (Option Err)} (hp : p.StrictS) (hg : ∀ e, (g (some e)).AllErrS)
    (hn : ∀ r, (g r).StrictS) : (p >>= g).StrictS := by
  change (Enc.bind p g).StrictS
  induction p with
  | ret e => exact hn e
  | panic w => trivial
  | diverge => trivial
  | write bs k ih => exact ⟨fun e => (hp.1 e).bindE hg, ih none hp.2⟩

theorem Enc.StrictS.seq {p q : Enc (Option Err)} (hp : p.StrictS) (hq : q.StrictS) :
    (p >>= fun e => match e with | some e => Pure.pure (some e) | none => q).StrictS := by
  refine hp.bindE (fun e => ?_) ?_
  · show some e ≠ none
    simp
  · rintro (_ | e)
    · exact hq
    · trivial

end Verif
