import Verif.Go.Dec
import Verif.Go.Enc
/-! Helper lemmas about running decode and encode programs. -/
namespace Verif

namespace Dec
variable {α β : Type}

@[simp] theorem runE_ret (f : Err) (a : α) (bs : Bytes) : (Dec.ret a).runE f bs = .ok a bs := rfl
@[simp] theorem runE_pure (f : Err) (a : α) (bs : Bytes) : (pure a : Dec α).runE f bs = .ok a bs := rfl
@[simp] theorem runE_panic (f : Err) (w : String) (bs : Bytes) : (Dec.panic w : Dec α).runE f bs = .panic w := rfl
@[simp] theorem runE_diverge (f : Err) (bs : Bytes) : (Dec.diverge : Dec α).runE f bs = .diverge := rfl

theorem runE_bind' (f : Err) (p : Dec α) (g : α → Dec β) (bs : Bytes) :
    (p.bind g).runE f bs = (p.runE f bs).bind (fun a r => (g a).runE f r) := by
  induction p generalizing bs with
  | ret a => rfl
  | panic w => rfl
  | diverge => rfl
  | read n k ih =>
    simp only [Dec.bind, runE]
    split <;> exact ih _ _ _ _

@[simp] theorem runE_bind (f : Err) (p : Dec α) (g : α → Dec β) (bs : Bytes) :
    (p >>= g).runE f bs = (p.runE f bs).bind (fun a r => (g a).runE f r) := runE_bind' f p g bs

theorem runE_read_full (f : Err) (n : Nat) (k : Bytes → Nat → Option Err → Dec α) (xs rest : Bytes) (h : xs.length = n) :
    (Dec.read n k).runE f (xs ++ rest) = (k xs n none).runE f rest := by
  subst h
  simp [runE]

theorem runE_read_short (f : Err) (n : Nat) (k : Bytes → Nat → Option Err → Dec α) (xs : Bytes) (h : xs.length < n) :
    (Dec.read n k).runE f xs =
      (k (xs ++ List.replicate (n - xs.length) 0) xs.length (some (shortErr f xs.length))).runE f [] := by
  simp [runE, Nat.not_le.mpr h]

@[simp] theorem pure_bind' (a : α) (g : α → Dec β) : (pure a >>= g) = g a := rfl
@[simp] theorem ret_bind' (a : α) (g : α → Dec β) : (Dec.ret a >>= g) = g a := rfl
@[simp] theorem panic_bind' (w : String) (g : α → Dec β) : (Dec.panic w >>= g) = Dec.panic w := rfl
@[simp] theorem diverge_bind' (g : α → Dec β) : (Dec.diverge >>= g) = Dec.diverge := rfl

theorem bind_assoc' {γ : Type} (p : Dec α) (g : α → Dec β) (h : β → Dec γ) :
    ((p >>= g) >>= h) = (p >>= fun a => g a >>= h) := by
  change (p.bind g).bind h = p.bind (fun a => (g a).bind h)
  induction p with
  | ret a => rfl
  | panic w => rfl
  | diverge => rfl
  | read n k ih => simp only [Dec.bind]; congr; funext b c e; exact ih b c e

end Dec

@[simp] theorem Out.bind_ok {α β : Type} (a : α) (r : Bytes) (f : α → Bytes → Out β) : (Out.ok a r).bind f = f a r := rfl
@[simp] theorem Out.bind_panic {α β : Type} (w : String) (f : α → Bytes → Out β) :
    (Out.panic w : Out α).bind f = .panic w := rfl
@[simp] theorem Out.bind_diverge {α β : Type} (f : α → Bytes → Out β) : (Out.diverge : Out α).bind f = .diverge := rfl

namespace Enc
variable {α β : Type}

@[simp] theorem run_ret (a : α) : (Enc.ret a).run = .ok a [] := rfl
@[simp] theorem run_pure (a : α) : (pure a : Enc α).run = .ok a [] := rfl
@[simp] theorem run_panic (w : String) : (Enc.panic w : Enc α).run = .panic w := rfl
@[simp] theorem run_diverge : (Enc.diverge : Enc α).run = .diverge := rfl
@[simp] theorem pure_bind' (a : α) (g : α → Enc β) : (pure a >>= g) = g a := rfl
@[simp] theorem ret_bind' (a : α) (g : α → Enc β) : (Enc.ret a >>= g) = g a := rfl
@[simp] theorem panic_bind' (w : String) (g : α → Enc β) : (Enc.panic w >>= g) = Enc.panic w := rfl
@[simp] theorem diverge_bind' (g : α → Enc β) : (Enc.diverge >>= g) = Enc.diverge := rfl

end Enc

@[simp] theorem EOut.bind_ok {α β : Type} (a : α) (r : Bytes) (f : α → Bytes → EOut β) : (EOut.ok a r).bind f = f a r := rfl
@[simp] theorem EOut.bind_panic {α β : Type} (w : String) (f : α → Bytes → EOut β) :
    (EOut.panic w : EOut α).bind f = .panic w := rfl
@[simp] theorem EOut.bind_diverge {α β : Type} (f : α → Bytes → EOut β) : (EOut.diverge : EOut α).bind f = .diverge := rfl
@[simp] theorem EOut.prepend_ok {α : Type} (bs : Bytes) (a : α) (o : Bytes) :
    (EOut.ok a o).prepend bs = .ok a (bs ++ o) := rfl
@[simp] theorem EOut.prepend_panic {α : Type} (bs : Bytes) (w : String) :
    (EOut.panic w : EOut α).prepend bs = .panic w := rfl
@[simp] theorem EOut.prepend_diverge {α : Type} (bs : Bytes) : (EOut.diverge : EOut α).prepend bs = .diverge := rfl

theorem EOut.prepend_prepend {α : Type} (a b : Bytes) (o : EOut α) :
    (o.prepend b).prepend a = o.prepend (a ++ b) := by
  cases o <;> simp

@[simp] theorem EOut.prepend_nil {α : Type} (o : EOut α) : o.prepend [] = o := by cases o <;> simp

theorem Enc.run_bind' {α β : Type} (p : Enc α) (g : α → Enc β) :
    (p.bind g).run = p.run.bind (fun a o => (g a).run.prepend o) := by
  induction p with
  | ret a => simp [Enc.bind]
  | panic w => rfl
  | diverge => rfl
  | write bs k ih =>
    simp only [Enc.bind, Enc.run, ih]
    cases (k none).run with
    | ok a o => simp [EOut.prepend_prepend]
    | panic w => rfl
    | diverge => rfl

@[simp] theorem Enc.run_bind {α β : Type} (p : Enc α) (g : α → Enc β) :
    (p >>= g).run = p.run.bind (fun a o => (g a).run.prepend o) := Enc.run_bind' p g

theorem Enc.bind_assoc' {α β γ : Type} (p : Enc α) (g : α → Enc β) (h : β → Enc γ) :
    ((p >>= g) >>= h) = (p >>= fun a => g a >>= h) := by
  change (p.bind g).bind h = p.bind (fun a => (g a).bind h)
  induction p with
  | ret a => rfl
  | panic w => rfl
  | diverge => rfl
  | write n k ih => simp only [Enc.bind]; congr; funext e; exact ih e

/-! ### Readers -/

/-- A schedule with no faults. -/
def Ev.isChunk : Ev → Prop
  | .chunk _ => True
  | .fault _ _ => False

/-- One fault-free `Read`. -/
theorem Reader.read_spec (r : Reader) (want : Nat) (hw : want ≠ 0) (h : ∀ e ∈ r.sched, e.isChunk) :
    ∃ m, m ≤ want ∧ m ≤ r.data.length ∧
      (r.read want).1 = r.data.take m ∧ (r.read want).2.2.data = r.data.drop m ∧
      (r.read want).2.2.fin = r.fin ∧ (r.read want).2.2.early = r.early ∧
      (∀ e ∈ (r.read want).2.2.sched, e.isChunk) ∧
      ((r.read want).2.1 = none ∨ ((r.read want).2.1 = some r.fin ∧ m = r.data.length)) ∧
      ((r.read want).2.1 = none →
        (r.read want).2.2.sched.length + (r.data.drop m).length < r.sched.length + r.data.length) := by
  obtain ⟨data, sched, fin, early⟩ := r
  match sched, h with
  | .fault n e :: s, h => exact absurd (h (.fault n e) (by simp)) (by simp [Ev.isChunk])
  | .chunk n :: s, h =>
    have hs : ∀ e ∈ s, e.isChunk := fun e he => h e (by simp [he])
    by_cases hc : data = [] ∧ n ≠ 0
    · refine ⟨0, by omega, by omega, ?_⟩
      simp [Reader.read, hc]
      exact hs
    · refine ⟨min (min want n) data.length, by omega, Nat.min_le_right _ _, ?_⟩
      simp only [Reader.read, hc, if_false]
      refine ⟨?_, ?_, trivial, trivial, hs, ?_, ?_⟩
      · rw [List.take_eq_take_iff]; omega
      · apply List.ext_getElem?; intro i; simp only [List.getElem?_drop]
        by_cases hl : min want n ≤ data.length
        · rw [Nat.min_eq_left hl]
        · rw [List.getElem?_eq_none (by omega), List.getElem?_eq_none (by omega)]
      · by_cases hh : early = true ∧ data.length ≤ min want n ∧ data ≠ []
        · right; rw [if_pos hh]; exact ⟨rfl, by omega⟩
        · left; rw [if_neg hh]
      · intro _; simp; omega
  | [], h =>
    by_cases hc : data = []
    · refine ⟨0, by omega, by omega, ?_⟩
      simp [Reader.read, hc]
    · have hp : 0 < data.length := List.length_pos_iff.mpr hc
      refine ⟨min want data.length, by omega, Nat.min_le_right _ _, ?_⟩
      simp only [Reader.read, hc, if_false]
      refine ⟨?_, ?_, trivial, trivial, by simp, ?_, ?_⟩
      · rw [List.take_eq_take_iff]; omega
      · apply List.ext_getElem?; intro i; simp only [List.getElem?_drop]
        by_cases hl : want ≤ data.length
        · rw [Nat.min_eq_left hl]
        · rw [List.getElem?_eq_none (by omega), List.getElem?_eq_none (by omega)]
      · by_cases hh : early = true ∧ data.length ≤ want
        · right; rw [if_pos hh]; exact ⟨rfl, by omega⟩
        · left; rw [if_neg hh]
      · intro _; simp; omega

theorem Reader.readLoop_spec (N : Nat) (r : Reader) (hN : r.sched.length + r.data.length < N) (need : Nat) (acc : Bytes)
    (h : ∀ e ∈ r.sched, e.isChunk) :
    let o := r.readLoop need acc
    o.1 = acc ++ r.data.take need ∧ o.2.2.data = r.data.drop need ∧ o.2.2.fin = r.fin ∧ o.2.2.early = r.early ∧
      (∀ e ∈ o.2.2.sched, e.isChunk) ∧ (r.data.length < need → o.2.1 = some r.fin) := by
  induction N generalizing r need acc with
  | zero => omega
  | succ N ih =>
    intro o
    by_cases hn : need = 0
    · subst hn
      have : o = (acc, none, r) := by simp only [o]; unfold Reader.readLoop; simp
      rw [this]
      simp
      exact h
    · obtain ⟨m, hm1, hm2, h1, h2, h3, h4, h5, h6, h7⟩ := r.read_spec need hn h
      have ho : o = (match r.read need with
          | (got, some e, r') => (acc ++ got, some e, r')
          | (got, none, r') => r'.readLoop (need - got.length) (acc ++ got)) := by
        simp only [o]; rw [Reader.readLoop]; simp only [hn, dif_neg, not_false_eq_true]
        rcases r.read need with ⟨g, _ | e, r'⟩ <;> rfl
      rcases hr : r.read need with ⟨got, e, r'⟩
      rw [hr] at h1 h2 h3 h4 h5 h6 h7 ho
      simp only at h1 h2 h3 h4 h5 h6 h7
      cases e with
      | some e =>
        simp only at ho
        simp at h6
        rw [ho]
        have hl : (r.data.take need) = r.data.take m := by
          rw [List.take_eq_take_iff]; omega
        refine ⟨by simp [h1, hl], ?_, h3, h4, h5, fun _ => by simp [h6.1]⟩
        simp only [h2]
        rw [List.drop_eq_nil_of_le (by omega), List.drop_eq_nil_of_le (by omega)]
      | none =>
        simp only at ho
        have hg : got.length = m := by rw [h1]; simp; omega
        have := ih r' (by rw [h2]; have := h7 rfl; omega) (need - got.length) (acc ++ got) h5
        simp only at this
        rw [← ho] at this
        obtain ⟨a1, a2, a3, a4, a5, a6⟩ := this
        rw [h2] at a1 a2 a6
        rw [hg] at a1 a2 a6
        refine ⟨?_, ?_, by rw [a3, h3], by rw [a4, h4], a5, fun hlt => ?_⟩
        · rw [a1, h1, List.append_assoc, ← List.take_add]
          congr 2; omega
        · rw [a2, List.drop_drop]; congr 1; omega
        · rw [a6 (by simp; omega), h3]

theorem Reader.readFull_spec (r : Reader) (n : Nat) (h : ∀ e ∈ r.sched, e.isChunk) :
    let o := r.readFull n
    (if n ≤ r.data.length then o.1 = r.data.take n ∧ o.2.1 = n ∧ o.2.2.1 = none
     else o.1 = r.data ++ List.replicate (n - r.data.length) 0 ∧ o.2.1 = r.data.length ∧
       o.2.2.1 = some (shortErr r.fin r.data.length)) ∧
    o.2.2.2.data = r.data.drop n ∧ o.2.2.2.fin = r.fin ∧ (∀ e ∈ o.2.2.2.sched, e.isChunk) := by
  have := r.readLoop_spec _ (Nat.lt_succ_self _) n [] h
  simp only at this
  simp only [Reader.readFull]
  rcases hr : r.readLoop n [] with ⟨got, e, r'⟩
  rw [hr] at this
  simp only [List.nil_append] at this
  obtain ⟨h1, h2, h3, h4, h5, h6⟩ := this
  refine ⟨?_, h2, h3, h5⟩
  subst h1
  by_cases hn : n ≤ r.data.length
  · simp [hn]
  · simp only [hn, if_false]
    rw [List.take_of_length_le (by omega)]
    simp [hn, h6 (by omega)]

/-- Forget the reader. -/
def ROut.forget {α : Type} : ROut α → Out α
  | .ok a r => .ok a r.data
  | .panic w => .panic w
  | .diverge => .diverge

/-- Chunking does not matter: a fault-free reader gives the same result as reading the whole stream at once. -/
theorem Dec.runR_eq {α : Type} (p : Dec α) (r : Reader) (h : ∀ e ∈ r.sched, e.isChunk) :
    (p.runR r).forget = p.runE r.fin r.data := by
  induction p generalizing r with
  | ret a => rfl
  | panic w => rfl
  | diverge => rfl
  | read n k ih =>
    have := r.readFull_spec n h
    simp only at this
    simp only [runR, runE]
    rcases hr : r.readFull n with ⟨b, c, e, r'⟩
    rw [hr] at this
    obtain ⟨h1, h2, h3, h4⟩ := this
    simp only at h1 h2 h3 h4
    rw [ih b c e r' h4, h3, h2]
    by_cases hn : n ≤ r.data.length
    · simp only [hn, if_true] at h1 ⊢
      rw [h1.1, h1.2.1, h1.2.2]
    · simp only [hn, if_false] at h1 ⊢
      rw [h1.1, h1.2.1, h1.2.2, List.drop_eq_nil_of_le (by omega)]

/-- Locality: a run that never came short gives the same value, consumes the same bytes, on any longer stream, and reads
nothing beyond what it consumed. `never short` is expressed on the tree. -/
def Dec.fits {α : Type} : Dec α → Bytes → Prop
  | .read n k, bs => n ≤ bs.length ∧ (k (bs.take n) n none).fits (bs.drop n)
  | _, _ => True

theorem Dec.runE_append {α : Type} (f g : Err) (p : Dec α) (bs more : Bytes) (hf : p.fits bs) (a : α) (r : Bytes)
    (h : p.runE f bs = .ok a r) : p.runE g (bs ++ more) = .ok a (r ++ more) := by
  induction p generalizing bs with
  | ret b => simp [runE] at h ⊢; obtain ⟨rfl, rfl⟩ := h; simp
  | panic w => simp [runE] at h
  | diverge => simp [runE] at h
  | read n k ih =>
    obtain ⟨h1, h2⟩ := hf
    simp only [runE, h1, if_true] at h
    have : n ≤ (bs ++ more).length := by simp; omega
    simp only [runE, this, if_true]
    rw [List.take_append_of_le_length h1, List.drop_append_of_le_length h1]
    exact ih _ _ _ _ h2 h

/-- What is left is a suffix of the input. -/
theorem Dec.runE_suffix {α : Type} (f : Err) (p : Dec α) (bs : Bytes) (a : α) (r : Bytes)
    (h : p.runE f bs = .ok a r) : ∃ c, bs = c ++ r := by
  induction p generalizing bs with
  | ret b => simp [runE] at h; exact ⟨[], by simp [h.2]⟩
  | panic w => simp [runE] at h
  | diverge => simp [runE] at h
  | read n k ih =>
    simp only [runE] at h
    split at h
    · obtain ⟨c, hc⟩ := ih _ _ _ _ h
      exact ⟨bs.take n ++ c, by rw [List.append_assoc, ← hc, List.take_append_drop]⟩
    · obtain ⟨c, hc⟩ := ih _ _ _ _ h
      refine ⟨bs, ?_⟩
      have : r = [] := by
        have := congrArg List.length hc; simp at this; exact List.eq_nil_of_length_eq_zero (by omega)
      simp [this]

end Verif
