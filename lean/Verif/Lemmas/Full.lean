import Verif.Spec.Full
import Verif.Props.ReflectStream
/-! Helper lemmas: writers that run full. -/
namespace Verif

theorem prepend_prepend {α : Type} (x y : Bytes) (o : EOut α) : (o.prepend y).prepend x = o.prepend (x ++ y) := by
  cases o <;> simp [EOut.prepend, EOut.bind]

theorem runFull_bind {α β : Type} (e : Err) (p : Enc α) (g : α → Enc β) (n : Nat) :
    (p >>= g).runFull e n = (p.runFull e n).bind fun a o => ((g a).runFull e (n - o.length)).prepend o := by
  change (Enc.bind p g).runFull e n = _
  induction p generalizing n with
  | ret a => simp [Enc.bind, Enc.runFull, EOut.bind, EOut.prepend]; cases (g a).runFull e n <;> simp
  | panic w => rfl
  | diverge => rfl
  | write bs k ih =>
    simp only [Enc.bind, Enc.runFull]
    by_cases h : bs.length ≤ n
    · rw [if_pos h, if_pos h, ih]
      cases (k none).runFull e (n - bs.length) with
      | ok a o =>
        simp only [EOut.prepend, EOut.bind, List.length_append, ← Nat.sub_sub]
        exact prepend_prepend _ _ _
      | panic w => rfl
      | diverge => rfl
    · rw [if_neg h, if_neg h, ih]
      cases (k (some e)).runFull e 0 with
      | ok a o =>
        simp only [EOut.prepend, EOut.bind, List.length_append, List.length_take]
        rw [show n - (min n bs.length + o.length) = 0 - o.length by omega]
        exact prepend_prepend _ _ _
      | panic w => rfl
      | diverge => rfl

theorem run_bind_ok {α β : Type} {p : Enc α} {g : α → Enc β} {c : β} {b : Bytes} (h : (p >>= g).run = .ok c b) :
    ∃ a b₁ b₂, p.run = .ok a b₁ ∧ (g a).run = .ok c b₂ ∧ b = b₁ ++ b₂ := by
  change (Enc.bind p g).run = _ at h
  induction p generalizing b with
  | ret a => exact ⟨a, [], b, rfl, h, rfl⟩
  | panic w => cases h
  | diverge => cases h
  | write bs k ih =>
    change ((Enc.bind (k none) g).run).prepend bs = _ at h
    cases hk : (Enc.bind (k none) g).run with
    | ok c' b' =>
      rw [hk] at h
      cases h
      obtain ⟨a, b₁, b₂, h1, h2, rfl⟩ := ih none hk
      exact ⟨a, bs ++ b₁, b₂, by show ((k none).run).prepend bs = _; rw [h1]; rfl, h2, by simp⟩
    | panic w => rw [hk] at h; cases h
    | diverge => rw [hk] at h; cases h

/-- Whatever is encoded: with enough room nothing changes, otherwise the writer has the first n bytes (unless the function panics when a write fails). -/
theorem runFull_any {α : Type} (e : Err) (p : Enc α) (n : Nat) (a : α) (b : Bytes) (h : p.run = .ok a b) :
    (b.length ≤ n → p.runFull e n = .ok a b) ∧ (n < b.length → ∀ a' out, p.runFull e n = .ok a' out → out = b.take n) := by
  have full : ∀ (q : Enc α) a' out, q.runFull e 0 = .ok a' out → out = [] := by
    intro q
    induction q with
    | ret a => intro a' out h; cases h; rfl
    | panic w => intro a' out h; cases h
    | diverge => intro a' out h; cases h
    | write bs k ih =>
      intro a' out h
      simp only [Enc.runFull] at h
      split at h
      · rename_i hb
        cases List.eq_nil_of_length_eq_zero (Nat.le_zero.1 hb)
        cases hk : (k none).runFull e (0 - [].length) with
        | ok c o => rw [hk] at h; cases h; exact ih none _ _ hk
        | panic w => rw [hk] at h; cases h
        | diverge => rw [hk] at h; cases h
      · cases hk : (k (some e)).runFull e 0 with
        | ok c o => rw [hk] at h; cases h; simpa using ih (some e) _ _ hk
        | panic w => rw [hk] at h; cases h
        | diverge => rw [hk] at h; cases h
  induction p generalizing n b with
  | ret a => cases h; exact ⟨fun _ => rfl, fun h => absurd h (by simp)⟩
  | panic w => cases h
  | diverge => cases h
  | write bs k ih =>
    have h' : ((k none).run).prepend bs = .ok a b := h
    cases hk : (k none).run with
    | panic w => rw [hk] at h'; cases h'
    | diverge => rw [hk] at h'; cases h'
    | ok c o =>
      rw [hk] at h'
      cases h'
      constructor
      · intro hl
        rw [List.length_append] at hl
        simp only [Enc.runFull]
        rw [if_pos (by omega), (ih none (n - bs.length) o hk).1 (by omega)]
        rfl
      · intro hl a' out hr
        rw [List.length_append] at hl
        simp only [Enc.runFull] at hr
        split at hr
        · rename_i hb
          cases hf : (k none).runFull e (n - bs.length) with
          | ok c o' =>
            rw [hf] at hr; cases hr
            rw [(ih none (n - bs.length) o hk).2 (by omega) _ _ hf, List.take_append, List.take_of_length_le hb]
          | panic w => rw [hf] at hr; cases hr
          | diverge => rw [hf] at hr; cases hr
        · rename_i hb
          cases hf : (k (some e)).runFull e 0 with
          | ok c o' =>
            rw [hf] at hr; cases hr
            rw [full _ _ _ hf, List.take_append_of_le_length (by omega), List.append_nil]
          | panic w => rw [hf] at hr; cases hr
          | diverge => rw [hf] at hr; cases hr

/-- What may be missing: closed under what is written later -/
def Grows (Q : Bytes → Prop) : Prop := ∀ m m', Q m → m' = [] ∨ Q m' → Q (m ++ m')

theorem grows_none : Grows fun _ => False := fun _ _ h => h.elim
theorem grows_flags : Grows AllFlags := fun m m' h h' x hx => by
  rcases List.mem_append.1 hx with hx | hx
  · exact h x hx
  · rcases h' with rfl | h'
    · cases hx
    · exact h' x hx
theorem grows_first : Grows FlagFirst := fun _ m' h _ => by
  obtain ⟨x, r, rfl, hx⟩ := h
  exact ⟨x, r ++ m', rfl, hx⟩

theorem fills_none {Q : Bytes → Prop} : (Pure.pure none : Enc (Option Err)).Fills Q := fun e n b h => by cases h; rw [if_pos (by simp)]; rfl
theorem fills_error {Q : Bytes → Prop} (x : Err) : (Pure.pure (some x) : Enc (Option Err)).Fills Q := fun e n b h => by cases h
theorem fills_panic {Q : Bytes → Prop} (w : String) : (Enc.panic w : Enc (Option Err)).Fills Q := fun e n b h => by cases h
theorem fills_diverge {Q : Bytes → Prop} : (Enc.diverge : Enc (Option Err)).Fills Q := fun e n b h => by cases h

theorem Enc.Strict.fills {p : Enc (Option Err)} (hp : p.Strict) (Q : Bytes → Prop) : p.Fills Q := by
  intro e n b h
  by_cases hn : b.length ≤ n
  · rw [if_pos hn]; exact (runFull_any e p n none b h).1 hn
  rw [if_neg hn]
  left
  induction p generalizing n b with
  | ret a => cases h; exact absurd (Nat.zero_le _) hn
  | panic w => cases h
  | diverge => cases h
  | write bs k ih =>
    have h' : ((k none).run).prepend bs = .ok none b := h
    cases hk : (k none).run with
    | panic w => rw [hk] at h'; cases h'
    | diverge => rw [hk] at h'; cases h'
    | ok c o =>
      rw [hk] at h'
      cases h'
      rw [List.length_append] at hn
      simp only [Enc.runFull]
      by_cases hb : bs.length ≤ n
      · rw [if_pos hb, ih none hp.2 (n - bs.length) o hk (by omega), List.take_append, List.take_of_length_le hb]; rfl
      · rw [if_neg hb, hp.1 e, List.take_append_of_le_length (by omega)]
        show EOut.ok (some e) (bs.take n ++ []) = _
        rw [List.append_nil]

/-- One after the other, as long as there is no error -/
theorem fills_seq {Q : Bytes → Prop} (hQ : Grows Q) {p q : Enc (Option Err)} (hp : p.Fills Q) (hq : q.Fills Q) :
    (p >>= fun r => match r with | some e => Pure.pure (some e) | none => q).Fills Q := by
  intro e n b h
  by_cases hn : b.length ≤ n
  · rw [if_pos hn]; exact (runFull_any e _ n none b h).1 hn
  rw [if_neg hn]
  obtain ⟨r, b₁, b₂, h1, h2, rfl⟩ := run_bind_ok h
  cases r with
  | some x => cases h2
  | none =>
    rw [List.length_append] at hn
    rw [runFull_bind]
    have hp := hp e n b₁ h1
    by_cases hl : b₁.length ≤ n
    · rw [if_pos hl] at hp
      have hq := hq e (n - b₁.length) b₂ h2
      rw [if_neg (by omega)] at hq
      rw [hp]
      simp only [EOut.bind]
      rw [List.take_append, List.take_of_length_le hl, List.drop_append, List.drop_of_length_le hl, List.nil_append]
      rcases hq with hq | ⟨hq, hh⟩
      · rw [hq]; exact .inl rfl
      · rw [hq]; exact .inr ⟨rfl, hh⟩
    · rw [if_neg hl] at hp
      rw [List.take_append_of_le_length (by omega), List.drop_append_of_le_length (by omega)]
      rcases hp with hp | ⟨hp, hh⟩
      · rw [hp]; left; show EOut.ok (some e) (b₁.take n ++ []) = _; rw [List.append_nil]
      · rw [hp]
        simp only [EOut.bind]
        rw [List.length_take, show n - min n b₁.length = 0 by omega]
        have hq := hq e 0 b₂ h2
        by_cases hb : b₂.length ≤ 0
        · rw [if_pos hb] at hq
          cases List.eq_nil_of_length_eq_zero (Nat.le_zero.1 hb)
          rw [hq]
          right
          exact ⟨by show EOut.ok none (b₁.take n ++ []) = _; rw [List.append_nil], hQ _ _ hh (.inl rfl)⟩
        · rw [if_neg hb] at hq
          rcases hq with hq | ⟨hq, hh'⟩
          · rw [hq]; left; show EOut.ok (some e) (b₁.take n ++ []) = _; rw [List.append_nil]
          · rw [hq]; right
            exact ⟨by show EOut.ok none (b₁.take n ++ []) = _; rw [List.append_nil], hQ _ _ hh (.inr hh')⟩

/-- On a full writer the function returns its error. -/
def Enc.Loud (p : Enc (Option Err)) : Prop := ∀ e b, p.run = .ok none b → p.runFull e 0 = .ok (some e) []

/-- The error of the first part is dropped, but the second notices that the writer is full. -/
theorem fills_drop {Q : Bytes → Prop} {p q : Enc (Option Err)} (hp : p.Fills Q) (hq : q.Fills Q) (hl : q.Loud) (he : ∀ r b, p.run = .ok r b → r = none) : (p >>= fun _ => q).Fills Q := by
  intro e n b h
  by_cases hn : b.length ≤ n
  · rw [if_pos hn]; exact (runFull_any e _ n none b h).1 hn
  rw [if_neg hn]
  obtain ⟨r, b₁, b₂, h1, h2, rfl⟩ := run_bind_ok h
  cases he _ _ h1
  rw [List.length_append] at hn
  rw [runFull_bind]
  have hp := hp e n b₁ h1
  by_cases hb : b₁.length ≤ n
  · rw [if_pos hb] at hp
    have hq := hq e (n - b₁.length) b₂ h2
    rw [if_neg (by omega)] at hq
    rw [hp]
    simp only [EOut.bind]
    rw [List.take_append, List.take_of_length_le hb, List.drop_append, List.drop_of_length_le hb, List.nil_append]
    rcases hq with hq | ⟨hq, hh⟩
    · rw [hq]; exact .inl rfl
    · rw [hq]; exact .inr ⟨rfl, hh⟩
  · rw [if_neg hb] at hp
    have key : ∀ r, (EOut.ok r (b₁.take n) : EOut (Option Err)).bind (fun _ o => (q.runFull e (n - o.length)).prepend o) = .ok (some e) (b₁.take n) := by
      intro r
      simp only [EOut.bind]
      rw [List.length_take, show n - min n b₁.length = 0 by omega, hl e b₂ h2]
      show EOut.ok (some e) (b₁.take n ++ []) = _
      rw [List.append_nil]
    left
    rw [List.take_append_of_le_length (by omega)]
    rcases hp with hp | ⟨hp, _⟩ <;> rw [hp] <;> exact key _

theorem loud_write (bs : Bytes) (h : bs ≠ []) : (writeBytes bs).Loud := fun e b hb => by
  show (if bs.length ≤ 0 then _ else ((Enc.ret (some e)).runFull e 0).prepend (bs.take 0)) = _
  rw [if_neg (by have := List.length_pos_iff.2 h; omega)]
  rfl

theorem loud_seq {p q : Enc (Option Err)} (hp : p.Loud) : (p >>= fun r => match r with | some e => Pure.pure (some e) | none => q).Loud := fun e b h => by
  obtain ⟨r, b₁, b₂, h1, h2, rfl⟩ := run_bind_ok h
  cases r with
  | some x => cases h2
  | none => rw [runFull_bind, hp e b₁ h1]; rfl

theorem loud_drop {p q : Enc (Option Err)} (hp : ∀ e b r, p.run = .ok r b → ∃ r', p.runFull e 0 = .ok r' []) (hq : q.Loud) : (p >>= fun _ => q).Loud := fun e b h => by
  obtain ⟨r, b₁, b₂, h1, h2, rfl⟩ := run_bind_ok h
  obtain ⟨r', h3⟩ := hp e b₁ r h1
  rw [runFull_bind, h3]
  simp only [EOut.bind]
  rw [show 0 - ([] : Bytes).length = 0 from rfl, hq e b₂ h2]
  rfl

/-- A presence flag whose error is dropped -/
theorem fills_flag {Q : Bytes → Prop} (hQ : Grows Q) (h0 : Q [0]) (h1 : Q [1]) (c : Bool) {q : Enc (Option Err)} (hq : q.Fills Q) : (writeBool c >>= fun _ => q).Fills Q := by
  have hf : ∃ x : UInt8, Q [x] ∧ writeBool c = writeByte x := by
    cases c
    · exact ⟨0, h0, rfl⟩
    · exact ⟨1, h1, rfl⟩
  obtain ⟨x, hx, hw⟩ := hf
  rw [hw]
  intro e n b h
  by_cases hn : b.length ≤ n
  · rw [if_pos hn]; exact (runFull_any e _ n none b h).1 hn
  rw [if_neg hn]
  obtain ⟨r, b₁, b₂, h1, h2, rfl⟩ := run_bind_ok h
  cases h1
  rw [List.length_append] at hn
  rw [runFull_bind]
  cases n with
  | zero =>
    have hr : (writeByte x).runFull e 0 = .ok (some e) [] := rfl
    rw [hr]
    simp only [EOut.bind]
    have hq := hq e 0 b₂ h2
    rw [show 0 - ([] : Bytes).length = 0 from rfl]
    by_cases hb : b₂.length ≤ 0
    · rw [if_pos hb] at hq
      cases List.eq_nil_of_length_eq_zero (Nat.le_zero.1 hb)
      rw [hq]
      exact .inr ⟨rfl, hQ _ _ hx (.inl rfl)⟩
    · rw [if_neg hb] at hq
      rcases hq with hq | ⟨hq, hh⟩
      · rw [hq]; exact .inl rfl
      · rw [hq]; exact .inr ⟨rfl, hQ _ _ hx (.inr hh)⟩
  | succ n =>
    have hr : (writeByte x).runFull e (n + 1) = .ok none [x] := by
      show (if [x].length ≤ n + 1 then _ else _) = _
      rw [if_pos (by simp)]; rfl
    rw [hr]
    simp only [EOut.bind]
    have hq := hq e n b₂ h2
    rw [if_neg (by simp at hn; omega)] at hq
    rw [show n + 1 - [x].length = n from rfl]
    rcases hq with hq | ⟨hq, hh⟩
    · rw [hq]; exact .inl rfl
    · rw [hq]; exact .inr ⟨rfl, hh⟩

/-- An optional value of an ABI: an error of the flag ends it with nil. -/
theorem fills_present {q : Enc (Option Err)} (hq : q.Fills FlagFirst) (nil : Bool) :
    (writeBool (!nil) >>= fun err => if nil || err.isSome then Pure.pure none else q).Fills FlagFirst := by
  have hf : ∃ x : UInt8, (x = 0 ∨ x = 1) ∧ writeBool (!nil) = writeByte x := by
    cases nil
    · exact ⟨1, .inr rfl, rfl⟩
    · exact ⟨0, .inl rfl, rfl⟩
  obtain ⟨x, hx, hw⟩ := hf
  rw [hw]
  intro e n b h
  by_cases hn : b.length ≤ n
  · rw [if_pos hn]; exact (runFull_any e _ n none b h).1 hn
  rw [if_neg hn]
  obtain ⟨r, b₁, b₂, h1, h2, rfl⟩ := run_bind_ok h
  cases h1
  rw [List.length_append] at hn
  rw [runFull_bind]
  cases n with
  | zero =>
    have hr : (writeByte x).runFull e 0 = .ok (some e) [] := rfl
    rw [hr]
    simp only [EOut.bind, Option.isSome_some, Bool.or_true, if_true]
    exact .inr ⟨rfl, x, b₂, rfl, hx⟩
  | succ n =>
    have hr : (writeByte x).runFull e (n + 1) = .ok none [x] := by
      show (if [x].length ≤ n + 1 then _ else _) = _
      rw [if_pos (by simp)]; rfl
    rw [hr]
    simp only [EOut.bind]
    have hq : (if nil || (none : Option Err).isSome then Pure.pure none else q).Fills FlagFirst := by
      split
      · exact fills_none
      · exact hq
    have hq := hq e n b₂ h2
    rw [if_neg (by simp at hn; omega)] at hq
    rw [show n + 1 - [x].length = n from rfl]
    rcases hq with hq | ⟨hq, hh⟩
    · rw [hq]; exact .inl rfl
    · rw [hq]; exact .inr ⟨rfl, hh⟩

theorem fills_each {Q : Bytes → Prop} (hQ : Grows Q) {α : Type} {enc : α → Enc (Option Err)} (h : ∀ x, (enc x).Fills Q) {k : Enc (Option Err)} (hk : k.Fills Q) (xs : List α) : (encEach enc k xs).Fills Q := by
  induction xs with
  | nil => exact hk
  | cons x xs ih => exact fills_seq hQ (h x) ih

/-! ## The types of package chain -/

theorem name_run (n : UInt64) (r : Option Err) (b : Bytes) (h : (Name.marshal n).run = .ok r b) : r = none := by
  cases h; rfl

theorem name_loud (n : UInt64) : (Name.marshal n).Loud := loud_write _ (by simp [leBytes])

theorem varuint_loud (v : UInt64) : (writeVaruint v).Loud := by
  unfold writeVaruint
  split
  · rename_i h; exact loud_write _ (fun hn => by have := (putUvarint_spec _ _ _ h).1; simp [hn, IsLeb] at this)
  · exact fun e b h => by cases h

theorem perm_fills (Q : Bytes → Prop) (pl : PermissionLevel) : pl.marshal.Fills Q :=
  fills_drop ((writeUint64_strict _).fills Q) ((writeUint64_strict _).fills Q) (name_loud _) (name_run _)

theorem action_fills {Q : Bytes → Prop} (hQ : Grows Q) (a : Action) : a.marshal.Fills Q := by
  have tail : ((writeVaruint a.authorization.length.toUInt64) >>= fun r => match r with
      | some e => Pure.pure (some e)
      | none => encEach PermissionLevel.marshal (BytesT.marshal a.data) a.authorization).Fills Q :=
    fills_seq hQ ((writeVaruint_strict _).fills Q) (fills_each hQ (perm_fills Q) ((bytesT_write_strict _).fills Q) _)
  have loud := loud_seq (q := encEach PermissionLevel.marshal (BytesT.marshal a.data) a.authorization) (varuint_loud a.authorization.length.toUInt64)
  refine fills_drop ((writeUint64_strict _).fills Q) (fills_drop ((writeUint64_strict _).fills Q) tail loud (name_run _)) ?_ (name_run _)
  exact loud_drop (fun e b r _ => ⟨some e, rfl⟩) loud

theorem slice_fills {Q : Bytes → Prop} (hQ : Grows Q) {α : Type} {enc : α → Enc (Option Err)} (h : ∀ x, (enc x).Fills Q) {k : Enc (Option Err)} (hk : k.Fills Q) (xs : List α) :
    (encSlice enc xs k).Fills Q := fills_seq hQ ((writeVaruint_strict _).fills Q) (fills_each hQ h hk xs)

theorem transaction_fills {Q : Bytes → Prop} (hQ : Grows Q) (tx : Transaction) : tx.marshal.Fills Q :=
  fills_seq hQ ((header_write_strict _).fills Q) <| slice_fills hQ (action_fills hQ) (slice_fills hQ (action_fills hQ)
    (slice_fills hQ (fun x => (extension_write_strict x).fills Q) fills_none _) _) _

theorem chain_fills {Q : Bytes → Prop} (hQ : Grows Q) (c : ChainTy) (v : c.Val) : (c.marshal v).Fills Q := by
  by_cases hc : c.Firm
  · exact (chainWrite_strict c hc v).fills Q
  · cases c with
    | permissionLevel => exact perm_fills Q v
    | action => exact action_fills hQ v
    | transaction => exact transaction_fills hQ v
    | _ => exact absurd ⟨by decide, by decide, by decide⟩ hc

/-! ## Encode -/

mutual
theorem tyWrite_fills {Q : Bytes → Prop} (hQ : Grows Q) : (t : Ty) → (Q [0] ∧ Q [1]) ∨ t.Flagless → (v : t.Val) → (encodeWith chainEncoder t v).Fills Q
  | .basic b, _, v => (basicWrite_strict b v).fills Q
  | .named b, _, v => (kindWrite_strict b v).fills Q
  | .unsupported, _, _ => fills_error _
  | .ref _ _ _, _, _ => fills_diverge
  | .bytes, _, v => ((writeVaruint_strict _).seq (writeBytes_strict _)).fills Q
  | .chain c, _, v => by
    rw [show encodeWith chainEncoder (.chain c) v = c.marshal v from encode_chain c v]
    exact chain_fills hQ c v
  | .ptr t, h, v => by
    have ih := tyWrite_fills hQ t h
    unfold encodeWith
    rw [chainEncoder_else _ rfl]
    cases t with
    | chain c =>
      cases v with
      | none => exact fun e n b h => by cases h
      | some x => exact chain_fills hQ c x
    | _ =>
      cases v with
      | none => exact fun e n b h => by cases h
      | some x => exact ih x
  | .slice t, h, v => fills_seq hQ ((writeVaruint_strict _).fills Q) (fills_each hQ (tyWrite_fills hQ t h) fills_none _)
  | .array _ t, h, v => fills_each hQ (tyWrite_fills hQ t h) fills_none _
  | .map k e, h, v => fills_seq hQ ((writeVaruint_strict _).fills Q)
      (fills_each hQ (fun x : k.Val × e.Val => fills_seq hQ (tyWrite_fills hQ k (h.imp_right fun h => h.1) x.1) (tyWrite_fills hQ e (h.imp_right fun h => h.2) x.2)) fills_none _)
  | .struct fs, h, v => fieldsWrite_fills hQ fs h v
theorem fieldsWrite_fills {Q : Bytes → Prop} (hQ : Grows Q) : (fs : Fields) → (Q [0] ∧ Q [1]) ∨ fs.Flagless → (v : fs.Val) → (encodeFields chainEncoder fs v).Fills Q
  | .nil, _, _ => fills_none
  | .cons vis tag t fs, h, (x, xs) => by
    have h1 := tyWrite_fills hQ t (h.imp_right fun h => h.2.1) x
    have h2 := fieldsWrite_fills hQ fs (h.imp_right fun h => h.2.2) xs
    show (encodeField vis tag (t.isZero x) (encodeWith chainEncoder t x) (encodeFields chainEncoder fs xs)).Fills Q
    have hf : (if vis = .exported then (do
      match ← encodeWith chainEncoder t x with
      | some e => pure (some e)
      | none => encodeFields chainEncoder fs xs)
      else .panic "reflect.Value.Interface: cannot return value obtained from unexported field or method" : Enc (Option Err)).Fills Q := by
      split
      · exact fills_seq hQ h1 h2
      · exact fills_panic _
    unfold encodeField
    by_cases ht : tag = .optional
    · rw [if_pos ht]
      rcases h with h | h
      · refine fills_flag hQ h.1 h.2 _ ?_
        split
        · exact h2
        · exact hf
      · exact absurd ht h.1
    · rw [if_neg ht]
      exact hf
end

/-! ## Abi.Encode -/

theorem encodeInner_fills {Q : Bytes → Prop} (hQ : Grows Q) (ts : Types) (rec : Bytes → AV → Enc (Option Err)) (h : ∀ n v, (rec n v).Fills Q) (t : Resolved) (v : AV) :
    (encodeInner ts rec t v).Fills Q := by
  unfold encodeInner
  split
  · exact h _ _
  · dsimp only
    split
    · split
      · exact fills_each hQ (fun _ => h _ _) fills_none _
      · exact fills_error _
    · split
      · split
        · split
          · split
            · exact fills_error _
            · split
              · exact fills_error _
              · exact fills_seq hQ ((writeVaruint_strict _).fills Q) (h _ _)
          · exact fills_error _
        · exact fills_error _
      · exact (encodeBuiltin_strict _ _).fills Q

theorem encodeBody_fills {Q : Bytes → Prop} (hQ : Grows Q) (ts : Types) (rec : Bytes → AV → Enc (Option Err)) (h : ∀ n v, (rec n v).Fills Q) (t : Resolved) (v : AV) :
    (encodeBody ts rec t v).Fills Q := by
  unfold encodeBody
  split
  · split
    · exact fills_seq hQ ((writeVaruint_strict _).fills Q) (fills_each hQ (encodeInner_fills hQ ts rec h t) fills_none _)
    · exact fills_error _
  · exact encodeInner_fills hQ ts rec h t v

theorem encodeTypeF_fills (ts : Types) (fuel : Nat) (n : Bytes) (v : AV) : (encodeTypeF ts fuel n v).Fills FlagFirst := by
  induction fuel generalizing n v with
  | zero => exact fills_diverge
  | succ fuel ih =>
    unfold encodeTypeF
    split
    · exact fills_panic _
    · rename_i t ht
      have hb := encodeBody_fills grows_first ts _ ih t v
      split
      · exact fills_present hb _
      · split
        · exact fills_error _
        · exact hb

end Verif
