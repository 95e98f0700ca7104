import Verif.Lemmas.Overwrite
import Verif.Lemmas.Tx
import Verif.Model.Symbol
import Verif.Model.Numbers
import Verif.Model.Blob
import Verif.Model.Keys
import Verif.Model.Time
import Verif.Model.Tx
/-! # C37: decoding overwrites the destination -/
namespace Verif

/-- one step of the two runs that does not look at the destination, up to the error test -/
local macro "ow_step" : tactic => `(tactic| (refine SameRun.step ?_; rintro ⟨x, _ | e⟩ r; rotate_left; exact SameRun.pure ⟨rfl, by simp⟩))
local macro "ow_bytes" : tactic => `(tactic| (refine SameRun.step ?_; rintro ⟨x, b, _ | e⟩ r; rotate_left; exact SameRun.pure ⟨rfl, by simp⟩))
local macro "ow_done" : tactic => `(tactic| exact SameRun.pure ⟨rfl, fun _ => rfl⟩)

theorem C37_name : Overwrites Name.unmarshal := by
  intro old old' fin bs _ _; unfold Name.unmarshal; ow_step; ow_done
theorem C37_symbol : Overwrites Symbol.unmarshal := by
  intro old old' fin bs _ _; unfold Symbol.unmarshal; ow_step; ow_done
theorem C37_asset : Overwrites Asset.unmarshal := by
  intro old old' fin bs _ _; unfold Asset.unmarshal; ow_step
  refine SameRun.step ?_; rintro ⟨x, e⟩ r; ow_done
theorem C37_extendedAsset : Overwrites ExtendedAsset.unmarshal := by
  intro old old' fin bs _ _; unfold ExtendedAsset.unmarshal
  refine SameRun.bind (C37_asset _ _ _ _ trivial trivial) ?_
  rintro ⟨x, e⟩ ⟨y, e'⟩ r ⟨h1, h2⟩
  dsimp only at h1 h2; subst h1
  cases e with
  | some e => exact SameRun.pure ⟨rfl, by simp⟩
  | none =>
    obtain rfl := h2 rfl
    refine SameRun.bind (C37_name _ _ _ _ trivial trivial) ?_
    rintro ⟨x, e⟩ ⟨y, e'⟩ r ⟨h1, h2⟩
    dsimp only at h1 h2; subst h1
    exact SameRun.pure ⟨rfl, fun h => by rw [h2 h]⟩
theorem C37_uint128 : Overwrites U128.unmarshal := by
  intro old old' fin bs _ _; unfold U128.unmarshal; ow_step; ow_step; ow_done
/-- The destination of a Float128 is an array of 16 bytes. -/
theorem C37_float128 : OverwritesIf (fun old => old.length = 16) Float128.unmarshal := by
  intro old old' fin bs ho ho'; unfold Float128.unmarshal
  unfold readBytes
  rw [if_neg (by decide), if_neg (by decide), if_neg (by decide)]
  by_cases h : 16 ≤ bs.length
  · simp [Bind.bind, Dec.bind, Dec.runE, h, Pure.pure, SameRun]
    rw [List.drop_eq_nil_of_le (by omega), List.drop_eq_nil_of_le (by omega)]
  · simp [Bind.bind, Dec.bind, Dec.runE, h, Pure.pure, SameRun]
theorem C37_uint64 : Overwrites Uint64.unmarshal := by
  intro old old' fin bs _ _; unfold Uint64.unmarshal; ow_step; ow_done
theorem C37_blockNum : Overwrites BlockNum.unmarshal := by
  intro old old' fin bs _ _; unfold BlockNum.unmarshal; ow_step; ow_done
theorem C37_timePoint : Overwrites TimePoint.unmarshal := by
  intro old old' fin bs _ _; unfold TimePoint.unmarshal; ow_step; ow_done
theorem C37_timePointSec : Overwrites TimePointSec.unmarshal := by
  intro old old' fin bs _ _; unfold TimePointSec.unmarshal; ow_step; ow_done
/-- Bytes and Blob -/
theorem C37_bytes : Overwrites BytesT.unmarshal := by
  intro old old' fin bs _ _; unfold BytesT.unmarshal; ow_step; ow_bytes; ow_done
theorem C37_checksum (n : Nat) : Overwrites (Checksum.unmarshal n) := by
  intro old old' fin bs _ _; unfold Checksum.unmarshal; ow_bytes; ow_done

theorem C37_publicKey : Overwrites PubKey.unmarshal := by
  intro old old' fin bs _ _; unfold PubKey.unmarshal; ow_step
  dsimp only
  split
  · refine SameRun.step ?_; rintro ⟨_, b, e⟩ r; ow_done
  · split
    · ow_bytes
      ow_step
      ow_bytes
      unfold putLen
      dsimp only
      split
      · exact rfl
      · ow_done
    · exact SameRun.pure ⟨rfl, by simp⟩

theorem C37_signature : Overwrites Sig.unmarshal := by
  intro old old' fin bs _ _; unfold Sig.unmarshal; ow_step
  dsimp only
  split
  · refine SameRun.step ?_; rintro ⟨_, b, e⟩ r; ow_done
  · split
    · ow_bytes
      ow_step
      ow_bytes
      ow_step
      ow_bytes
      unfold putLen
      dsimp only
      split
      · exact rfl
      · split
        · exact rfl
        · ow_done
    · exact SameRun.pure ⟨rfl, by simp⟩

theorem readBytes_short {fin : Err} {n : Nat} (h0 : n ≠ 0) (hm : n ≤ maxAlloc) {bs : Bytes} (h : bs.length < n) :
    (readBytes n).runE fin bs = .ok (bs.length, bs ++ List.replicate (n - bs.length) 0, some (shortErr fin bs.length)) [] := by
  unfold readBytes
  rw [if_neg (by omega), if_neg (by omega), if_neg (by omega)]
  rw [Dec.runE_read_short _ _ _ _ (by simpa using h)]
  rfl

/-- A failed Name.UnmarshalABI has used up the stream. -/
theorem name_failed (old : UInt64) (fin : Err) (bs r : Bytes) (x : UInt64) (e : Err) (h : (Name.unmarshal old).runE fin bs = .ok (x, some e) r) : r = [] := by
  by_cases hl : 8 ≤ bs.length
  · have := name_reads (leNat (bs.take 8)).toUInt64 old fin (bs.drop 8)
    rw [Nat.toUInt64, UInt64.toNat_ofNat', Nat.mod_eq_of_lt (Nat.lt_of_lt_of_eq (leNat_lt _) (by simp [hl])), leBytes_leNat' 8 (bs.take 8) (by simp; omega), List.take_append_drop, h] at this
    simp at this
  · have : (readBytes 8).runE fin bs = _ := readBytes_short (n := 8) (by decide) (by decide) (by omega)
    unfold Name.unmarshal readUint64 at h
    rw [Dec.runE_bind, Dec.runE_bind] at h
    rw [this] at h
    simp [Out.bind, Pure.pure] at h
    exact h.2

theorem name_empty (old : UInt64) (fin : Err) : (Name.unmarshal old).runE fin [] = .ok (old, some fin) [] := by
  have : (readBytes 8).runE fin [] = _ := readBytes_short (n := 8) (by decide) (by decide) (by decide)
  unfold Name.unmarshal readUint64
  rw [Dec.runE_bind, Dec.runE_bind]
  rw [this]
  simp [Out.bind, Pure.pure, shortErr]

theorem name_same (old old' : UInt64) (fin : Err) (bs : Bytes) :
    SameRun (fun r x y => x.2 = y.2 ∧ (x.2 = none → x.1 = y.1) ∧ (x.2 ≠ none → r = [])) ((Name.unmarshal old).runE fin bs) ((Name.unmarshal old').runE fin bs) := by
  have h := C37_name old old' fin bs trivial trivial
  have hf := name_failed old fin bs
  cases h1 : (Name.unmarshal old).runE fin bs with
  | ok a r =>
    rw [h1] at h hf
    cases h2 : (Name.unmarshal old').runE fin bs with
    | ok b r' =>
      rw [h2] at h
      refine ⟨h.1, h.2.1, h.2.2, fun hn => ?_⟩
      obtain ⟨a, _ | e⟩ := a
      · simp at hn
      · exact hf _ _ _ rfl
    | panic w => rw [h2] at h; exact h.elim
    | diverge => rw [h2] at h; exact h.elim
  | panic w => rw [h1] at h; cases h2 : (Name.unmarshal old').runE fin bs <;> rw [h2] at h <;> simp_all [SameRun]
  | diverge => rw [h1] at h; cases h2 : (Name.unmarshal old').runE fin bs <;> rw [h2] at h <;> simp_all [SameRun]

/-- PermissionLevel drops the error of reading the actor, but then reading the permission fails as well. -/
theorem C37_permissionLevel : Overwrites PermissionLevel.unmarshal := by
  intro old old' fin bs _ _; unfold PermissionLevel.unmarshal
  refine SameRun.bind (name_same _ _ _ _) ?_
  rintro ⟨x, e⟩ ⟨y, e'⟩ r ⟨h1, h2, h3⟩
  dsimp only at h1 h2 h3; subst h1
  cases e with
  | some e =>
    obtain rfl := h3 (by simp)
    dsimp only
    rw [Dec.runE_bind, Dec.runE_bind, name_empty, name_empty]
    exact SameRun.pure (fin := fin) ⟨rfl, by simp⟩
  | none =>
    obtain rfl := h2 rfl
    refine SameRun.bind (C37_name _ _ _ _ trivial trivial) ?_
    rintro ⟨x, e⟩ ⟨y, e'⟩ r ⟨h1, h2⟩
    dsimp only at h1 h2; subst h1
    exact SameRun.pure ⟨rfl, fun h => by rw [h2 h]⟩

theorem authLoop_same (k : Nat) (pre auth : List PermissionLevel) (fin : Err) (bs : Bytes) :
    SameRun (fun _ x y => x.2 = y.2 ∧ x.1 = pre ++ y.1) ((authLoop k (pre ++ auth)).runE fin bs) ((authLoop k auth).runE fin bs) := by
  induction k generalizing auth bs with
  | zero => exact SameRun.pure ⟨rfl, rfl⟩
  | succ k ih =>
    unfold authLoop
    refine SameRun.step ?_
    rintro ⟨x, _ | e⟩ r
    · dsimp only
      rw [List.append_assoc]
      exact ih _ _
    · exact SameRun.pure ⟨rfl, rfl⟩

theorem readVaruint_empty (fin : Err) : readVaruint.runE fin [] = .ok (0, some fin) [] := by
  have : (readBytes 1).runE fin [] = _ := readBytes_short (n := 1) (by decide) (by decide) (by decide)
  unfold readVaruint readUvarint readUvarintLoop readByte
  simp only [Dec.runE_bind]
  rw [this]
  simp [Out.bind, Pure.pure, shortErr]

/-- C37 for actions: whatever the destination held, the outcome on any stream is that of decoding into a zero value, except that the authorizations
already there are kept in front. The claim itself is false (`C37_violated`), true if the destination has no authorizations. -/
theorem C37_action_partial (old : Action) (fin : Err) (bs : Bytes) :
    SameRun (fun _ x y => x.2 = y.2 ∧ (x.2 = none → x.1 = { y.1 with authorization := old.authorization ++ y.1.authorization }))
      (old.unmarshal.runE fin bs) (Action.zero.unmarshal.runE fin bs) := by
  unfold Action.unmarshal
  refine SameRun.bind (name_same _ _ _ _) ?_
  rintro ⟨x, e⟩ ⟨y, e'⟩ r ⟨h1, h2, h3⟩
  dsimp only at h1 h2 h3; subst h1
  cases e with
  | some e =>
    obtain rfl := h3 (by simp)
    dsimp only
    rw [Dec.runE_bind, Dec.runE_bind, name_empty, name_empty]
    simp only [Out.bind]
    rw [Dec.runE_bind, Dec.runE_bind, readVaruint_empty]
    exact SameRun.pure (fin := fin) ⟨rfl, by simp⟩
  | none =>
    obtain rfl := h2 rfl
    refine SameRun.bind (name_same _ _ _ _) ?_
    rintro ⟨x, e⟩ ⟨y, e'⟩ r ⟨h1, h2, h3⟩
    dsimp only at h1 h2 h3; subst h1
    cases e with
    | some e =>
      obtain rfl := h3 (by simp)
      dsimp only
      rw [Dec.runE_bind, Dec.runE_bind, readVaruint_empty]
      exact SameRun.pure (fin := fin) ⟨rfl, by simp⟩
    | none =>
      obtain rfl := h2 rfl
      ow_step
      rename_i x r
      refine SameRun.bind (by have := authLoop_same (goInt x).toNat old.authorization [] fin r; rw [List.append_nil] at this; exact this) ?_
      rintro ⟨x, e⟩ ⟨y, e'⟩ r ⟨h1, h2⟩
      dsimp only at h1 h2; subst h1 h2
      cases e with
      | some e => exact SameRun.pure ⟨rfl, by simp⟩
      | none =>
        refine SameRun.bind (C37_bytes _ _ _ _ trivial trivial) ?_
        rintro ⟨x, e⟩ ⟨y, e'⟩ r ⟨h1, h2⟩
        dsimp only at h1 h2; subst h1
        exact SameRun.pure ⟨rfl, fun h => by rw [h2 h]⟩

/-- Two destinations without authorizations give the same result. -/
theorem C37_action_empty_partial : OverwritesIf (fun a => a.authorization = []) Action.unmarshal := by
  intro old old' fin bs h h'
  have a := C37_action_partial old fin bs
  have b := C37_action_partial old' fin bs
  rw [h] at a; rw [h'] at b
  cases h0 : Action.zero.unmarshal.runE fin bs <;> rw [h0] at a b <;>
    cases h1 : old.unmarshal.runE fin bs <;> rw [h1] at a <;> cases h2 : old'.unmarshal.runE fin bs <;> rw [h2] at b <;> simp_all [SameRun]

/-- The 33 bytes of an action with one authorization. -/
def oneAuth : Action := ⟨1, 2, [⟨3, 4⟩], []⟩

/-- C37 is false for Action: decoding an action over itself doubles its authorizations. -/
theorem C37_violated : ∃ (old a : Action) (bs : Bytes), a.marshal.Writes bs ∧ Action.zero.unmarshal.run bs = .ok (a, none) [] ∧
    ∃ b, old.unmarshal.run bs = .ok (b, none) [] ∧ b ≠ a :=
  ⟨oneAuth, oneAuth, oneAuth.bytes, by decide, by decide +kernel, ⟨1, 2, [⟨3, 4⟩, ⟨3, 4⟩], []⟩, by decide +kernel, by decide⟩

theorem C37_header : Overwrites TxHeader.unmarshal := by
  intro old old' fin bs _ _; unfold TxHeader.unmarshal
  refine SameRun.bind (C37_timePointSec _ _ _ _ trivial trivial) ?_
  rintro ⟨x, e⟩ ⟨y, e'⟩ r ⟨h1, h2⟩
  dsimp only at h1 h2; subst h1
  cases e with
  | some e => exact SameRun.pure ⟨rfl, by simp⟩
  | none =>
    obtain rfl := h2 rfl
    dsimp only
    ow_step
    ow_step
    ow_step
    ow_step
    refine SameRun.step ?_; rintro ⟨x, e⟩ r; ow_done

theorem C37_extension : Overwrites TxExtension.unmarshal := by
  intro old old' fin bs _ _; unfold TxExtension.unmarshal
  ow_step
  refine SameRun.bind (C37_bytes _ _ _ _ trivial trivial) ?_
  rintro ⟨x, e⟩ ⟨y, e'⟩ r ⟨h1, h2⟩
  dsimp only at h1 h2; subst h1
  exact SameRun.pure ⟨rfl, fun h => by rw [h2 h]⟩

theorem decSlice_overwrites {α : Type} (zero : α) (size : Nat) (dec : α → Dec (α × Option Err)) : Overwrites (decSlice zero size dec) := by
  intro old old' fin bs _ _; unfold decSlice
  ow_step
  exact (SameRun.refl _).mono fun _ a b h => by subst h; exact ⟨rfl, fun _ => rfl⟩

/-- A transaction makes fresh slices, so its actions are decoded into zero values. -/
theorem C37_transaction : Overwrites Transaction.unmarshal := by
  intro old old' fin bs _ _; unfold Transaction.unmarshal
  refine SameRun.bind (C37_header _ _ _ _ trivial trivial) ?_
  rintro ⟨x, e⟩ ⟨y, e'⟩ r ⟨h1, h2⟩
  dsimp only at h1 h2; subst h1
  cases e with
  | some e => exact SameRun.pure ⟨rfl, by simp⟩
  | none =>
    obtain rfl := h2 rfl
    refine SameRun.bind (decSlice_overwrites _ _ _ _ _ _ _ trivial trivial) ?_
    rintro ⟨x, e⟩ ⟨y, e'⟩ r ⟨h1, h2⟩
    dsimp only at h1 h2; subst h1
    cases e with
    | some e => exact SameRun.pure ⟨rfl, by simp⟩
    | none =>
      obtain rfl := h2 rfl
      refine SameRun.bind (decSlice_overwrites _ _ _ _ _ _ _ trivial trivial) ?_
      rintro ⟨x, e⟩ ⟨y, e'⟩ r ⟨h1, h2⟩
      dsimp only at h1 h2; subst h1
      cases e with
      | some e => exact SameRun.pure ⟨rfl, by simp⟩
      | none =>
        obtain rfl := h2 rfl
        refine SameRun.bind (decSlice_overwrites _ _ _ _ _ _ _ trivial trivial) ?_
        rintro ⟨x, e⟩ ⟨y, e'⟩ r ⟨h1, h2⟩
        dsimp only at h1 h2; subst h1
        exact SameRun.pure ⟨rfl, fun h => by rw [h2 h]⟩

/-- Non-vacuity: a header decoded over another header. -/
example : (TxHeader.unmarshal ⟨9, 9, 9, 9, 9, 9⟩).run [1, 0, 0, 0, 2, 0, 3, 0, 0, 0, 4, 5, 6] = .ok (⟨1, 2, 3, 4, 5, 6⟩, none) [] := by decide +kernel

end Verif
