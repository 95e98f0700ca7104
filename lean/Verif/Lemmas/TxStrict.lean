import Verif.Lemmas.Tx
import Verif.Lemmas.PrimStrict
/-! Failed reads and writes in action.go and transaction.go -/
namespace Verif

theorem readByte_allErr {P : Err → Prop} : readByte.AllErr true P :=
  readBytes_bind_allErr 1 (by decide) (by decide) _ fun _ _ _ h => h
theorem readUint64_allErr {P : Err → Prop} : readUint64.AllErr true P :=
  readBytes_bind_allErr 8 (by decide) (by decide) _ fun _ _ _ h => h
theorem readVaruint_allErr {P : Err → Prop} (hc : ErrClosed P) : readVaruint.AllErr true P := by
  refine Dec.AllErr.bind (p := readUvarintLoop readByte 10 0 0) ?_ fun _ _ h => h
  refine Dec.AllErr.bind readByte_allErr fun _ e h => ?_
  show P _
  split
  · rename_i hh; exact hc (hh.1 ▸ h)
  · exact h
theorem name_allErr {P : Err → Prop} (old : UInt64) : (Name.unmarshal old).AllErr true P := Dec.AllErr.bind readUint64_allErr fun _ _ h => h

theorem name_strict (s : Bool) (old : UInt64) : (Name.unmarshal old).Strict s := by
  intro P h; strict_try (readUint64_strict s P h); trivial

theorem bytesT_strict (s : Bool) (old : Bytes) : (BytesT.unmarshal old).Strict s := by
  intro P h
  strict_try (readVaruint_strict s P h)
  apply readBytes_bind_strict
  · rintro ⟨a, b, _ | e⟩ <;> trivial
  · intro a b e h; exact h

theorem perm_strict (old : PermissionLevel) : old.unmarshal.Strict true := by
  intro P h
  have last : ∀ x : UInt64, (Name.unmarshal old.permission >>= fun r => (pure (⟨x, r.1⟩, r.2) : Dec (PermissionLevel × Option Err))).StrictP true P := fun x =>
    (name_strict true _ P h).bind (fun _ => trivial) (fun _ _ h => h)
  refine Dec.StrictP.bind (name_strict true _ P h) (fun r => last r.1) fun a e he => ?_
  exact Dec.AllErr.bind (name_allErr _) fun _ _ h => h

theorem authLoop_strict (k : Nat) (auth : List PermissionLevel) : (authLoop k auth).Strict true := by
  intro P h
  induction k generalizing auth with
  | zero => trivial
  | succ k ih =>
    unfold authLoop
    strict_try (perm_strict _ P h)
    exact ih _

theorem action_strict (old : Action) : old.unmarshal.Strict true := by
  intro P h
  refine Dec.StrictP.bind (name_strict true _ P h) (fun r => ?_) fun a e he => ?_
  · refine Dec.StrictP.bind (name_strict true _ P h) (fun r => ?_) fun a e he => ?_
    · dsimp only
      strict_try (readVaruint_strict true P h)
      dsimp only
      strict_try (authLoop_strict _ _ P h)
      exact (bytesT_strict true _ P h).bind (fun _ => trivial) (fun _ _ h => h)
    · exact Dec.AllErr.bind (readVaruint_allErr h) fun _ _ h => h
  · exact Dec.AllErr.bind (name_allErr _) fun _ _ _ => Dec.AllErr.bind (readVaruint_allErr h) fun _ _ h => h

theorem decEach_strict {α : Type} (s : Bool) (dec : α → Dec (α × Option Err)) (h : ∀ x, (dec x).Strict s) (xs : List α) : (decEach dec xs).Strict s := by
  intro P hc
  induction xs with
  | nil => trivial
  | cons x xs ih =>
    unfold decEach
    strict_try (h x P hc)
    exact ih.bind (fun _ => trivial) (fun _ _ h => h)

theorem decSlice_strict {α : Type} (s : Bool) (zero : α) (size : Nat) (dec : α → Dec (α × Option Err)) (h : ∀ x, (dec x).Strict s) (old : List α) :
    (decSlice zero size dec old).Strict s := by
  intro P hc
  unfold decSlice
  strict_try (readVaruint_strict s P hc)
  dsimp only
  unfold makeSlice
  split
  · trivial
  · split
    · trivial
    · exact decEach_strict s dec h _ P hc

theorem timePointSec_strict (s : Bool) (old : UInt32) : (TimePointSec.unmarshal old).Strict s := by
  intro P h; strict_try (readUint32_strict s P h); trivial
theorem timePoint_strict (s : Bool) (old : Int64) : (TimePoint.unmarshal old).Strict s := by
  intro P h; strict_try (readInt64_strict s P h); trivial

theorem header_strict (s : Bool) (old : TxHeader) : old.unmarshal.Strict s := by
  intro P h
  unfold TxHeader.unmarshal
  strict_try (timePointSec_strict s _ P h)
  dsimp only
  strict_try (readUint16_strict s P h)
  dsimp only
  strict_try (readUint32_strict s P h)
  dsimp only
  strict_try (readVaruint_strict s P h)
  dsimp only
  strict_try (readUint8_strict s P h)
  dsimp only
  exact (readVaruint_strict s P h).bind (fun _ => trivial) (fun _ _ h => h)

theorem extension_strict (s : Bool) (old : TxExtension) : old.unmarshal.Strict s := by
  intro P h
  unfold TxExtension.unmarshal
  strict_try (readUint16_strict s P h)
  exact (bytesT_strict s _ P h).bind (fun _ => trivial) (fun _ _ h => h)

theorem transaction_strict (old : Transaction) : old.unmarshal.Strict true := by
  intro P h
  unfold Transaction.unmarshal
  strict_try (header_strict true _ P h)
  dsimp only
  strict_try (decSlice_strict true _ _ _ action_strict _ P h)
  dsimp only
  strict_try (decSlice_strict true _ _ _ action_strict _ P h)
  dsimp only
  exact (decSlice_strict true _ _ _ (extension_strict true) _ P h).bind (fun _ => trivial) (fun _ _ h => h)

/-! ### Writes -/

theorem name_write_allErrS (n : UInt64) : (Name.marshal n).AllErrS := fun e => by simp [Enc.AllErrS]
theorem bytesT_write_strict (b : Bytes) : (BytesT.marshal b).Strict := (writeVaruint_strict _).seq (writeBytes_strict _)

theorem perm_write_sticky (pl : PermissionLevel) : pl.marshal.StrictS :=
  Enc.StrictS.bindE (writeUint64_strict _).sticky (fun _ => name_write_allErrS _) (fun _ => (writeUint64_strict _).sticky)

theorem encEach_sticky {α : Type} (enc : α → Enc (Option Err)) (k : Enc (Option Err)) (h : ∀ x, (enc x).StrictS) (hk : k.StrictS) (xs : List α) : (encEach enc k xs).StrictS := by
  induction xs with
  | nil => exact hk
  | cons x xs ih => exact (h x).seq ih

theorem varuint_write_allErrS (v : UInt64) : (writeVaruint v).AllErrS := by
  unfold writeVaruint
  split
  · exact fun e => by simp [Enc.AllErrS]
  · trivial

theorem action_write_sticky (a : Action) : a.marshal.StrictS := by
  have tail : ∀ r : Option Err, (match r with | some e => (pure (some e) : Enc (Option Err)) | none => encEach PermissionLevel.marshal (BytesT.marshal a.data) a.authorization).StrictS := by
    rintro (_ | e)
    · exact encEach_sticky _ _ perm_write_sticky (bytesT_write_strict _).sticky _
    · trivial
  have tailE : ∀ e : Err, (pure (some e) : Enc (Option Err)).AllErrS := fun e => by show some e ≠ none; simp
  refine Enc.StrictS.bindE (writeUint64_strict _).sticky (fun _ => ?_) fun _ => ?_
  · exact Enc.AllErrS.bindE (name_write_allErrS _) fun _ => Enc.AllErrS.bindE (varuint_write_allErrS _) tailE
  · refine Enc.StrictS.bindE (writeUint64_strict _).sticky (fun _ => ?_) fun _ => ?_
    · exact Enc.AllErrS.bindE (varuint_write_allErrS _) tailE
    · exact Enc.StrictS.bindE (writeVaruint_strict _).sticky tailE tail

theorem header_write_strict (h : TxHeader) : h.marshal.Strict :=
  (writeUint32_strict _).seq <| (writeUint16_strict _).seq <| (writeUint32_strict _).seq <| (writeVaruint_strict _).seq <| (writeUint8_strict _).seq (writeVaruint_strict _)

theorem extension_write_strict (x : TxExtension) : x.marshal.Strict := (writeUint16_strict _).seq (bytesT_write_strict _)

theorem encSlice_sticky {α : Type} (enc : α → Enc (Option Err)) (k : Enc (Option Err)) (h : ∀ x, (enc x).StrictS) (hk : k.StrictS) (xs : List α) : (encSlice enc xs k).StrictS :=
  (writeVaruint_strict _).sticky.seq (encEach_sticky enc k h hk xs)

theorem transaction_write_sticky (tx : Transaction) : tx.marshal.StrictS :=
  (header_write_strict _).sticky.seq <| encSlice_sticky _ _ action_write_sticky
    (encSlice_sticky _ _ action_write_sticky (encSlice_sticky _ (pure none) (fun x => (extension_write_strict x).sticky) trivial _) _) _

end Verif
