import Verif.Props.Tx
import Verif.Props.Keys
/-! # C08–C10 and C66 for the chain types -/
namespace Verif

theorem symbol_strict (s : Bool) (old : UInt64) : (Symbol.unmarshal old).Strict s := by
  intro P h; strict_try (readUint64_strict s P h); trivial
theorem asset_strict (s : Bool) (old : Asset) : old.unmarshal.Strict s := by
  intro P h; strict_try (readInt64_strict s P h)
  exact (symbol_strict s _ P h).bind (fun _ => trivial) (fun _ _ h => h)
theorem extendedAsset_strict (s : Bool) (old : ExtendedAsset) : old.unmarshal.Strict s := by
  intro P h; strict_try (asset_strict s _ P h)
  exact (name_strict s _ P h).bind (fun _ => trivial) (fun _ _ h => h)
theorem u128_strict (s : Bool) (old : U128) : old.unmarshal.Strict s := by
  intro P h; strict_try (readUint64_strict s P h); dsimp only; strict_try (readUint64_strict s P h); trivial
theorem float128_strict (s : Bool) (old : Bytes) : (Float128.unmarshal old).Strict s := by
  intro P _
  apply readBytes_bind_strict
  · rintro ⟨a, b, _ | e⟩ <;> trivial
  · intro a b e h; exact h
theorem uint64_strict (s : Bool) (old : UInt64) : (Uint64.unmarshal old).Strict s := by
  intro P h; strict_try (readUint64_strict s P h); trivial
theorem blockNum_strict (s : Bool) (old : UInt32) : (BlockNum.unmarshal old).Strict s := by
  intro P h; strict_try (readUint32_strict s P h); trivial
theorem checksum_strict (s : Bool) (n : Nat) (old : Bytes) : (Checksum.unmarshal n old).Strict s := by
  intro P _
  apply readBytes_bind_strict
  · rintro ⟨a, b, _ | e⟩ <;> trivial
  · intro a b e h; exact h

/-- C08, C09, C66 for the chain types other than PermissionLevel, Action and Transaction: `C08_locality`, `C09_truncation` (s arbitrary) and `C66_faults`
(s = false) apply to every UnmarshalABI, whatever the destination holds. -/
theorem C09_chain_strict (s : Bool) :
    (∀ o, (Name.unmarshal o).Strict s) ∧ (∀ o, (Symbol.unmarshal o).Strict s) ∧ (∀ o : Asset, o.unmarshal.Strict s) ∧ (∀ o : ExtendedAsset, o.unmarshal.Strict s) ∧
    (∀ o : U128, o.unmarshal.Strict s) ∧ (∀ o, (Float128.unmarshal o).Strict s) ∧ (∀ o, (Uint64.unmarshal o).Strict s) ∧ (∀ o, (BlockNum.unmarshal o).Strict s) ∧
    (∀ o, (TimePoint.unmarshal o).Strict s) ∧ (∀ o, (TimePointSec.unmarshal o).Strict s) ∧ (∀ o, (BytesT.unmarshal o).Strict s) ∧
    (∀ n o, (Checksum.unmarshal n o).Strict s) ∧ (∀ o : PubKey, o.unmarshal.Strict s) ∧ (∀ o : Sig, o.unmarshal.Strict s) ∧
    (∀ o : TxHeader, o.unmarshal.Strict s) ∧ (∀ o : TxExtension, o.unmarshal.Strict s) :=
  ⟨name_strict s, symbol_strict s, asset_strict s, extendedAsset_strict s, u128_strict s, float128_strict s, uint64_strict s, blockNum_strict s,
    timePoint_strict s, timePointSec_strict s, bytesT_strict s, checksum_strict s, fun o => (C35_strict s o ⟨0, []⟩).1, fun o => (C35_strict s ⟨0, []⟩ o).2.1,
    header_strict s, extension_strict s⟩

/-- C66, generic: over any reader, faulty or not, a strict function that returns a nil error returns what is on the stream. Holds for the reading methods of
abi.Decoder (`C09_primitives_strict`) and the types of `C09_chain_strict`. -/
theorem C66_faults_partial {α : Type} (p : Dec (α × Option Err)) (hp : p.Strict false) (r r' : Reader) (a : α) (h : p.runR r = .ok (a, none) r') :
    ∃ c, r.data = c ++ r'.data ∧ p.Reads c a := by
  have := C09_faults p hp r r' a h
  obtain ⟨c, h1, h2⟩ := hp.local .eof _ _ _ this
  exact ⟨c, h1, h2⟩

/-- Non-vacuity: a name read over a reader that fails halfway is an error; the same reader without the fault succeeds. -/
example : (Name.unmarshal 0).run [1, 0, 0, 0, 0, 0, 0, 0, 9] = .ok (1, none) [9] := by decide +kernel

/-- C10 for every MarshalABI of pkg/chain except PermissionLevel, Action and Transaction. -/
theorem C10_chain_strict :
    (∀ v, (Name.marshal v).Strict) ∧ (∀ v, (Symbol.marshal v).Strict) ∧ (∀ v : Asset, v.marshal.Strict) ∧ (∀ v : ExtendedAsset, v.marshal.Strict) ∧
    (∀ v : U128, v.marshal.Strict) ∧ (∀ v, (Float128.marshal v).Strict) ∧ (∀ v, (Uint64.marshal v).Strict) ∧ (∀ v, (BlockNum.marshal v).Strict) ∧
    (∀ v, (TimePoint.marshal v).Strict) ∧ (∀ v, (TimePointSec.marshal v).Strict) ∧ (∀ v, (BytesT.marshal v).Strict) ∧ (∀ v, (Checksum.marshal v).Strict) ∧
    (∀ v : PubKey, v.marshal.Strict) ∧ (∀ v : Sig, v.marshal.Strict) ∧ (∀ v : TxHeader, v.marshal.Strict) ∧ (∀ v : TxExtension, v.marshal.Strict) :=
  ⟨fun _ => writeBytes_strict _, fun _ => writeBytes_strict _, fun _ => (writeBytes_strict _).seq (writeBytes_strict _),
    fun _ => Enc.Strict.seq ((writeBytes_strict _).seq (writeBytes_strict _)) (writeBytes_strict _), fun _ => writeBytes_strict _, fun _ => writeBytes_strict _,
    fun _ => writeBytes_strict _, fun _ => writeBytes_strict _, fun _ => writeBytes_strict _, fun _ => writeBytes_strict _, bytesT_write_strict,
    fun _ => writeBytes_strict _, fun v => (C35_strict false v ⟨0, []⟩).2.2.1, fun v => (C35_strict false ⟨0, []⟩ v).2.2.2, header_write_strict, extension_write_strict⟩

/-- C10 for PermissionLevel, Action and Transaction, if the writer, once it has failed, goes on failing: a failed write is reported. Missing for the full claim:
writers that fail transiently, where it is false (`C10_violated`). -/
theorem C10_sticky_partial (p : Enc (Option Err)) (hp : p.StrictS) (w : Nat → WEv) (hw : ∀ i n e, w i = .fail n e → ∃ n' e', w (i + 1) = .fail n' e')
    (e : Option Err) (out : Bytes) (h : p.runW w = .ok e out true) : ∃ e', e = some e' := by
  cases e with
  | none => exact absurd rfl (hp.reports w hw none out h)
  | some e => exact ⟨e, rfl⟩

theorem C10_transactions_sticky_partial :
    (∀ v : PermissionLevel, v.marshal.StrictS) ∧ (∀ v : Action, v.marshal.StrictS) ∧ (∀ v : Transaction, v.marshal.StrictS) :=
  ⟨perm_write_sticky, action_write_sticky, transaction_write_sticky⟩

/-- C10 is false for actions: the error of writing Account is dropped. If only that write fails, MarshalABI returns nil although the account is missing
from the output. -/
theorem C10_violated : ∃ (a : Action) (w : Nat → WEv) (out : Bytes), a.marshal.runW w = .ok none out true ∧ ¬ a.marshal.Writes out :=
  ⟨⟨1, 2, [], [3]⟩, fun i => if i = 0 then .fail 0 (.io 28) else .ok, [2, 0, 0, 0, 0, 0, 0, 0, 0, 1, 3], rfl, by decide⟩

/-- Non-vacuity of the sticky theorem: every write from the third on fails. -/
example : (⟨1, 2, [], [3]⟩ : Action).marshal.runW (fun i => if 2 ≤ i then .fail 0 (.io 28) else .ok) =
  .ok (some (.io 28)) [1, 0, 0, 0, 0, 0, 0, 0, 2, 0, 0, 0, 0, 0, 0, 0] true := rfl

end Verif
