import Verif.Lemmas.Run
import Verif.Model.Reflect
/-! # Functions that do not panic and do not diverge -/
namespace Verif

/-- No path through the function diverges; with `pan = false` none panics either. -/
def Dec.Safe {α : Type} (pan : Bool) : Dec α → Prop
  | .ret _ => True
  | .panic _ => pan = true
  | .diverge => False
  | .read _ k => ∀ b c e, (k b c e).Safe pan

theorem Dec.Safe.bind {α β : Type} {pan : Bool} {p : Dec α} {g : α → Dec β} (hp : p.Safe pan) (hg : ∀ a, (g a).Safe pan) : (p >>= g).Safe pan := by
  change (Dec.bind p g).Safe pan
  induction p with
  | ret a => exact hg a
  | panic w => exact hp
  | diverge => exact hp
  | read n k ih => exact fun b c e => ih b c e (hp b c e)

theorem Dec.Safe.pure {α : Type} {pan : Bool} (a : α) : (Pure.pure a : Dec α).Safe pan := trivial

theorem Dec.Safe.mono {α : Type} {p : Dec α} (h : p.Safe false) (pan : Bool) : p.Safe pan := by
  induction p with
  | ret a => trivial
  | panic w => cases h
  | diverge => cases h
  | read n k ih => exact fun b c e => ih b c e (h b c e)

theorem Dec.Safe.run {α : Type} {pan : Bool} {p : Dec α} (h : p.Safe pan) (fin : Err) (bs : Bytes) :
    p.runE fin bs ≠ .diverge ∧ (pan = false → ∃ a r, p.runE fin bs = .ok a r) := by
  induction p generalizing bs with
  | ret a => exact ⟨(fun h => nomatch h), fun _ => ⟨_, _, rfl⟩⟩
  | panic w => exact ⟨(fun h => nomatch h), fun e => by rw [show pan = true from h] at e; cases e⟩
  | diverge => cases h
  | read n k ih =>
    simp only [Dec.runE]
    split
    · exact ih _ _ _ (h _ _ _) _
    · exact ih _ _ _ (h _ _ _) _

theorem readBytes_safe (pan : Bool) (n : Int) (h : pan = true ∨ n.toNat ≤ maxAlloc) : (readBytes n).Safe pan := by
  unfold readBytes
  split
  · trivial
  · split
    · trivial
    · split
      · rcases h with h | h
        · exact h
        · omega
      · intro b c e
        cases e <;> trivial

/-- Goes through binds, matches and ifs; the arguments are the facts about the parts. -/
macro "safe" "[" ts:term,* "]" : tactic => do
  let alts ← ts.getElems.mapM fun t => `(tactic| exact $t)
  `(tactic| repeat' (first | exact trivial | (first $[| $alts:tactic]* ) | (refine Dec.Safe.bind ?_ ?_) | intro _ | split))

variable (pan : Bool)

theorem readByte_safe : readByte.Safe pan := by unfold readByte; safe [readBytes_safe _ _ (.inr (by decide))]
theorem readUint64_safe : readUint64.Safe pan := by unfold readUint64; safe [readBytes_safe _ _ (.inr (by decide))]
theorem readUint32_safe : readUint32.Safe pan := by unfold readUint32; safe [readBytes_safe _ _ (.inr (by decide))]
theorem readUint16_safe : readUint16.Safe pan := by unfold readUint16; safe [readBytes_safe _ _ (.inr (by decide))]
theorem readUint8_safe : readUint8.Safe pan := by unfold readUint8; safe [readByte_safe pan]
theorem readInt64_safe : readInt64.Safe pan := by unfold readInt64; safe [readUint64_safe pan]
theorem readInt32_safe : readInt32.Safe pan := by unfold readInt32; safe [readUint32_safe pan]
theorem readInt16_safe : readInt16.Safe pan := by unfold readInt16; safe [readUint16_safe pan]
theorem readInt8_safe : readInt8.Safe pan := by unfold readInt8; safe [readByte_safe pan]
theorem readFloat32_safe : readFloat32.Safe pan := by unfold readFloat32; safe [readUint32_safe pan]
theorem readFloat64_safe : readFloat64.Safe pan := by unfold readFloat64; safe [readUint64_safe pan]
theorem readBool_safe : readBool.Safe pan := by unfold readBool; safe [readByte_safe pan]
theorem readUvarintLoop_safe (left : Nat) (x s : UInt64) : (readUvarintLoop readByte left x s).Safe pan := by
  induction left generalizing x s with
  | zero => trivial
  | succ left ih => unfold readUvarintLoop; safe [readByte_safe pan, ih _ _]
theorem readVaruint_safe : readVaruint.Safe pan := by unfold readVaruint readUvarint; safe [readUvarintLoop_safe pan _ _ _]
theorem readVarintD_safe : readVarintD.Safe pan := by unfold readVarintD readVarint readUvarint; safe [readUvarintLoop_safe pan _ _ _]
theorem readString_safe : readString.Safe true := by unfold readString; safe [readVaruint_safe true, readBytes_safe _ _ (.inl rfl)]

theorem name_safe (o : UInt64) : (Name.unmarshal o).Safe pan := by unfold Name.unmarshal; safe [readUint64_safe pan]
theorem symbol_safe (o : UInt64) : (Symbol.unmarshal o).Safe pan := by unfold Symbol.unmarshal; safe [readUint64_safe pan]
theorem asset_safe (o : Asset) : o.unmarshal.Safe pan := by unfold Asset.unmarshal; safe [readInt64_safe pan, symbol_safe pan _]
theorem extendedAsset_safe (o : ExtendedAsset) : o.unmarshal.Safe pan := by unfold ExtendedAsset.unmarshal; safe [asset_safe pan _, name_safe pan _]
theorem u128_safe (o : U128) : o.unmarshal.Safe pan := by unfold U128.unmarshal; safe [readUint64_safe pan]
theorem float128_safe (o : Bytes) : (Float128.unmarshal o).Safe pan := by unfold Float128.unmarshal; safe [readBytes_safe _ _ (.inr (by decide))]
theorem uint64_safe (o : UInt64) : (Uint64.unmarshal o).Safe pan := by unfold Uint64.unmarshal; safe [readUint64_safe pan]
theorem blockNum_safe (o : UInt32) : (BlockNum.unmarshal o).Safe pan := by unfold BlockNum.unmarshal; safe [readUint32_safe pan]
theorem timePoint_safe (o : Int64) : (TimePoint.unmarshal o).Safe pan := by unfold TimePoint.unmarshal; safe [readInt64_safe pan]
theorem timePointSec_safe (o : UInt32) : (TimePointSec.unmarshal o).Safe pan := by unfold TimePointSec.unmarshal; safe [readUint32_safe pan]
theorem perm_safe (o : PermissionLevel) : o.unmarshal.Safe pan := by unfold PermissionLevel.unmarshal; safe [name_safe pan _]
theorem txHeader_safe (o : TxHeader) : o.unmarshal.Safe pan := by
  unfold TxHeader.unmarshal; safe [timePointSec_safe pan _, readUint16_safe pan, readUint32_safe pan, readVaruint_safe pan, readUint8_safe pan]
theorem checksum_safe (n : Nat) (hn : n ≤ 64) (o : Bytes) : (Checksum.unmarshal n o).Safe pan := by
  unfold Checksum.unmarshal; safe [readBytes_safe _ _ (.inr (by unfold maxAlloc; omega))]
theorem bytesT_safe (o : Bytes) : (BytesT.unmarshal o).Safe true := by unfold BytesT.unmarshal; safe [readVaruint_safe true, readBytes_safe _ _ (.inl rfl)]
theorem putLen_safe {β : Type} (l : UInt64) (k : Bytes → Dec β) (hk : ∀ b, (k b).Safe true) : (putLen l k).Safe true := by
  unfold putLen
  split
  · rfl
  · exact hk _
theorem pubKey_safe (o : PubKey) : o.unmarshal.Safe true := by
  unfold PubKey.unmarshal; safe [readByte_safe true, readVaruint_safe true, readBytes_safe _ _ (.inl rfl), putLen_safe _ _ fun _ => trivial]
theorem sig_safe (o : Sig) : o.unmarshal.Safe true := by
  unfold Sig.unmarshal; safe [readByte_safe true, readVaruint_safe true, readBytes_safe _ _ (.inl rfl), putLen_safe _ _ fun _ => putLen_safe _ _ fun _ => trivial]

variable {pan}
theorem decEach_safe {α : Type} (dec : α → Dec (α × Option Err)) (h : ∀ x, (dec x).Safe pan) (xs : List α) : (decEach dec xs).Safe pan := by
  induction xs with
  | nil => trivial
  | cons x xs ih => unfold decEach; safe [h _, ih]
theorem makeSlice_safe {α β : Type} (zero : α) (size : Nat) (n : UInt64) (k : List α → Dec β) (h : ∀ xs, (k xs).Safe true) : (makeSlice zero size n k).Safe true := by
  unfold makeSlice; safe [rfl, h _]
theorem decSlice_safe {α : Type} (zero : α) (size : Nat) (dec : α → Dec (α × Option Err)) (h : ∀ x, (dec x).Safe true) (old : List α) :
    (decSlice zero size dec old).Safe true := by
  unfold decSlice; safe [readVaruint_safe true, makeSlice_safe _ _ _ _ fun _ => decEach_safe _ h _]
theorem authLoop_safe (k : Nat) (auth : List PermissionLevel) : (authLoop k auth).Safe pan := by
  induction k generalizing auth with
  | zero => trivial
  | succ k ih => unfold authLoop; safe [perm_safe pan _, ih _]
theorem action_safe (o : Action) : o.unmarshal.Safe true := by
  unfold Action.unmarshal; safe [name_safe true _, readVaruint_safe true, authLoop_safe _ _, bytesT_safe _]
theorem txExtension_safe (o : TxExtension) : o.unmarshal.Safe true := by unfold TxExtension.unmarshal; safe [readUint16_safe true, bytesT_safe _]
theorem transaction_safe (o : Transaction) : o.unmarshal.Safe true := by
  unfold Transaction.unmarshal; safe [txHeader_safe true _, decSlice_safe _ _ _ action_safe _, decSlice_safe _ _ _ txExtension_safe _]

/-- Types without a length in their encoding -/
def Basic.sized : Basic → Bool
  | .string => false
  | _ => true
def ChainTy.sized : ChainTy → Bool
  | .action | .blob | .bytes | .publicKey | .signature | .transaction | .transactionExtension => false
  | _ => true

theorem basic_safe (b : Basic) (h : pan = true ∨ b.sized = true) : b.read.Safe pan := by
  cases b with
  | string =>
    rcases h with rfl | h
    · exact readString_safe
    · cases h
  | bool => exact readBool_safe pan
  | u8 => exact readUint8_safe pan
  | u16 => exact readUint16_safe pan
  | u32 => exact readUint32_safe pan
  | u64 => exact readUint64_safe pan
  | i8 => exact readInt8_safe pan
  | i16 => exact readInt16_safe pan
  | i32 => exact readInt32_safe pan
  | i64 => exact readInt64_safe pan
  | f32 => exact readFloat32_safe pan
  | f64 => exact readFloat64_safe pan
  | int => exact readVarintD_safe pan
  | uint => exact readVaruint_safe pan

theorem unmarshalBytes_safe (o : Option Bytes) : (unmarshalBytes o).Safe true := by unfold unmarshalBytes; safe [bytesT_safe _]

theorem chain_safe (c : ChainTy) (h : pan = true ∨ c.sized = true) (v : c.Val) : (c.unmarshal v).Safe pan := by
  cases c with
  | action => rcases h with rfl | h <;> first | exact action_safe v | cases h
  | blob => rcases h with rfl | h <;> first | exact unmarshalBytes_safe v | cases h
  | bytes => rcases h with rfl | h <;> first | exact unmarshalBytes_safe v | cases h
  | publicKey => rcases h with rfl | h <;> first | exact pubKey_safe v | cases h
  | signature => rcases h with rfl | h <;> first | exact sig_safe v | cases h
  | transaction => rcases h with rfl | h <;> first | exact transaction_safe v | cases h
  | transactionExtension => rcases h with rfl | h <;> first | exact txExtension_safe v | cases h
  | asset => exact asset_safe pan v
  | blockNum => exact blockNum_safe pan v
  | blockTimestamp => exact timePointSec_safe pan v
  | timePointSec => exact timePointSec_safe pan v
  | checksum160 => exact checksum_safe pan 20 (by decide) v
  | checksum256 => exact checksum_safe pan 32 (by decide) v
  | checksum512 => exact checksum_safe pan 64 (by decide) v
  | float128 => exact float128_safe pan v
  | int128 => exact u128_safe pan v
  | uint128 => exact u128_safe pan v
  | name => exact name_safe pan v
  | symbol => exact symbol_safe pan v
  | symbolCode => exact symbol_safe pan v
  | uint64 => exact uint64_safe pan v
  | permissionLevel => exact perm_safe pan v
  | timePoint => exact timePoint_safe pan v
  | transactionHeader => exact txHeader_safe pan v
  | extendedAsset => exact extendedAsset_safe pan v

end Verif
