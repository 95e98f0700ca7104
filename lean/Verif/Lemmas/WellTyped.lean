import Verif.Spec.WellTyped
/-! Helper lemmas: how a program can panic. -/
namespace Verif

variable {S : String → Prop}

theorem Enc.Only.bind {α β : Type} {p : Enc α} {f : α → Enc β} (hp : p.Only S) (hf : ∀ a, (f a).Only S) : (p >>= f).Only S := by
  show (Enc.bind p f).Only S
  induction p with
  | ret a => exact hf a
  | panic w => exact hp
  | diverge => exact hp.elim
  | write bs k ih => exact fun e => ih e (hp e)
theorem Dec.Only.bind {α β : Type} {p : Dec α} {f : α → Dec β} (hp : p.Only S) (hf : ∀ a, (f a).Only S) : (p >>= f).Only S := by
  show (Dec.bind p f).Only S
  induction p with
  | ret a => exact hf a
  | panic w => exact hp
  | diverge => exact hp.elim
  | read n k ih => exact fun b c e => ih b c e (hp b c e)
theorem Enc.Only.pure {α : Type} (a : α) : (Pure.pure a : Enc α).Only S := trivial
theorem Dec.Only.pure {α : Type} (a : α) : (Pure.pure a : Dec α).Only S := trivial

theorem Enc.Only.runW {α : Type} {p : Enc α} (h : p.Only S) (w : Nat → WEv) : p.runW w ≠ .diverge ∧ ∀ m, p.runW w = .panic m → S m := by
  induction p generalizing w with
  | ret a => exact ⟨nofun, nofun⟩
  | panic w => exact ⟨nofun, fun m e => by cases e; exact h⟩
  | diverge => exact h.elim
  | write bs k ih =>
    have key : ∀ (e : Option Err) (b : Bytes) (f : Bool), ((k e).runW fun i => w (i + 1)).prepend b f ≠ .diverge ∧ ∀ m, ((k e).runW fun i => w (i + 1)).prepend b f = .panic m → S m := by
      intro e b f
      obtain ⟨h1, h2⟩ := ih e (h e) fun i => w (i + 1)
      cases hr : (k e).runW fun i => w (i + 1) with
      | ok a o g => exact ⟨nofun, nofun⟩
      | panic m => exact ⟨nofun, fun m' e => by cases e; exact h2 m hr⟩
      | diverge => exact (h1 hr).elim
    unfold Enc.runW
    cases hw : w 0 with
    | ok => exact key _ _ _
    | fail n e => exact key _ _ _
theorem Dec.Only.runR {α : Type} {p : Dec α} (h : p.Only S) (r : Reader) : p.runR r ≠ .diverge ∧ ∀ m, p.runR r = .panic m → S m := by
  induction p generalizing r with
  | ret a => exact ⟨nofun, nofun⟩
  | panic w => exact ⟨nofun, fun m e => by cases e; exact h⟩
  | diverge => exact h.elim
  | read n k ih => exact ih _ _ _ (h _ _ _) _

theorem wp_index : WritePanic "index out of range" := .inl rfl
theorem wp_nil : WritePanic "nil pointer dereference" := .inr rfl
theorem rp_index : RuntimePanic "index out of range" := .inl rfl
theorem rp_nil : RuntimePanic "nil pointer dereference" := .inr (.inl rfl)
theorem rp_make : RuntimePanic "makeslice: len out of range" := .inr (.inr rfl)

theorem only_writeBytes (b : Bytes) : (writeBytes b).Only WritePanic := fun _ => trivial
theorem only_writeVaruint (v : UInt64) : (writeVaruint v).Only WritePanic := by
  unfold writeVaruint
  split
  · exact only_writeBytes _
  · exact wp_index
theorem only_encEach {α : Type} (f : α → Enc (Option Err)) (k : Enc (Option Err)) (hf : ∀ x, (f x).Only WritePanic) (hk : k.Only WritePanic) (xs : List α) :
    (encEach f k xs).Only WritePanic := by
  induction xs with
  | nil => exact hk
  | cons x xs ih =>
    unfold encEach
    refine Enc.Only.bind (hf x) fun e => ?_
    cases e with
    | some e => exact Enc.Only.pure _
    | none => exact ih
theorem only_encSlice {α : Type} (f : α → Enc (Option Err)) (xs : List α) (k : Enc (Option Err)) (hf : ∀ x, (f x).Only WritePanic) (hk : k.Only WritePanic) :
    (encSlice f xs k).Only WritePanic := by
  unfold encSlice
  refine Enc.Only.bind (only_writeVaruint _) fun e => ?_
  cases e with
  | some e => exact Enc.Only.pure _
  | none => exact only_encEach f k hf hk xs

/-- Takes a program apart, down to the calls that have a lemma. -/
syntax "only_tac" : tactic
macro_rules | `(tactic| only_tac) => `(tactic| repeat' (first
  | exact Enc.Only.pure _ | exact Dec.Only.pure _ | exact True.intro | exact rp_index | exact rp_nil | exact rp_make | exact wp_index | exact wp_nil
  | exact only_writeBytes _ | exact only_writeVaruint _ | assumption
  | (refine Enc.Only.bind ?_ fun _ => ?_) | (refine Dec.Only.bind ?_ fun _ => ?_) | split))

theorem only_readBytes (n : Int) : (readBytes n).Only RuntimePanic := by
  unfold readBytes
  only_tac
  intro b c e
  dsimp only
  only_tac
theorem only_readByte : readByte.Only RuntimePanic := by
  unfold readByte
  refine Dec.Only.bind (only_readBytes _) fun _ => ?_
  only_tac
theorem only_readUvarintLoop (k : Nat) : ∀ (x s : UInt64), (readUvarintLoop readByte k x s).Only RuntimePanic := by
  induction k with
  | zero => intros; unfold readUvarintLoop; only_tac
  | succ k ih =>
    intro x s
    unfold readUvarintLoop
    refine Dec.Only.bind only_readByte fun _ => ?_
    only_tac
    exact ih _ _
theorem only_readVaruint : readVaruint.Only RuntimePanic := by
  unfold readVaruint
  refine Dec.Only.bind (only_readUvarintLoop 10 0 0) fun _ => ?_
  only_tac
macro_rules | `(tactic| only_tac) => `(tactic| repeat' (first
  | exact Enc.Only.pure _ | exact Dec.Only.pure _ | exact True.intro | exact rp_index | exact rp_nil | exact rp_make | exact wp_index | exact wp_nil
  | exact only_writeBytes _ | exact only_writeVaruint _ | exact only_readBytes _ | exact only_readByte | exact only_readVaruint | assumption
  | (refine Enc.Only.bind ?_ fun _ => ?_) | (refine Dec.Only.bind ?_ fun _ => ?_) | split))

theorem only_basic_read (b : Basic) : b.read.Only RuntimePanic := by
  have h8 : readUint64.Only RuntimePanic := by unfold readUint64; only_tac
  have h4 : readUint32.Only RuntimePanic := by unfold readUint32; only_tac
  have h2 : readUint16.Only RuntimePanic := by unfold readUint16; only_tac
  cases b with
  | bool => show readBool.Only _; unfold readBool; only_tac
  | string => show readString.Only _; unfold readString; only_tac
  | u8 => show readUint8.Only _; unfold readUint8; only_tac
  | u16 => exact h2
  | u32 => exact h4
  | u64 => exact h8
  | i8 => show readInt8.Only _; unfold readInt8; only_tac
  | i16 => show readInt16.Only _; unfold readInt16; only_tac
  | i32 => show readInt32.Only _; unfold readInt32; only_tac
  | i64 => show readInt64.Only _; unfold readInt64; only_tac
  | f32 => show readFloat32.Only _; unfold readFloat32; only_tac
  | f64 => show readFloat64.Only _; unfold readFloat64; only_tac
  | int =>
    show readVarintD.Only _
    unfold readVarintD readVarint
    refine Dec.Only.bind (Dec.Only.bind (only_readUvarintLoop 10 0 0) fun _ => ?_) fun _ => ?_ <;> only_tac
  | uint => exact only_readVaruint

theorem only_basic_write (b : Basic) (v : b.Val) : (b.write v).Only WritePanic := by
  cases b with
  | bool => show (writeBool v).Only _; unfold writeBool writeByte; split <;> exact fun _ => trivial
  | string => show (writeString v).Only _; unfold writeString; only_tac
  | int => show (writeVarint v).Only _; unfold writeVarint; only_tac
  | uint => exact only_writeVaruint v
  | _ => exact fun _ => trivial

theorem only_bytes_marshal (b : Bytes) : (BytesT.marshal b).Only WritePanic := by unfold BytesT.marshal; only_tac
theorem only_bytes_unmarshal (b : Bytes) : (BytesT.unmarshal b).Only RuntimePanic := by unfold BytesT.unmarshal; only_tac
theorem only_name_unmarshal (n : UInt64) : (Name.unmarshal n).Only RuntimePanic := by
  unfold Name.unmarshal
  refine Dec.Only.bind (only_basic_read .u64) fun _ => ?_
  only_tac

theorem only_makeSlice {α β : Type} (zero : α) (size : Nat) (n : UInt64) (k : List α → Dec β) (hk : ∀ xs, (k xs).Only RuntimePanic) : (makeSlice zero size n k).Only RuntimePanic := by
  unfold makeSlice
  only_tac
  exact hk _
theorem only_decEach {α : Type} (f : α → Dec (α × Option Err)) (hf : ∀ x, (f x).Only RuntimePanic) (xs : List α) : (decEach f xs).Only RuntimePanic := by
  induction xs with
  | nil => exact Dec.Only.pure _
  | cons x xs ih =>
    unfold decEach
    refine Dec.Only.bind (hf x) fun _ => ?_
    only_tac
theorem only_decSlice {α : Type} (zero : α) (size : Nat) (f : α → Dec (α × Option Err)) (hf : ∀ x, (f x).Only RuntimePanic) (old : List α) :
    (decSlice zero size f old).Only RuntimePanic := by
  unfold decSlice
  only_tac
  exact only_makeSlice _ _ _ _ fun xs => only_decEach f hf xs
theorem only_putLen {α : Type} (l : UInt64) (f : Bytes → Dec α) (hf : ∀ bs, (f bs).Only RuntimePanic) : (putLen l f).Only RuntimePanic := by
  unfold putLen
  only_tac
  exact hf _

theorem only_permissionLevel_unmarshal (p : PermissionLevel) : (PermissionLevel.unmarshal p).Only RuntimePanic := by
  unfold PermissionLevel.unmarshal
  refine Dec.Only.bind (only_name_unmarshal _) fun _ => Dec.Only.bind (only_name_unmarshal _) fun _ => ?_
  only_tac
theorem only_authLoop (k : Nat) : ∀ auth, (authLoop k auth).Only RuntimePanic := by
  induction k with
  | zero => exact fun _ => Dec.Only.pure _
  | succ k ih =>
    intro auth
    unfold authLoop
    refine Dec.Only.bind (only_permissionLevel_unmarshal _) fun _ => ?_
    only_tac
    exact ih _
macro_rules | `(tactic| only_tac) => `(tactic| repeat' (first
  | exact Enc.Only.pure _ | exact Dec.Only.pure _ | exact True.intro | exact rp_index | exact rp_nil | exact rp_make | exact wp_index | exact wp_nil
  | exact only_writeBytes _ | exact only_writeVaruint _ | exact only_readBytes _ | exact only_readByte | exact only_readVaruint | assumption
  | exact only_name_unmarshal _ | exact only_bytes_unmarshal _ | exact only_authLoop _ _
  | (refine Enc.Only.bind ?_ fun _ => ?_) | (refine Dec.Only.bind ?_ fun _ => ?_) | split))

theorem only_action_unmarshal (a : Action) : (Action.unmarshal a).Only RuntimePanic := by
  unfold Action.unmarshal
  only_tac
theorem only_txExtension_unmarshal (x : TxExtension) : (TxExtension.unmarshal x).Only RuntimePanic := by
  have h1 := only_basic_read .u16
  unfold TxExtension.unmarshal
  only_tac
theorem only_timePointSec_unmarshal (t : UInt32) : (TimePointSec.unmarshal t).Only RuntimePanic := by
  unfold TimePointSec.unmarshal
  refine Dec.Only.bind (only_basic_read .u32) fun _ => ?_
  only_tac
theorem only_txHeader_unmarshal (h : TxHeader) : (TxHeader.unmarshal h).Only RuntimePanic := by
  have h1 := only_basic_read .u16
  have h2 := only_basic_read .u32
  have h3 := only_basic_read .u8
  have h4 := only_timePointSec_unmarshal h.expiration
  unfold TxHeader.unmarshal
  only_tac
theorem only_symbol_unmarshal (s : UInt64) : (Symbol.unmarshal s).Only RuntimePanic := by
  have h1 := only_basic_read .u64
  unfold Symbol.unmarshal
  only_tac
theorem only_asset_unmarshal (a : Asset) : (Asset.unmarshal a).Only RuntimePanic := by
  have h1 := only_basic_read .i64
  have h2 := only_symbol_unmarshal 0
  unfold Asset.unmarshal
  only_tac

macro_rules | `(tactic| only_tac) => `(tactic| repeat' (first
  | exact Enc.Only.pure _ | exact Dec.Only.pure _ | exact True.intro | exact rp_index | exact rp_nil | exact rp_make | exact wp_index | exact wp_nil
  | exact only_writeBytes _ | exact only_writeVaruint _ | exact only_readBytes _ | exact only_readByte | exact only_readVaruint | assumption
  | exact only_name_unmarshal _ | exact only_bytes_unmarshal _ | exact only_txHeader_unmarshal _ | exact only_decSlice _ _ _ only_action_unmarshal _ | exact only_decSlice _ _ _ only_txExtension_unmarshal _
  | (refine Enc.Only.bind ?_ fun _ => ?_) | (refine Dec.Only.bind ?_ fun _ => ?_) | split))

/-- UnmarshalABI of every type of package chain -/
theorem only_chain_unmarshal (c : ChainTy) (v : c.Val) : (c.unmarshal v).Only RuntimePanic := by
  have h8 := only_basic_read .u64
  have h4 := only_basic_read .u32
  have hb := only_bytes_unmarshal
  cases c with
  | action => exact only_action_unmarshal v
  | asset => exact only_asset_unmarshal v
  | blob | bytes => show (unmarshalBytes v).Only _; unfold unmarshalBytes; refine Dec.Only.bind (hb _) fun _ => ?_; only_tac
  | blockNum => show (BlockNum.unmarshal v).Only _; unfold BlockNum.unmarshal; only_tac
  | blockTimestamp | timePointSec => exact only_timePointSec_unmarshal v
  | checksum160 | checksum256 | checksum512 => show (Checksum.unmarshal _ v).Only _; unfold Checksum.unmarshal; only_tac
  | float128 => show (Float128.unmarshal v).Only _; unfold Float128.unmarshal; only_tac
  | int128 | uint128 => show (U128.unmarshal v).Only _; unfold U128.unmarshal; only_tac
  | name => exact only_name_unmarshal v
  | symbol | symbolCode => exact only_symbol_unmarshal v
  | uint64 => show (Uint64.unmarshal v).Only _; unfold Uint64.unmarshal; only_tac
  | permissionLevel => exact only_permissionLevel_unmarshal v
  | publicKey =>
    show (PubKey.unmarshal v).Only _
    unfold PubKey.unmarshal
    only_tac
    exact only_putLen _ _ fun _ => by only_tac
  | signature =>
    show (Sig.unmarshal v).Only _
    unfold Sig.unmarshal
    only_tac
    exact only_putLen _ _ fun _ => only_putLen _ _ fun _ => Dec.Only.pure _
  | timePoint =>
    have := only_basic_read .i64
    show (TimePoint.unmarshal v).Only _; unfold TimePoint.unmarshal; only_tac
  | transaction =>
    show (Transaction.unmarshal v).Only _
    unfold Transaction.unmarshal
    only_tac
  | transactionExtension => exact only_txExtension_unmarshal v
  | transactionHeader => exact only_txHeader_unmarshal v
  | extendedAsset =>
    show (ExtendedAsset.unmarshal v).Only _
    have h1 := only_asset_unmarshal (ExtendedAsset.quantity v)
    have h2 := only_name_unmarshal (ExtendedAsset.contract v)
    unfold ExtendedAsset.unmarshal
    only_tac

theorem only_permissionLevel_marshal (p : PermissionLevel) : (PermissionLevel.marshal p).Only WritePanic := fun _ _ => trivial
theorem only_action_marshal (a : Action) : (Action.marshal a).Only WritePanic := by
  have hn : ∀ n, (Name.marshal n).Only WritePanic := fun _ => only_writeBytes _
  have h1 := hn a.account
  have h2 := hn a.name
  have h3 := only_encEach PermissionLevel.marshal _ only_permissionLevel_marshal (only_bytes_marshal a.data) a.authorization
  unfold Action.marshal
  only_tac
theorem only_txHeader_marshal (h : TxHeader) : (TxHeader.marshal h).Only WritePanic := by
  have h1 := fun v => only_basic_write .u16 v
  have h2 := fun v => only_basic_write .u32 v
  have h3 := fun v => only_basic_write .u8 v
  unfold TxHeader.marshal
  only_tac
  all_goals exact fun _ => trivial
theorem only_txExtension_marshal (x : TxExtension) : (TxExtension.marshal x).Only WritePanic := by
  have h1 := only_basic_write .u16 x.type
  have h2 := only_bytes_marshal x.data
  unfold TxExtension.marshal
  only_tac
theorem only_asset_marshal (a : Asset) : (Asset.marshal a).Only WritePanic := by
  have h1 := only_basic_write .i64 a.value
  have h2 : (Symbol.marshal a.symbol).Only WritePanic := only_writeBytes _
  unfold Asset.marshal
  only_tac

/-- MarshalABI of every type of package chain -/
theorem only_chain_marshal (c : ChainTy) (v : c.Val) : (c.marshal v).Only WritePanic := by
  cases c with
  | action => exact only_action_marshal v
  | asset => exact only_asset_marshal v
  | blob | bytes => exact only_bytes_marshal _
  | permissionLevel => exact only_permissionLevel_marshal v
  | publicKey =>
    show (PubKey.marshal v).Only _
    unfold PubKey.marshal writeByte
    refine Enc.Only.bind (fun _ => trivial) fun _ => ?_
    only_tac
  | signature =>
    show (Sig.marshal v).Only _
    unfold Sig.marshal writeByte
    refine Enc.Only.bind (fun _ => trivial) fun _ => ?_
    only_tac
  | transaction =>
    show (Transaction.marshal v).Only _
    unfold Transaction.marshal
    refine Enc.Only.bind (only_txHeader_marshal _) fun _ => ?_
    split
    · only_tac
    · exact only_encSlice _ _ _ only_action_marshal (only_encSlice _ _ _ only_action_marshal (only_encSlice _ _ _ only_txExtension_marshal (Enc.Only.pure _)))
  | transactionExtension => exact only_txExtension_marshal v
  | transactionHeader => exact only_txHeader_marshal v
  | extendedAsset =>
    show (ExtendedAsset.marshal v).Only _
    have h1 := only_asset_marshal (ExtendedAsset.quantity v)
    have h2 : (Name.marshal (ExtendedAsset.contract v)).Only WritePanic := only_writeBytes _
    unfold ExtendedAsset.marshal
    only_tac
  | _ => exact only_writeBytes _

end Verif
