import Verif.Spec.Reflect
import Verif.Props.Prim
import Verif.Props.Keys
import Verif.Lemmas.Tx
import Verif.Lemmas.Numbers
import Verif.Lemmas.Symbol
import Verif.Lemmas.Encoding
/-! # The parts of the reflection codec that are not recursive: basic types and chain types -/
namespace Verif

theorem leFormI_leForm (n : Nat) (i : Int) (a : Bytes) (h : LeFormI n i a) : LeForm n (i % 2 ^ (8 * n)).toNat a :=
  ⟨h.1, by have := h.2; omega⟩

theorem leFormI_unique (n : Nat) (i : Int) (a b : Bytes) (ha : LeFormI n i a) (hb : LeFormI n i b) : a = b :=
  leForm_unique _ _ _ _ (leFormI_leForm _ _ _ ha) (leFormI_leForm _ _ _ hb)

theorem zigZagForm_unique (i : Int) (a b : Bytes) (ha : ZigZagForm i a) (hb : ZigZagForm i b) : a = b := by
  obtain ⟨n, h1, h2⟩ := ha
  obtain ⟨m, g1, g2⟩ := hb
  have : n = m := by omega
  subst this
  exact minLeb_unique _ _ _ h1 g1

theorem Basic.layout_unique (b : Basic) (v : b.Val) (x y : Bytes) (hx : b.Layout v x) (hy : b.Layout v y) : x = y := by
  cases b
  case bool => exact hx.trans hy.symm
  case string => exact prefixed_unique _ _ _ hx hy
  case u8 => exact leForm_unique _ _ _ _ hx hy
  case u16 => exact leForm_unique _ _ _ _ hx hy
  case u32 => exact leForm_unique _ _ _ _ hx hy
  case u64 => exact leForm_unique _ _ _ _ hx hy
  case i8 => exact leFormI_unique _ _ _ _ hx hy
  case i16 => exact leFormI_unique _ _ _ _ hx hy
  case i32 => exact leFormI_unique _ _ _ _ hx hy
  case i64 => exact leFormI_unique _ _ _ _ hx hy
  case f32 => exact leForm_unique _ _ _ _ hx hy
  case f64 => exact leForm_unique _ _ _ _ hx hy
  case int => exact zigZagForm_unique _ _ _ hx hy
  case uint => exact minLeb_unique _ _ _ hx hy

/-- The bytes of a basic value, what writes and what reads them. -/
theorem Basic.codec (b : Basic) (v : b.Val) (h : b.Wf v) : ∃ bs, b.Layout v bs ∧ (b.write v).Writes bs ∧ b.read.Reads bs v := by
  cases b
  case bool => 
    cases (show Bool from v)
    · exact ⟨_, rfl, writeBool_writes false, readBool_reads false⟩
    · exact ⟨_, rfl, writeBool_writes true, readBool_reads true⟩
  case string => exact ⟨_, ⟨_, varuintBytes_minLeb _ h, rfl⟩, writeString_writes _ h, readString_reads _ h⟩
  case u8 => exact ⟨_, leForm1 _, writeByte_writes _, readUint8_reads _⟩
  case u16 => exact ⟨_, leForm2 _, writeBytes_writes _, readUint16_reads _⟩
  case u32 => exact ⟨_, leForm4 _, writeBytes_writes _, readUint32_reads _⟩
  case u64 => exact ⟨_, leForm8 _, writeBytes_writes _, readUint64_reads _⟩
  case i8 => obtain ⟨bs, a, b, c, d⟩ := C01_int8 v; exact ⟨bs, ⟨b, c⟩, a, d⟩
  case i16 => obtain ⟨bs, a, b, c, d⟩ := C01_int16 v; exact ⟨bs, ⟨b, c⟩, a, d⟩
  case i32 => obtain ⟨bs, a, b, c, d⟩ := C01_int32 v; exact ⟨bs, ⟨b, c⟩, a, d⟩
  case i64 => obtain ⟨bs, a, b, c, d⟩ := C01_int64 v; exact ⟨bs, ⟨b, c⟩, a, d⟩
  case f32 => exact ⟨_, leForm4 _, writeBytes_writes _, readFloat32_reads _⟩
  case f64 => exact ⟨_, leForm8 _, writeBytes_writes _, readFloat64_reads _⟩
  case int =>
    obtain ⟨bs, hw⟩ := (C03_varint_iff_partial v).1.2 h
    obtain ⟨_, h1, h2, h3, h4⟩ := C04_varint v none bs hw
    exact ⟨bs, ⟨_, ⟨h1, rfl, h3⟩, h2⟩, hw, h4⟩
  case uint =>
    exact ⟨_, varuintBytes_minLeb _ h, varuint_writes64 _ h, varuint_reads64 _ h⟩

theorem Basic.codecKind (b : Basic) (v old : b.Val) (hw : b.Wide) : ∃ bs, b.Layout v bs ∧ (b.writeKind v).Writes bs ∧ (b.readKind old).Reads bs v := by
  cases b <;> try exact hw.elim
  case u32 => exact ⟨_, leForm4 _, writeBytes_writes _, (readUint32_reads _).last rfl⟩
  case u64 => exact ⟨_, leForm8 _, writeBytes_writes _, (readUint64_reads _).last rfl⟩
  case i32 => obtain ⟨bs, a, b, c, d⟩ := C01_int32 v; exact ⟨bs, ⟨b, c⟩, a, d.last rfl⟩
  case i64 => obtain ⟨bs, a, b, c, d⟩ := C01_int64 v; exact ⟨bs, ⟨b, c⟩, a, d.last rfl⟩

theorem Basic.reads (b : Basic) (v : b.Val) (bs : Bytes) (h : b.Wf v) (hl : b.Layout v bs) : b.read.Reads bs v := by
  obtain ⟨bs', h1, _, h3⟩ := b.codec v h
  rwa [b.layout_unique v _ _ hl h1]

theorem Basic.readsKind (b : Basic) (v old : b.Val) (bs : Bytes) (hw : b.Wide) (hl : b.Layout v bs) : (b.readKind old).Reads bs v := by
  obtain ⟨bs', h1, _, h3⟩ := b.codecKind v old hw
  rwa [b.layout_unique v _ _ hl h1]

/-! ### Chain types -/

theorem asset_layout (a : Asset) : AssetLayout a (leBytes 8 a.value.toUInt64.toNat ++ leBytes 8 a.symbol.toNat) := by
  refine ⟨_, _, ?_, leForm8 _, rfl⟩
  refine ⟨length_leBytes _ _, ?_⟩
  rw [leValue_eq_leNat, leNat_leBytes8 _ a.value.toUInt64.toNat_lt, int64_toInt, Int.bmod_def]
  have := a.value.toUInt64.toNat_lt
  omega

theorem assetLayout_unique (a : Asset) (x y : Bytes) (hx : AssetLayout a x) (hy : AssetLayout a y) : x = y := by
  obtain ⟨_, _, h1, h2, rfl⟩ := hx
  obtain ⟨_, _, g1, g2, rfl⟩ := hy
  rw [leFormI_unique _ _ _ _ h1 g1, leForm_unique _ _ _ _ h2 g2]

theorem permLayout_unique (v : PermissionLevel) (x y : Bytes) (hx : PermLayout v x) (hy : PermLayout v y) : x = y := by
  obtain ⟨_, _, h1, h2, rfl⟩ := hx
  obtain ⟨_, _, g1, g2, rfl⟩ := hy
  rw [leForm_unique _ _ _ _ h1 g1, leForm_unique _ _ _ _ h2 g2]

theorem actionLayout_unique (v : Action) (x y : Bytes) (hx : ActionLayout v x) (hy : ActionLayout v y) : x = y := by
  obtain ⟨_, _, _, _, h1, h2, h3, h4, rfl⟩ := hx
  obtain ⟨_, _, _, _, g1, g2, g3, g4, rfl⟩ := hy
  rw [leForm_unique _ _ _ _ h1 g1, leForm_unique _ _ _ _ h2 g2, counted_unique _ permLayout_unique _ _ _ h3 g3, prefixed_unique _ _ _ h4 g4]

theorem headerLayout_unique (v : TxHeader) (x y : Bytes) (hx : HeaderLayout v x) (hy : HeaderLayout v y) : x = y := by
  obtain ⟨_, _, _, _, _, _, h1, h2, h3, h4, h5, h6, rfl⟩ := hx
  obtain ⟨_, _, _, _, _, _, g1, g2, g3, g4, g5, g6, rfl⟩ := hy
  rw [leForm_unique _ _ _ _ h1 g1, leForm_unique _ _ _ _ h2 g2, leForm_unique _ _ _ _ h3 g3, minLeb_unique _ _ _ h4 g4, leForm_unique _ _ _ _ h5 g5,
    minLeb_unique _ _ _ h6 g6]

theorem extensionLayout_unique (v : TxExtension) (x y : Bytes) (hx : ExtensionLayout v x) (hy : ExtensionLayout v y) : x = y := by
  obtain ⟨_, _, h1, h2, rfl⟩ := hx
  obtain ⟨_, _, g1, g2, rfl⟩ := hy
  rw [leForm_unique _ _ _ _ h1 g1, prefixed_unique _ _ _ h2 g2]

theorem transactionLayout_unique (v : Transaction) (x y : Bytes) (hx : TransactionLayout v x) (hy : TransactionLayout v y) : x = y := by
  obtain ⟨_, _, _, _, h1, h2, h3, h4, rfl⟩ := hx
  obtain ⟨_, _, _, _, g1, g2, g3, g4, rfl⟩ := hy
  rw [headerLayout_unique _ _ _ h1 g1, counted_unique _ actionLayout_unique _ _ _ h2 g2, counted_unique _ actionLayout_unique _ _ _ h3 g3,
    counted_unique _ extensionLayout_unique _ _ _ h4 g4]

theorem ChainTy.layout_unique (c : ChainTy) (v : c.Val) (x y : Bytes) (hx : c.Layout v x) (hy : c.Layout v y) : x = y := by
  cases c
  case action => exact actionLayout_unique _ _ _ hx hy
  case asset => exact assetLayout_unique _ _ _ hx hy
  case blob => exact prefixed_unique _ _ _ hx hy
  case bytes => exact prefixed_unique _ _ _ hx hy
  case blockNum => exact leForm_unique _ _ _ _ hx hy
  case blockTimestamp => exact leForm_unique _ _ _ _ hx hy
  case timePointSec => exact leForm_unique _ _ _ _ hx hy
  case checksum160 => exact Eq.trans hx (Eq.symm hy)
  case checksum256 => exact Eq.trans hx (Eq.symm hy)
  case checksum512 => exact Eq.trans hx (Eq.symm hy)
  case float128 => exact Eq.trans hx (Eq.symm hy)
  case int128 => exact leForm_unique _ _ _ _ hx hy
  case uint128 => exact leForm_unique _ _ _ _ hx hy
  case name => exact leForm_unique _ _ _ _ hx hy
  case symbol => exact leForm_unique _ _ _ _ hx hy
  case symbolCode => exact leForm_unique _ _ _ _ hx hy
  case uint64 => exact leForm_unique _ _ _ _ hx hy
  case permissionLevel => exact permLayout_unique _ _ _ hx hy
  case publicKey => exact Eq.trans hx (Eq.symm hy)
  case signature => exact Eq.trans hx (Eq.symm hy)
  case timePoint => exact leFormI_unique _ _ _ _ hx hy
  case transaction => exact transactionLayout_unique _ _ _ hx hy
  case transactionExtension => exact extensionLayout_unique _ _ _ hx hy
  case transactionHeader => exact headerLayout_unique _ _ _ hx hy
  case extendedAsset =>
    obtain ⟨_, _, h1, h2, rfl⟩ := hx
    obtain ⟨_, _, g1, g2, rfl⟩ := hy
    rw [assetLayout_unique _ _ _ h1 g1, leForm_unique _ _ _ _ h2 g2]

theorem unmarshalBytes_reads (v old : Option Bytes) (h : (v.getD []).length < 2 ^ 28) : (unmarshalBytes old).Reads (dataBytes (v.getD [])) (some (v.getD [])) :=
  (bytesT_unmarshal_reads _ _ h).last rfl

theorem u128_layout (u : U128) : LeForm 16 u.natVal u.bytesLE := ⟨by simp [U128.bytesLE, length_leBytes], by rw [leValue_eq_leNat, bytesLE_nat]⟩

theorem i64_layout (v : Int64) : LeFormI 8 v.toInt (leBytes 8 v.toUInt64.toNat) := by
  refine ⟨length_leBytes _ _, ?_⟩
  rw [leValue_eq_leNat, leNat_leBytes8 _ v.toUInt64.toNat_lt, int64_toInt, Int.bmod_def]
  have := v.toUInt64.toNat_lt
  omega

/-- The bytes of a chain value, what writes them, and what reading them gives. -/
theorem ChainTy.codec (c : ChainTy) (v : c.Val) (h : c.Wf v) :
    ∃ bs, c.Layout v bs ∧ (c.marshal v).Writes bs ∧ ∀ old, c.Clean old → ∃ w, c.Same v w ∧ (c.unmarshal old).Reads bs w := by
  cases c
  case action =>
    refine ⟨_, action_layout _ h, action_writes _ h, fun old ho => ⟨v, rfl, ?_⟩⟩
    have := action_reads v old h
    rw [show Action.authorization old = [] from ho] at this
    exact this
  case asset => exact ⟨_, asset_layout _, asset_marshal_writes v, fun old _ => ⟨v, rfl, asset_unmarshal_reads v old⟩⟩
  case blob => exact ⟨_, prefixed_dataBytes _ h, bytesT_writes _ h, fun old _ => ⟨some (Option.getD (α := Bytes) v []), rfl, unmarshalBytes_reads v old h⟩⟩
  case bytes => exact ⟨_, prefixed_dataBytes _ h, bytesT_writes _ h, fun old _ => ⟨some (Option.getD (α := Bytes) v []), rfl, unmarshalBytes_reads v old h⟩⟩
  case blockNum => exact ⟨_, leForm4 _, writeBytes_writes _, fun old _ => ⟨v, rfl, (readUint32_reads _).last rfl⟩⟩
  case blockTimestamp => exact ⟨_, leForm4 _, writeBytes_writes _, fun old _ => ⟨v, rfl, (readUint32_reads _).last rfl⟩⟩
  case timePointSec => exact ⟨_, leForm4 _, writeBytes_writes _, fun old _ => ⟨v, rfl, (readUint32_reads _).last rfl⟩⟩
  case checksum160 => exact ⟨v, rfl, writeBytes_writes _, fun old _ => ⟨v, rfl, checksum_unmarshal_reads 20 (by decide) v old h⟩⟩
  case checksum256 => exact ⟨v, rfl, writeBytes_writes _, fun old _ => ⟨v, rfl, checksum_unmarshal_reads 32 (by decide) v old h⟩⟩
  case checksum512 => exact ⟨v, rfl, writeBytes_writes _, fun old _ => ⟨v, rfl, checksum_unmarshal_reads 64 (by decide) v old h⟩⟩
  case float128 => exact ⟨v, rfl, writeBytes_writes _, fun old ho => ⟨v, rfl, float128_unmarshal_reads v old h ho⟩⟩
  case int128 => exact ⟨_, u128_layout _, writeBytes_writes _, fun old _ => ⟨v, rfl, u128_unmarshal_reads v old⟩⟩
  case uint128 => exact ⟨_, u128_layout _, writeBytes_writes _, fun old _ => ⟨v, rfl, u128_unmarshal_reads v old⟩⟩
  case name => exact ⟨_, leForm8 _, writeBytes_writes _, fun old _ => ⟨v, rfl, name_reads v old⟩⟩
  case symbol => exact ⟨_, leForm8 _, writeBytes_writes _, fun old _ => ⟨v, rfl, symbol_unmarshal_reads v old⟩⟩
  case symbolCode => exact ⟨_, leForm8 _, writeBytes_writes _, fun old _ => ⟨v, rfl, symbol_unmarshal_reads v old⟩⟩
  case uint64 => exact ⟨_, leForm8 _, writeBytes_writes _, fun old _ => ⟨v, rfl, (readUint64_reads _).last rfl⟩⟩
  case permissionLevel => exact ⟨_, perm_layout _, perm_writes v, fun old _ => ⟨v, rfl, perm_reads v old⟩⟩
  case publicKey => exact ⟨_, rfl, (C35_key v v h).1, fun old _ => ⟨v, rfl, (C35_key v old h).2⟩⟩
  case signature => exact ⟨_, rfl, (C35_signature v v h).1, fun old _ => ⟨v, rfl, (C35_signature v old h).2⟩⟩
  case timePoint => exact ⟨_, i64_layout _, writeBytes_writes _, fun old _ => ⟨v, rfl, (readInt64_reads _).last rfl⟩⟩
  case transaction => exact ⟨_, transaction_layout _ h, transaction_writes _ h, fun old _ => ⟨v, rfl, transaction_reads v old h⟩⟩
  case transactionExtension => exact ⟨_, extension_layout _ h, extension_writes _ h, fun old _ => ⟨v, rfl, extension_reads v old h⟩⟩
  case transactionHeader => exact ⟨_, header_layout _ h, header_writes _ h, fun old _ => ⟨v, rfl, header_reads v old h⟩⟩
  case extendedAsset =>
    exact ⟨_, ⟨_, _, asset_layout _, leForm8 _, rfl⟩, extendedAsset_marshal_writes v, fun old _ => ⟨v, rfl, extendedAsset_unmarshal_reads v old⟩⟩

theorem ChainTy.reads (c : ChainTy) (v old : c.Val) (bs : Bytes) (h : c.Wf v) (hc : c.Clean old) (hl : c.Layout v bs) :
    ∃ w, c.Same v w ∧ (c.unmarshal old).Reads bs w := by
  obtain ⟨bs', h1, _, h3⟩ := c.codec v h
  rw [c.layout_unique v _ _ hl h1]
  exact h3 old hc

end Verif
