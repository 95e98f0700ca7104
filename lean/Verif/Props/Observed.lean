import Verif.Props.ReflectStream
import Verif.Props.ChainStream
import Verif.Spec.Observed
/-! # C09, C10, C66 as callers see them -/
namespace Verif

theorem cut_of_strict {α : Type} {s : Bool} {p : Dec (α × Option Err)} (h : p.Strict s) : p.RefusesCut := fun _ _ hr fin n hn => h.truncated hr fin n hn
theorem faults_of_strict {α : Type} {p : Dec (α × Option Err)} (h : p.Strict false) : p.ReportsFaults := fun r r' a e => C66_faults_partial p h r r' a e
theorem writes_of_strict {p : Enc (Option Err)} (h : p.Strict) : p.ReportsFaults := fun w e out he => C10_write_errors p h w e out he

/-! ## Reading -/

/-- C09: a stream that ends or fails inside what a reading method of abi.Decoder wants -/
theorem C09_primitives : readByte.RefusesCut ∧ readUint8.RefusesCut ∧ readUint16.RefusesCut ∧ readUint32.RefusesCut ∧ readUint64.RefusesCut ∧ readInt8.RefusesCut ∧
    readInt16.RefusesCut ∧ readInt32.RefusesCut ∧ readInt64.RefusesCut ∧ readFloat32.RefusesCut ∧ readFloat64.RefusesCut ∧ readBool.RefusesCut ∧
    readVaruint.RefusesCut ∧ readVarintD.RefusesCut ∧ readString.RefusesCut :=
  let ⟨h0, h1, h2, h3, h4, h5, h6, h7, h8, h9, h10, h11, h12, h13, h14⟩ := C09_primitives_strict false
  ⟨cut_of_strict h0, cut_of_strict h1, cut_of_strict h2, cut_of_strict h3, cut_of_strict h4, cut_of_strict h5, cut_of_strict h6, cut_of_strict h7, cut_of_strict h8, cut_of_strict h9, cut_of_strict h10, cut_of_strict h11, cut_of_strict h12, cut_of_strict h13, cut_of_strict h14⟩

/-- C66 for the reading methods -/
theorem C66_primitives : readByte.ReportsFaults ∧ readUint8.ReportsFaults ∧ readUint16.ReportsFaults ∧ readUint32.ReportsFaults ∧ readUint64.ReportsFaults ∧ readInt8.ReportsFaults ∧
    readInt16.ReportsFaults ∧ readInt32.ReportsFaults ∧ readInt64.ReportsFaults ∧ readFloat32.ReportsFaults ∧ readFloat64.ReportsFaults ∧ readBool.ReportsFaults ∧
    readVaruint.ReportsFaults ∧ readVarintD.ReportsFaults ∧ readString.ReportsFaults :=
  let ⟨h0, h1, h2, h3, h4, h5, h6, h7, h8, h9, h10, h11, h12, h13, h14⟩ := C09_primitives_strict false
  ⟨faults_of_strict h0, faults_of_strict h1, faults_of_strict h2, faults_of_strict h3, faults_of_strict h4, faults_of_strict h5, faults_of_strict h6, faults_of_strict h7, faults_of_strict h8, faults_of_strict h9, faults_of_strict h10, faults_of_strict h11, faults_of_strict h12, faults_of_strict h13, faults_of_strict h14⟩

/-- C09 for every UnmarshalABI of pkg/chain, whatever the destination holds -/
theorem C09_chain : (∀ o, (Name.unmarshal o).RefusesCut) ∧ (∀ o, (Symbol.unmarshal o).RefusesCut) ∧ (∀ o : Asset, o.unmarshal.RefusesCut) ∧ (∀ o : ExtendedAsset, o.unmarshal.RefusesCut) ∧
    (∀ o : U128, o.unmarshal.RefusesCut) ∧ (∀ o, (Float128.unmarshal o).RefusesCut) ∧ (∀ o, (Uint64.unmarshal o).RefusesCut) ∧ (∀ o, (BlockNum.unmarshal o).RefusesCut) ∧
    (∀ o, (TimePoint.unmarshal o).RefusesCut) ∧ (∀ o, (TimePointSec.unmarshal o).RefusesCut) ∧ (∀ o, (BytesT.unmarshal o).RefusesCut) ∧ (∀ n o, (Checksum.unmarshal n o).RefusesCut) ∧
    (∀ o : PubKey, o.unmarshal.RefusesCut) ∧ (∀ o : Sig, o.unmarshal.RefusesCut) ∧ (∀ o : TxHeader, o.unmarshal.RefusesCut) ∧ (∀ o : TxExtension, o.unmarshal.RefusesCut) ∧
    (∀ o : PermissionLevel, o.unmarshal.RefusesCut) ∧ (∀ o : Action, o.unmarshal.RefusesCut) ∧ (∀ o : Transaction, o.unmarshal.RefusesCut) :=
  let ⟨h0, h1, h2, h3, h4, h5, h6, h7, h8, h9, h10, h11, h12, h13, h14, h15⟩ := C09_chain_strict false
  let ⟨p, a, _, _, t⟩ := C09_transactions_strict
  ⟨fun o => cut_of_strict (h0 o), fun o => cut_of_strict (h1 o), fun o => cut_of_strict (h2 o), fun o => cut_of_strict (h3 o), fun o => cut_of_strict (h4 o), fun o => cut_of_strict (h5 o), fun o => cut_of_strict (h6 o), fun o => cut_of_strict (h7 o), fun o => cut_of_strict (h8 o), fun o => cut_of_strict (h9 o), fun o => cut_of_strict (h10 o), fun n o => cut_of_strict (h11 n o), fun o => cut_of_strict (h12 o), fun o => cut_of_strict (h13 o), fun o => cut_of_strict (h14 o), fun o => cut_of_strict (h15 o), fun o => cut_of_strict (p o), fun o => cut_of_strict (a o), fun o => cut_of_strict (t o)⟩

/-- C66 for every UnmarshalABI of pkg/chain but those of PermissionLevel, Action and Transaction, for which it is false (C66_violated) -/
theorem C66_chain_partial : (∀ o, (Name.unmarshal o).ReportsFaults) ∧ (∀ o, (Symbol.unmarshal o).ReportsFaults) ∧ (∀ o : Asset, o.unmarshal.ReportsFaults) ∧ (∀ o : ExtendedAsset, o.unmarshal.ReportsFaults) ∧
    (∀ o : U128, o.unmarshal.ReportsFaults) ∧ (∀ o, (Float128.unmarshal o).ReportsFaults) ∧ (∀ o, (Uint64.unmarshal o).ReportsFaults) ∧ (∀ o, (BlockNum.unmarshal o).ReportsFaults) ∧
    (∀ o, (TimePoint.unmarshal o).ReportsFaults) ∧ (∀ o, (TimePointSec.unmarshal o).ReportsFaults) ∧ (∀ o, (BytesT.unmarshal o).ReportsFaults) ∧ (∀ n o, (Checksum.unmarshal n o).ReportsFaults) ∧
    (∀ o : PubKey, o.unmarshal.ReportsFaults) ∧ (∀ o : Sig, o.unmarshal.ReportsFaults) ∧ (∀ o : TxHeader, o.unmarshal.ReportsFaults) ∧ (∀ o : TxExtension, o.unmarshal.ReportsFaults) :=
  let ⟨h0, h1, h2, h3, h4, h5, h6, h7, h8, h9, h10, h11, h12, h13, h14, h15⟩ := C09_chain_strict false
  ⟨fun o => faults_of_strict (h0 o), fun o => faults_of_strict (h1 o), fun o => faults_of_strict (h2 o), fun o => faults_of_strict (h3 o), fun o => faults_of_strict (h4 o), fun o => faults_of_strict (h5 o), fun o => faults_of_strict (h6 o), fun o => faults_of_strict (h7 o), fun o => faults_of_strict (h8 o), fun o => faults_of_strict (h9 o), fun o => faults_of_strict (h10 o), fun n o => faults_of_strict (h11 n o), fun o => faults_of_strict (h12 o), fun o => faults_of_strict (h13 o), fun o => faults_of_strict (h14 o), fun o => faults_of_strict (h15 o)⟩

/-- C09 for Decode and DecodeVariant and every type without binary extensions, whatever the destination holds -/
theorem C09_reflect_cut (t : Ty) (ht : t.NoExt true) (old : t.Val) : (decode t old).RefusesCut ∧ (decodeVariant t old).RefusesCut :=
  ⟨cut_of_strict (C09_reflect_strict true t ht old).1, cut_of_strict (C09_reflect_strict true t ht old).2⟩

/-- C66 for them, without PermissionLevel, Action and Transaction -/
theorem C66_reflect_partial (t : Ty) (ht : t.NoExt false) (old : t.Val) : (decode t old).ReportsFaults ∧ (decodeVariant t old).ReportsFaults :=
  ⟨faults_of_strict (C09_reflect_strict false t ht old).1, faults_of_strict (C09_reflect_strict false t ht old).2⟩

/-- C09, C66 for Abi.Decode and every type without binary extensions -/
theorem C09_abi_cut (a : Abi) (n : Bytes) (hx : a.NoExt n) (fuel : Nat) : (a.decode fuel n).RefusesCut := cut_of_strict (C09_abi_strict true a n hx fuel)
theorem C66_abi (a : Abi) (n : Bytes) (hx : a.NoExt n) (fuel : Nat) : (a.decode fuel n).ReportsFaults := faults_of_strict (C09_abi_strict false a n hx fuel)

/-- An asset cut after nine bytes, on a reader that fails there -/
example : (Asset.unmarshal ⟨0, 0⟩).Reads [1, 0, 0, 0, 0, 0, 0, 0, 4, 69, 79, 83, 0, 0, 0, 0] ⟨1, 1397703940⟩ ∧
    (Asset.unmarshal ⟨0, 0⟩).runE (.io 5) [1, 0, 0, 0, 0, 0, 0, 0, 4] = .ok (⟨1, 0⟩, some (.io 5)) [] :=
  ⟨asset_unmarshal_reads ⟨1, 1397703940⟩ ⟨0, 0⟩, by decide +kernel⟩

/-! ## Writing -/

/-- C10 for the writing methods of abi.Encoder -/
theorem C10_primitives : (∀ v, (writeBytes v).ReportsFaults) ∧ (∀ v, (writeByte v).ReportsFaults) ∧ (∀ v, (writeBool v).ReportsFaults) ∧ (∀ v, (writeUint16 v).ReportsFaults) ∧
    (∀ v, (writeUint32 v).ReportsFaults) ∧ (∀ v, (writeUint64 v).ReportsFaults) ∧ (∀ v, (writeInt8 v).ReportsFaults) ∧ (∀ v, (writeInt16 v).ReportsFaults) ∧
    (∀ v, (writeInt32 v).ReportsFaults) ∧ (∀ v, (writeInt64 v).ReportsFaults) ∧ (∀ v, (writeVaruint v).ReportsFaults) ∧ (∀ v, (writeVarint v).ReportsFaults) ∧
    (∀ v, (writeString v).ReportsFaults) :=
  let ⟨h0, h1, h2, h3, h4, h5, h6, h7, h8, h9, h10, h11, h12⟩ := C10_primitives_strict
  ⟨fun o => writes_of_strict (h0 o), fun o => writes_of_strict (h1 o), fun o => writes_of_strict (h2 o), fun o => writes_of_strict (h3 o), fun o => writes_of_strict (h4 o), fun o => writes_of_strict (h5 o), fun o => writes_of_strict (h6 o), fun o => writes_of_strict (h7 o), fun o => writes_of_strict (h8 o), fun o => writes_of_strict (h9 o), fun o => writes_of_strict (h10 o), fun o => writes_of_strict (h11 o), fun o => writes_of_strict (h12 o)⟩

/-- C10 for every MarshalABI of pkg/chain but those of PermissionLevel, Action and Transaction, for which it is false (C10_violated) -/
theorem C10_chain_partial : (∀ o, (Name.marshal o).ReportsFaults) ∧ (∀ o, (Symbol.marshal o).ReportsFaults) ∧ (∀ o : Asset, o.marshal.ReportsFaults) ∧ (∀ o : ExtendedAsset, o.marshal.ReportsFaults) ∧
    (∀ o : U128, o.marshal.ReportsFaults) ∧ (∀ o, (Float128.marshal o).ReportsFaults) ∧ (∀ o, (Uint64.marshal o).ReportsFaults) ∧ (∀ o, (BlockNum.marshal o).ReportsFaults) ∧
    (∀ o, (TimePoint.marshal o).ReportsFaults) ∧ (∀ o, (TimePointSec.marshal o).ReportsFaults) ∧ (∀ o, (BytesT.marshal o).ReportsFaults) ∧ (∀ o, (Checksum.marshal o).ReportsFaults) ∧
    (∀ o : PubKey, o.marshal.ReportsFaults) ∧ (∀ o : Sig, o.marshal.ReportsFaults) ∧ (∀ o : TxHeader, o.marshal.ReportsFaults) ∧ (∀ o : TxExtension, o.marshal.ReportsFaults) :=
  let ⟨h0, h1, h2, h3, h4, h5, h6, h7, h8, h9, h10, h11, h12, h13, h14, h15⟩ := C10_chain_strict
  ⟨fun o => writes_of_strict (h0 o), fun o => writes_of_strict (h1 o), fun o => writes_of_strict (h2 o), fun o => writes_of_strict (h3 o), fun o => writes_of_strict (h4 o), fun o => writes_of_strict (h5 o), fun o => writes_of_strict (h6 o), fun o => writes_of_strict (h7 o), fun o => writes_of_strict (h8 o), fun o => writes_of_strict (h9 o), fun o => writes_of_strict (h10 o), fun o => writes_of_strict (h11 o), fun o => writes_of_strict (h12 o), fun o => writes_of_strict (h13 o), fun o => writes_of_strict (h14 o), fun o => writes_of_strict (h15 o)⟩

/-- C10 for Encode and every type without optional fields, PermissionLevel, Action and Transaction -/
theorem C10_reflect_faults_partial (t : Ty) (ht : t.NoOpt) (v : t.Val) : (encode t v).ReportsFaults := writes_of_strict (C10_reflect_partial t ht v)

/-- C10 for Abi.Encode and every type without optionals -/
theorem C10_abi_faults_partial (a : Abi) (n : Bytes) (hx : a.NoOpt n) (fuel : Nat) (v : AV) : (a.encode fuel n v).ReportsFaults :=
  writes_of_strict (C10_abi_partial a n hx fuel v)

/-- C10 for PermissionLevel, Action and Transaction, if a writer that has failed goes on failing -/
theorem C10_transactions_lasting_partial :
    (∀ v : PermissionLevel, v.marshal.ReportsLasting) ∧ (∀ v : Action, v.marshal.ReportsLasting) ∧ (∀ v : Transaction, v.marshal.ReportsLasting) :=
  let ⟨p, a, t⟩ := C10_transactions_sticky_partial
  ⟨fun v w hw e out h => C10_sticky_partial _ (p v) w hw e out h, fun v w hw e out h => C10_sticky_partial _ (a v) w hw e out h,
    fun v w hw e out h => C10_sticky_partial _ (t v) w hw e out h⟩

/-- The second write of an asset fails after three bytes. -/
example : (Asset.marshal ⟨1, 1397703940⟩).runW (fun i => if i = 1 then .fail 3 (.io 5) else .ok) = .ok (some (.io 5)) [1, 0, 0, 0, 0, 0, 0, 0, 4, 69, 79] true := by rfl

end Verif
