import Verif.Spec.Reflect
import Mathlib.Data.Nat.Log
/-! # How many bytes a value takes on the wire -/
namespace Verif

/-- Seven bits in a byte. -/
def lebLen (n : Nat) : Nat := Nat.log 128 n + 1

/-- With a length before it -/
def prefixedLen (b : Bytes) : Nat := lebLen b.length + b.length

def countedLen {α : Type} (f : α → Nat) (xs : List α) : Nat := lebLen xs.length + (xs.map f).sum

def Basic.wireSize : (b : Basic) → b.Val → Nat
  | .bool, _ => 1
  | .string, v => prefixedLen v
  | .u8, _ => 1
  | .u16, _ => 2
  | .u32, _ => 4
  | .u64, _ => 8
  | .i8, _ => 1
  | .i16, _ => 2
  | .i32, _ => 4
  | .i64, _ => 8
  | .f32, _ => 4
  | .f64, _ => 8
  | .int, v => lebLen (if 0 ≤ Int64.toInt v then 2 * Int64.toInt v else -2 * Int64.toInt v - 1).toNat
  | .uint, v => lebLen (UInt64.toNat v)

/-- Two names, the authorizations at 16 bytes each, the data -/
def Action.wireSize (a : Action) : Nat := 16 + (lebLen a.authorization.length + 16 * a.authorization.length) + prefixedLen a.data

def TxHeader.wireSize (h : TxHeader) : Nat := 11 + lebLen h.maxNetUsageWords.toNat + lebLen h.delaySec.toNat

def TxExtension.wireSize (x : TxExtension) : Nat := 2 + prefixedLen x.data

def Transaction.wireSize (t : Transaction) : Nat := t.header.wireSize + countedLen Action.wireSize t.contextFreeActions + countedLen Action.wireSize t.actions + countedLen TxExtension.wireSize t.extensions

def ChainTy.wireSize : (c : ChainTy) → c.Val → Nat
  | .action, v => Action.wireSize v
  | .asset, _ => 16
  | .blob, v => prefixedLen (Option.getD (α := Bytes) v [])
  | .bytes, v => prefixedLen (Option.getD (α := Bytes) v [])
  | .blockNum, _ => 4
  | .blockTimestamp, _ => 4
  | .checksum160, v => List.length (α := UInt8) v
  | .checksum256, v => List.length (α := UInt8) v
  | .checksum512, v => List.length (α := UInt8) v
  | .float128, v => List.length (α := UInt8) v
  | .int128, _ => 16
  | .name, _ => 8
  | .permissionLevel, _ => 16
  | .publicKey, v => 1 + (PubKey.data v).length
  | .signature, v => 1 + (Sig.data v).length
  | .symbol, _ => 8
  | .symbolCode, _ => 8
  | .timePoint, _ => 8
  | .timePointSec, _ => 4
  | .transaction, v => Transaction.wireSize v
  | .transactionExtension, v => TxExtension.wireSize v
  | .transactionHeader, v => TxHeader.wireSize v
  | .uint128, _ => 16
  | .uint64, _ => 8
  | .extendedAsset, _ => 24

mutual
def Ty.wireSize : (t : Ty) → t.Val → Nat
  | .basic b, v => b.wireSize v
  | .named b, v => b.wireSize v
  | .unsupported, _ => 0
  | .bytes, v => prefixedLen (Option.getD (α := Bytes) v [])
  | .chain c, v => c.wireSize v
  | .ptr t, v => match (show Option t.Val from v) with
    | none => 0
    | some x => t.wireSize x
  | .slice t, v => countedLen (fun x => t.wireSize x) (Option.getD (α := List t.Val) v [])
  | .array _ t, v => ((show List t.Val from v).map fun x => t.wireSize x).sum
  | .map k e, v => countedLen (fun x => k.wireSize x.1 + e.wireSize x.2) (Option.getD (α := List (k.Val × e.Val)) v [])
  | .struct fs, v => fs.wireSize v
  | .ref _ _ _, _ => 0
/-- An optional field with its zero value is the presence byte alone. -/
def Fields.wireSize : (fs : Fields) → fs.Val → Nat
  | .nil, _ => 0
  | .cons _ tag t fs, v => (if tag = .optional then 1 + (if (show t.Val × fs.Val from v).1 = t.zero then 0 else t.wireSize (show t.Val × fs.Val from v).1) else t.wireSize (show t.Val × fs.Val from v).1) +
    fs.wireSize (show t.Val × fs.Val from v).2
end

end Verif
