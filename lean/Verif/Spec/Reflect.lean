import Verif.Spec.Tx
import Verif.Spec.Numbers
import Verif.Model.Reflect
/-! # Wire layout and equality of Go values

Of the model only the types and values are used, their zero values and the size of an element in memory. -/
namespace Verif

/-- `bs` is the n-byte little-endian two's complement form of i. -/
def LeFormI (n : Nat) (i : Int) (bs : Bytes) : Prop := bs.length = n ∧ (leValue bs : Int) = i % 2 ^ (8 * n)

/-- `bs` is the minimal LEB128 form of the zigzag code of i. -/
def ZigZagForm (i : Int) (bs : Bytes) : Prop := ∃ n : Nat, MinLeb bs n ∧ (n : Int) = if 0 ≤ i then 2 * i else -2 * i - 1

def Basic.Layout : (b : Basic) → b.Val → Bytes → Prop
  | .bool, v, bs => bs = [(Bool.toNat v).toUInt8]
  | .string, v, bs => Prefixed bs v
  | .u8, v, bs => LeForm 1 (UInt8.toNat v) bs
  | .u16, v, bs => LeForm 2 (UInt16.toNat v) bs
  | .u32, v, bs => LeForm 4 (UInt32.toNat v) bs
  | .u64, v, bs => LeForm 8 (UInt64.toNat v) bs
  | .i8, v, bs => LeFormI 1 (Int8.toInt v) bs
  | .i16, v, bs => LeFormI 2 (Int16.toInt v) bs
  | .i32, v, bs => LeFormI 4 (Int32.toInt v) bs
  | .i64, v, bs => LeFormI 8 (Int64.toInt v) bs
  | .f32, v, bs => LeForm 4 (UInt32.toNat v) bs
  | .f64, v, bs => LeForm 8 (UInt64.toNat v) bs
  | .int, v, bs => ZigZagForm (Int64.toInt v) bs
  | .uint, v, bs => MinLeb bs (UInt64.toNat v)

def AssetLayout (a : Asset) (bs : Bytes) : Prop := ∃ v s, LeFormI 8 a.value.toInt v ∧ LeForm 8 a.symbol.toNat s ∧ bs = v ++ s

def ChainTy.Layout : (c : ChainTy) → c.Val → Bytes → Prop
  | .action, v, bs => ActionLayout v bs
  | .asset, v, bs => AssetLayout v bs
  | .blob, v, bs => Prefixed bs (Option.getD (α := Bytes) v [])
  | .bytes, v, bs => Prefixed bs (Option.getD (α := Bytes) v [])
  | .blockNum, v, bs => LeForm 4 (UInt32.toNat v) bs
  | .blockTimestamp, v, bs => LeForm 4 (UInt32.toNat v) bs
  | .timePointSec, v, bs => LeForm 4 (UInt32.toNat v) bs
  | .checksum160, v, bs => bs = v
  | .checksum256, v, bs => bs = v
  | .checksum512, v, bs => bs = v
  | .float128, v, bs => bs = v
  | .int128, v, bs => LeForm 16 (U128.natVal v) bs
  | .uint128, v, bs => LeForm 16 (U128.natVal v) bs
  | .name, v, bs => LeForm 8 (UInt64.toNat v) bs
  | .symbol, v, bs => LeForm 8 (UInt64.toNat v) bs
  | .symbolCode, v, bs => LeForm 8 (UInt64.toNat v) bs
  | .uint64, v, bs => LeForm 8 (UInt64.toNat v) bs
  | .permissionLevel, v, bs => PermLayout v bs
  | .publicKey, v, bs => bs = PubKey.type v :: PubKey.data v
  | .signature, v, bs => bs = Sig.type v :: Sig.data v
  | .timePoint, v, bs => LeFormI 8 (Int64.toInt v) bs
  | .transaction, v, bs => TransactionLayout v bs
  | .transactionExtension, v, bs => ExtensionLayout v bs
  | .transactionHeader, v, bs => HeaderLayout v bs
  | .extendedAsset, v, bs => ∃ q c, AssetLayout (ExtendedAsset.quantity v) q ∧ LeForm 8 (ExtendedAsset.contract v).toNat c ∧ bs = q ++ c

mutual
/-- `bs` is the wire form of v. Maps: the entries in the order of the list. -/
def Ty.Layout : (t : Ty) → t.Val → Bytes → Prop
  | .basic b, v, bs => b.Layout v bs
  | .named b, v, bs => b.Layout v bs
  | .unsupported, _, _ => False
  | .bytes, v, bs => Prefixed bs (Option.getD (α := Bytes) v [])
  | .chain c, v, bs => c.Layout v bs
  | .ptr t, v, bs => ∃ x : t.Val, (show Option t.Val from v) = some x ∧ t.Layout x bs
  | .slice t, v, bs => Counted t.Layout (Option.getD (α := List t.Val) v []) bs
  | .array _ t, v, bs => Each t.Layout (show List t.Val from v) bs
  | .map k e, v, bs => Counted (fun x bs => ∃ b1 b2, k.Layout x.1 b1 ∧ e.Layout x.2 b2 ∧ bs = b1 ++ b2) (Option.getD (α := List (k.Val × e.Val)) v []) bs
  | .struct fs, v, bs => fs.Layout v bs
  | .ref _ _ _, _, _ => False
/-- An optional field is a presence byte and, unless it has its zero value, the field. -/
def Fields.Layout : (fs : Fields) → fs.Val → Bytes → Prop
  | .nil, _, bs => bs = []
  | .cons _ tag t fs, v, bs => ∃ b1 b2, fs.Layout (show t.Val × fs.Val from v).2 b2 ∧ bs = b1 ++ b2 ∧
    (if tag = .optional then
      ((show t.Val × fs.Val from v).1 = t.zero ∧ b1 = [0]) ∨ ((show t.Val × fs.Val from v).1 ≠ t.zero ∧ ∃ b, t.Layout (show t.Val × fs.Val from v).1 b ∧ b1 = 1 :: b)
    else t.Layout (show t.Val × fs.Val from v).1 b1)
end

/-! ## Which types -/

/-- The kinds for which a declared type is supported. -/
def Basic.Wide : Basic → Prop
  | .u64 | .u32 | .i64 | .i32 => True
  | _ => False

mutual
/-- `ref` is a struct that is not looked into; no value of it is `Wf`. -/
def Ty.Encodable : Ty → Prop
  | .basic _ => True
  | .named b => b.Wide
  | .unsupported => False
  | .bytes => True
  | .chain _ => True
  | .ptr t => t.Encodable
  | .slice t => t.Encodable
  | .array _ t => t.Encodable
  | .map k e => k.Encodable ∧ e.Encodable
  | .struct fs => fs.Encodable
  | .ref _ _ _ => True
def Fields.Encodable : Fields → Prop
  | .nil => True
  | .cons vis _ t fs => vis = .exported ∧ t.Encodable ∧ fs.Encodable
end

mutual
/-- Types written out in full, without `ref`. -/
def Ty.Whole : Ty → Prop
  | .ptr t => t.Whole
  | .slice t => t.Whole
  | .array _ t => t.Whole
  | .map k e => k.Whole ∧ e.Whole
  | .struct fs => fs.Whole
  | .ref _ _ _ => False
  | _ => True
def Fields.Whole : Fields → Prop
  | .nil => True
  | .cons _ _ t fs => t.Whole ∧ fs.Whole
end

mutual
/-- Types that can be keys of a map, without pointers and floats. -/
def Ty.KeyType : Ty → Prop
  | .basic b => b ≠ .f32 ∧ b ≠ .f64
  | .named b => b ≠ .f32 ∧ b ≠ .f64
  | .unsupported => False
  | .bytes => False
  | .chain c => c ≠ .action ∧ c ≠ .blob ∧ c ≠ .bytes ∧ c ≠ .publicKey ∧ c ≠ .signature ∧ c ≠ .transaction ∧ c ≠ .transactionExtension
  | .ptr _ => False
  | .slice _ => False
  | .array _ t => t.KeyType
  | .map _ _ => False
  | .struct fs => fs.KeyType
  | .ref _ _ _ => False
def Fields.KeyType : Fields → Prop
  | .nil => True
  | .cons _ _ t fs => t.KeyType ∧ fs.KeyType
end

mutual
/-- Types that can be decoded into a variable (`decode`), an element or field (`elem`), or a variable reached through further pointers (`value`):
`**T` only for T with MarshalABI, structs, slices, arrays, maps and 32 and 64 bit integers; no variants. -/
def Ty.Decodable : Ty → Mode → Prop
  | .basic b, m => m = .value → b.Wide
  | .named b, _ => b.Wide
  | .unsupported, _ => False
  | .bytes, _ => True
  | .chain _, _ => True
  | .ptr t, m => t.Decodable (if m = .elem then .decode else .value)
  | .slice t, _ => t.Decodable .elem
  | .array _ t, _ => t.Decodable .elem
  | .map k e, _ => k.KeyType ∧ k.Decodable .decode ∧ e.Decodable .decode
  | .struct fs, _ => fs.Decodable
  | .ref _ _ _, _ => True
def Fields.Decodable : Fields → Prop
  | .nil => True
  | .cons vis tag t fs => vis = .exported ∧ tag ≠ .variant ∧ t.Decodable .elem ∧ fs.Decodable
end

/-! ## Which values -/

/-- Bounds of the varuint writer (C03). -/
def Basic.Wf : (b : Basic) → b.Val → Prop
  | .string, v => List.length (α := UInt8) v < 2 ^ 28
  | .int, v => -2 ^ 27 ≤ Int64.toInt v ∧ Int64.toInt v < 2 ^ 27
  | .uint, v => UInt64.toNat v < 2 ^ 28
  | _, _ => True

/-- The lengths of arrays and the bounds of the varuint writer; well-formed keys and signatures. -/
def ChainTy.Wf : (c : ChainTy) → c.Val → Prop
  | .action, v => Action.Small v
  | .blob, v => (Option.getD (α := Bytes) v []).length < 2 ^ 28
  | .bytes, v => (Option.getD (α := Bytes) v []).length < 2 ^ 28
  | .checksum160, v => List.length (α := UInt8) v = 20
  | .checksum256, v => List.length (α := UInt8) v = 32
  | .checksum512, v => List.length (α := UInt8) v = 64
  | .float128, v => List.length (α := UInt8) v = 16
  | .publicKey, v => WfKey (PubKey.type v) (PubKey.data v)
  | .signature, v => WfSig (Sig.type v) (Sig.data v)
  | .transaction, v => Transaction.Small v
  | .transactionExtension, v => TxExtension.Small v
  | .transactionHeader, v => TxHeader.Small v
  | _, _ => True

mutual
/-- Pointers are not nil, arrays have their length, keys of a map differ, every length and varuint is below 2^28 and slices fit into memory. -/
def Ty.Wf : (t : Ty) → t.Val → Prop
  | .basic b, v => b.Wf v
  | .named b, v => b.Wf v
  | .unsupported, _ => True
  | .bytes, v => (Option.getD (α := Bytes) v []).length < 2 ^ 28
  | .chain c, v => c.Wf v
  | .ptr t, v => ∃ x : t.Val, (show Option t.Val from v) = some x ∧ t.Wf x
  | .slice t, v => (Option.getD (α := List t.Val) v []).length < 2 ^ 28 ∧ (Option.getD (α := List t.Val) v []).length * t.size ≤ maxAlloc ∧
    ∀ x ∈ Option.getD (α := List t.Val) v [], t.Wf x
  | .array n t, v => List.length (α := t.Val) v = n ∧ ∀ x ∈ (show List t.Val from v), t.Wf x
  | .map k e, v => (Option.getD (α := List (k.Val × e.Val)) v []).length < 2 ^ 28 ∧ ((Option.getD (α := List (k.Val × e.Val)) v []).map Prod.fst).Nodup ∧
    ∀ x ∈ Option.getD (α := List (k.Val × e.Val)) v [], k.Wf x.1 ∧ e.Wf x.2
  | .struct fs, v => fs.Wf v
  | .ref _ _ _, _ => False
/-- An optional field may also have its zero value. -/
def Fields.Wf : (fs : Fields) → fs.Val → Prop
  | .nil, _ => True
  | .cons _ tag t fs, v => ((tag = .optional ∧ (show t.Val × fs.Val from v).1 = t.zero) ∨ t.Wf (show t.Val × fs.Val from v).1) ∧ fs.Wf (show t.Val × fs.Val from v).2
end

/-- Previous content of a destination: an Action must not hold authorizations (C37), a Float128 is an array. -/
def ChainTy.Clean : (c : ChainTy) → c.Val → Prop
  | .action, v => Action.authorization v = []
  | .float128, v => List.length (α := UInt8) v = 16
  | _, _ => True

mutual
/-- Previous content of a destination: arrays have their length; no Action holds authorizations. -/
def Ty.Clean : (t : Ty) → t.Val → Prop
  | .basic _, _ => True
  | .named _, _ => True
  | .unsupported, _ => True
  | .bytes, _ => True
  | .chain c, v => c.Clean v
  | .ptr t, v => ∀ x : t.Val, (show Option t.Val from v) = some x → t.Clean x
  | .slice t, v => ∀ x ∈ Option.getD (α := List t.Val) v [], t.Clean x
  | .array n t, v => List.length (α := t.Val) v = n ∧ ∀ x ∈ (show List t.Val from v), t.Clean x
  | .map _ _, _ => True
  | .struct fs, v => fs.Clean v
  | .ref _ _ _, _ => True
def Fields.Clean : (fs : Fields) → fs.Val → Prop
  | .nil, _ => True
  | .cons _ _ t fs, v => t.Clean (show t.Val × fs.Val from v).1 ∧ fs.Clean (show t.Val × fs.Val from v).2
end

/-! ## Equality up to nil slices and maps -/

/-- Element by element. -/
inductive Forall2 {α β : Type} (R : α → β → Prop) : List α → List β → Prop where
  | nil : Forall2 R [] []
  | cons {x : α} {y : β} {xs : List α} {ys : List β} : R x y → Forall2 R xs ys → Forall2 R (x :: xs) (y :: ys)

/-- Two maps have the same keys, and at each key values related by R. -/
def SameMap {α β : Type} (R : β → β → Prop) (m m' : List (α × β)) : Prop :=
  (m'.map Prod.fst).Nodup ∧ m.length = m'.length ∧ (∀ k x, (k, x) ∈ m → ∃ y, (k, y) ∈ m' ∧ R x y) ∧ ∀ k y, (k, y) ∈ m' → ∃ x, (k, x) ∈ m ∧ R x y

def ChainTy.Same : (c : ChainTy) → c.Val → c.Val → Prop
  | .blob, v, w => Option.getD (α := Bytes) v [] = Option.getD (α := Bytes) w []
  | .bytes, v, w => Option.getD (α := Bytes) v [] = Option.getD (α := Bytes) w []
  | _, v, w => v = w

mutual
/-- Equal, when nil and empty slices and maps are not distinguished and maps are compared as sets of entries. -/
def Ty.Same : (t : Ty) → t.Val → t.Val → Prop
  | .basic _, v, w => v = w
  | .named _, v, w => v = w
  | .unsupported, v, w => v = w
  | .bytes, v, w => Option.getD (α := Bytes) v [] = Option.getD (α := Bytes) w []
  | .chain c, v, w => c.Same v w
  | .ptr t, v, w => ((show Option t.Val from v) = none ∧ (show Option t.Val from w) = none) ∨
    ∃ x y : t.Val, (show Option t.Val from v) = some x ∧ (show Option t.Val from w) = some y ∧ t.Same x y
  | .slice t, v, w => Forall2 t.Same (Option.getD (α := List t.Val) v []) (Option.getD (α := List t.Val) w [])
  | .array _ t, v, w => Forall2 t.Same (show List t.Val from v) (show List t.Val from w)
  | .map k e, v, w => SameMap e.Same (Option.getD (α := List (k.Val × e.Val)) v []) (Option.getD (α := List (k.Val × e.Val)) w [])
  | .struct fs, v, w => fs.Same v w
  | .ref _ _ _, v, w => v = w
def Fields.Same : (fs : Fields) → fs.Val → fs.Val → Prop
  | .nil, _, _ => True
  | .cons _ _ t fs, v, w => t.Same (show t.Val × fs.Val from v).1 (show t.Val × fs.Val from w).1 ∧ fs.Same (show t.Val × fs.Val from v).2 (show t.Val × fs.Val from w).2
end

end Verif
