import Verif.Model.Name
import Verif.Model.Symbol
import Verif.Model.Numbers
import Verif.Model.Blob
import Verif.Model.Keys
import Verif.Model.Time
import Verif.Model.Tx
/-! # pkg/abi/encode.go, pkg/abi/decode.go: Encode, Decode, EncodeValue, DecodeValue, DecodeVariant; pkg/chain/encoding.go

Go types are finite trees `Ty`, values of a type are `Ty.Val`. Recursive struct types are the limit of their unfoldings (Model/Recursive). Not covered:
recursion not through a struct (`type L []L`), interface types, channels and functions, types with their own MarshalABI/UnmarshalABI other than those of pkg/chain (by embedding: Model/Embed, for the outermost struct), map keys that are not comparable by value (pointers, floats), aliasing between
parts of a destination. Nil and empty slices are distinguished, except inside the structs of pkg/chain. -/
namespace Verif

/-! ## Types -/

/-- Basic Go types; `int` and `uint` are 64 bits wide. -/
inductive Basic where
  | bool | string | u8 | u16 | u32 | u64 | i8 | i16 | i32 | i64 | f32 | f64 | int | uint
deriving DecidableEq, Repr

/-- Values; floats are their bits. -/
def Basic.Val : Basic → Type
  | .bool => Bool
  | .string => Bytes
  | .u8 => UInt8
  | .u16 => UInt16
  | .u32 => UInt32
  | .u64 => UInt64
  | .i8 => Int8
  | .i16 => Int16
  | .i32 => Int32
  | .i64 => Int64
  | .f32 => UInt32
  | .f64 => UInt64
  | .int => Int64
  | .uint => UInt64

/-- The types of pkg/chain with MarshalABI and UnmarshalABI. All but `extendedAsset` are listed in encoding.go. -/
inductive ChainTy where
  | action | asset | blob | blockNum | blockTimestamp | bytes | checksum160 | checksum256 | checksum512 | float128 | int128 | name | permissionLevel
  | publicKey | signature | symbol | symbolCode | timePoint | timePointSec | transaction | transactionExtension | transactionHeader | uint128 | uint64
  | extendedAsset
deriving DecidableEq, Repr

/-- `none` is a nil slice. Arrays are byte lists of the right length. -/
def ChainTy.Val : ChainTy → Type
  | .action => Action
  | .asset => Asset
  | .blob | .bytes => Option Bytes
  | .blockNum | .blockTimestamp | .timePointSec => UInt32
  | .checksum160 | .checksum256 | .checksum512 | .float128 => Bytes
  | .int128 | .uint128 => U128
  | .name | .symbol | .symbolCode | .uint64 => UInt64
  | .permissionLevel => PermissionLevel
  | .publicKey => PubKey
  | .signature => Sig
  | .timePoint => Int64
  | .transaction => Transaction
  | .transactionExtension => TxExtension
  | .transactionHeader => TxHeader
  | .extendedAsset => ExtendedAsset

/-- `eosio:"…"` struct tags; anything else is `none`. -/
inductive Tag where
  | none | optional | extension | variant
deriving DecidableEq, Repr

/-- Field names: exported, not exported, or `_`. -/
inductive Vis where
  | exported | unexported | blank
deriving DecidableEq, Repr

mutual
/-- Types of Go, as far as the reflection codec tells them apart (encode.go:36-152, decode.go:139-306) -/
inductive Ty where
  /-- a predeclared type -/
  | basic (b : Basic)
  /-- a declared type without methods whose underlying type is basic -/
  | named (b : Basic)
  /-- complex64, complex128 -/
  | unsupported
  /-- []byte -/
  | bytes
  | chain (c : ChainTy)
  | ptr (t : Ty)
  /-- a slice type other than []byte (with `basic u8`: a declared type with underlying type []byte) -/
  | slice (t : Ty)
  | array (n : Nat) (t : Ty)
  | map (k v : Ty)
  | struct (fs : Fields)
  /-- the declared struct type number i, of the given size and alignment, by name only (Model/Recursive): what needs to look inside it counts as `diverge` -/
  | ref (i size align : Nat)
/-- Fields of a struct type -/
inductive Fields where
  | nil
  | cons (vis : Vis) (tag : Tag) (t : Ty) (fs : Fields)
end

mutual
/-- Values of the types; nil pointers, slices and maps are `none` -/
def Ty.Val : Ty → Type
  | .basic b => b.Val
  | .named b => b.Val
  | .unsupported => Unit
  | .bytes => Option Bytes
  | .chain c => c.Val
  | .ptr t => Option t.Val
  | .slice t => Option (List t.Val)
  | .array _ t => List t.Val
  | .map k v => Option (List (k.Val × v.Val))
  | .struct fs => fs.Val
  | .ref _ _ _ => Unit
/-- Values of the fields -/
def Fields.Val : Fields → Type
  | .nil => Unit
  | .cons _ _ t fs => t.Val × fs.Val
end

/-! ## Equality, zero values, sizes -/

instance : (b : Basic) → DecidableEq b.Val
  | .bool => inferInstanceAs (DecidableEq Bool)
  | .string => inferInstanceAs (DecidableEq (List UInt8))
  | .u8 => inferInstanceAs (DecidableEq UInt8)
  | .u16 => inferInstanceAs (DecidableEq UInt16)
  | .u32 => inferInstanceAs (DecidableEq UInt32)
  | .u64 => inferInstanceAs (DecidableEq UInt64)
  | .i8 => inferInstanceAs (DecidableEq Int8)
  | .i16 => inferInstanceAs (DecidableEq Int16)
  | .i32 => inferInstanceAs (DecidableEq Int32)
  | .i64 => inferInstanceAs (DecidableEq Int64)
  | .f32 => inferInstanceAs (DecidableEq UInt32)
  | .f64 => inferInstanceAs (DecidableEq UInt64)
  | .int => inferInstanceAs (DecidableEq Int64)
  | .uint => inferInstanceAs (DecidableEq UInt64)

instance : (c : ChainTy) → DecidableEq c.Val
  | .action => inferInstanceAs (DecidableEq Action)
  | .asset => inferInstanceAs (DecidableEq Asset)
  | .blob | .bytes => inferInstanceAs (DecidableEq (Option (List UInt8)))
  | .blockNum | .blockTimestamp | .timePointSec => inferInstanceAs (DecidableEq UInt32)
  | .checksum160 | .checksum256 | .checksum512 | .float128 => inferInstanceAs (DecidableEq (List UInt8))
  | .int128 | .uint128 => inferInstanceAs (DecidableEq U128)
  | .name | .symbol | .symbolCode | .uint64 => inferInstanceAs (DecidableEq UInt64)
  | .permissionLevel => inferInstanceAs (DecidableEq PermissionLevel)
  | .publicKey => inferInstanceAs (DecidableEq PubKey)
  | .signature => inferInstanceAs (DecidableEq Sig)
  | .timePoint => inferInstanceAs (DecidableEq Int64)
  | .transaction => inferInstanceAs (DecidableEq Transaction)
  | .transactionExtension => inferInstanceAs (DecidableEq TxExtension)
  | .transactionHeader => inferInstanceAs (DecidableEq TxHeader)
  | .extendedAsset => inferInstanceAs (DecidableEq ExtendedAsset)

mutual
/-- Equality of values -/
def Ty.decEq : (t : Ty) → DecidableEq t.Val
  | .basic b => inferInstanceAs (DecidableEq b.Val)
  | .named b => inferInstanceAs (DecidableEq b.Val)
  | .unsupported => inferInstanceAs (DecidableEq Unit)
  | .bytes => inferInstanceAs (DecidableEq (Option (List UInt8)))
  | .chain c => inferInstanceAs (DecidableEq c.Val)
  | .ptr t => haveI := t.decEq; inferInstanceAs (DecidableEq (Option t.Val))
  | .slice t => haveI := t.decEq; inferInstanceAs (DecidableEq (Option (List t.Val)))
  | .array _ t => haveI := t.decEq; inferInstanceAs (DecidableEq (List t.Val))
  | .map k v => haveI := k.decEq; haveI := v.decEq; inferInstanceAs (DecidableEq (Option (List (k.Val × v.Val))))
  | .struct fs => fs.decEq
  | .ref _ _ _ => inferInstanceAs (DecidableEq Unit)
/-- Equality of the values of fields -/
def Fields.decEq : (fs : Fields) → DecidableEq fs.Val
  | .nil => inferInstanceAs (DecidableEq Unit)
  | .cons _ _ t fs => haveI := t.decEq; haveI := fs.decEq; inferInstanceAs (DecidableEq (t.Val × fs.Val))
end

instance (t : Ty) : DecidableEq t.Val := t.decEq
instance (fs : Fields) : DecidableEq fs.Val := fs.decEq

/-- Zero values -/
def Basic.zero : (b : Basic) → b.Val
  | .bool => false
  | .string => ([] : Bytes)
  | .u8 => (0 : UInt8)
  | .u16 => (0 : UInt16)
  | .u32 | .f32 => (0 : UInt32)
  | .u64 | .f64 | .uint => (0 : UInt64)
  | .i8 => (0 : Int8)
  | .i16 => (0 : Int16)
  | .i32 => (0 : Int32)
  | .i64 | .int => (0 : Int64)

/-- Zero values -/
def ChainTy.zero : (c : ChainTy) → c.Val
  | .action => Action.zero
  | .asset => (⟨0, 0⟩ : Asset)
  | .blob | .bytes => (none : Option Bytes)
  | .blockNum | .blockTimestamp | .timePointSec => (0 : UInt32)
  | .checksum160 => (List.replicate 20 0 : Bytes)
  | .checksum256 => (List.replicate 32 0 : Bytes)
  | .checksum512 => (List.replicate 64 0 : Bytes)
  | .float128 => (List.replicate 16 0 : Bytes)
  | .int128 | .uint128 => (⟨0, 0⟩ : U128)
  | .name | .symbol | .symbolCode | .uint64 => (0 : UInt64)
  | .permissionLevel => PermissionLevel.zero
  | .publicKey => (⟨0, []⟩ : PubKey)
  | .signature => (⟨0, []⟩ : Sig)
  | .timePoint => (0 : Int64)
  | .transaction => Transaction.zero
  | .transactionExtension => TxExtension.zero
  | .transactionHeader => TxHeader.zero
  | .extendedAsset => (⟨⟨0, 0⟩, 0⟩ : ExtendedAsset)

mutual
/-- Go's zero values -/
def Ty.zero : (t : Ty) → t.Val
  | .basic b => b.zero
  | .named b => b.zero
  | .unsupported => ()
  | .bytes => (none : Option Bytes)
  | .chain c => c.zero
  | .ptr t => (none : Option t.Val)
  | .slice t => (none : Option (List t.Val))
  | .array n t => (List.replicate n t.zero : List t.Val)
  | .map k v => (none : Option (List (k.Val × v.Val)))
  | .struct fs => fs.zero
  | .ref _ _ _ => ()
/-- Zero values of the fields -/
def Fields.zero : (fs : Fields) → fs.Val
  | .nil => ()
  | .cons _ _ t fs => (t.zero, fs.zero)
end

/-- stdlib `reflect.Value.IsZero`: comparison with the zero value (floats by bits; nil slices, maps and pointers only). Simplified for the structs of pkg/chain
that contain slices, where empty slices count as nil. -/
def Ty.isZero (t : Ty) (v : t.Val) : Bool := v = t.zero

/-- Size and alignment in bytes (linux/amd64). Simplified: complex64 gets the layout of complex128. -/
def Basic.size : Basic → Nat
  | .bool | .u8 | .i8 => 1
  | .u16 | .i16 => 2
  | .u32 | .i32 | .f32 => 4
  | .string => 16
  | _ => 8
/-- Alignment in bytes (linux/amd64) -/
def Basic.align : Basic → Nat
  | .string => 8
  | b => b.size
/-- Size in bytes (linux/amd64) of the types of package chain -/
def ChainTy.size : ChainTy → Nat
  | .action => 64
  | .asset | .int128 | .uint128 | .permissionLevel | .float128 => 16
  | .blob | .bytes | .extendedAsset => 24
  | .blockNum | .blockTimestamp | .timePointSec => 4
  | .checksum160 => 20
  | .checksum256 => 32
  | .checksum512 => 64
  | .name | .symbol | .symbolCode | .uint64 | .timePoint => 8
  | .publicKey | .signature | .transactionExtension => 32
  | .transactionHeader => 40
  | .transaction => 112
/-- Alignment in bytes (linux/amd64) of the types of package chain -/
def ChainTy.align : ChainTy → Nat
  | .blockNum | .blockTimestamp | .timePointSec => 4
  | .checksum160 | .checksum256 | .checksum512 | .float128 => 1
  | _ => 8

/-- n rounded up to a multiple of a -/
def roundUp (n a : Nat) : Nat := (n + a - 1) / a * a

mutual
/-- Size and alignment in bytes (linux/amd64) -/
def Ty.layout : Ty → Nat × Nat
  | .basic b => (b.size, b.align)
  | .named b => (b.size, b.align)
  | .unsupported => (16, 8)
  | .bytes => (24, 8)
  | .chain c => (c.size, c.align)
  | .ptr _ => (8, 8)
  | .slice _ => (24, 8)
  | .array n t => (n * t.layout.1, t.layout.2)
  | .map _ _ => (8, 8)
  | .struct fs => fs.layout 0 1
  | .ref i s a => (s, a)
/-- Offset so far, alignment so far. A last field of size zero is padded with one byte. -/
def Fields.layout : Fields → Nat → Nat → Nat × Nat
  | .nil, off, al => (roundUp off al, al)
  | .cons _ _ t fs, off, al =>
    let (s, a) := t.layout
    let al := max al a
    match fs with
    | .nil =>
      let off' := roundUp off a + s
      (roundUp (if s = 0 ∧ off' > 0 then off' + 1 else off') al, al)
    | fs => fs.layout (roundUp off a + s) al
end

/-- stdlib reflect.Type.Size -/
def Ty.size (t : Ty) : Nat := t.layout.1

/-! ## Encoding -/

/-- encode.go:90 -/
def errNilPtr : Err := .msg "eosio encoder: encountered unexpected nil pointer"
/-- encode.go:151; the type is left out -/
def errUnexpectedType : Err := .msg "eosio encoder: unexpected type"
/-- decode.go:305; the type is left out -/
def errUnsupportedType : Err := .msg "abi: unsupported type"

/-- encode.go:37-65 -/
def Basic.write : (b : Basic) → b.Val → Enc (Option Err)
  | .bool, v => writeBool v
  | .string, v => writeString v
  | .u8, v => writeUint8 v
  | .u16, v => writeUint16 v
  | .u32, v => writeUint32 v
  | .u64, v => writeUint64 v
  | .i8, v => writeInt8 v
  | .i16, v => writeInt16 v
  | .i32, v => writeInt32 v
  | .i64, v => writeInt64 v
  | .f32, v => writeFloat32 v
  | .f64, v => writeFloat64 v
  | .int, v => writeVarint v
  | .uint, v => writeVaruint v

/-- encode.go:141-151: the cases of EncodeValue for basic kinds -/
def Basic.writeKind : (b : Basic) → b.Val → Enc (Option Err)
  | .u64, v => writeUint64 v
  | .u32, v => writeUint32 v
  | .i64, v => writeInt64 v
  | .i32, v => writeInt32 v
  | _, _ => pure (some errUnexpectedType)

/-- MarshalABI of the types of pkg/chain -/
def ChainTy.marshal : (c : ChainTy) → c.Val → Enc (Option Err)
  | .action, v => Action.marshal v
  | .asset, v => Asset.marshal v
  | .blob, v => BytesT.marshal (Option.getD v [])
  | .bytes, v => BytesT.marshal (Option.getD v [])
  | .blockNum, v => BlockNum.marshal v
  | .blockTimestamp, v => TimePointSec.marshal v
  | .timePointSec, v => TimePointSec.marshal v
  | .checksum160, v => Checksum.marshal v
  | .checksum256, v => Checksum.marshal v
  | .checksum512, v => Checksum.marshal v
  | .float128, v => Float128.marshal v
  | .int128, v => U128.marshal v
  | .uint128, v => U128.marshal v
  | .name, v => Name.marshal v
  | .symbol, v => Symbol.marshal v
  | .symbolCode, v => Symbol.marshal v
  | .uint64, v => Uint64.marshal v
  | .permissionLevel, v => PermissionLevel.marshal v
  | .publicKey, v => PubKey.marshal v
  | .signature, v => Sig.marshal v
  | .timePoint, v => TimePoint.marshal v
  | .transaction, v => Transaction.marshal v
  | .transactionExtension, v => TxExtension.marshal v
  | .transactionHeader, v => TxHeader.marshal v
  | .extendedAsset, v => ExtendedAsset.marshal v

/-- encode.go:12 `EncodeFunc`, with the type of the value made explicit: (done, err) -/
abbrev EncFn := (t : Ty) → t.Val → Enc (Bool × Option Err)

/-- encode.go:31-34 -/
def viaEncFn (fn : EncFn) (t : Ty) (v : t.Val) (k : Enc (Option Err)) : Enc (Option Err) := do
  let (done, err) ← fn t v
  if done || err.isSome then pure err else k

/-- encode.go:79-155 EncodeValue on a value of a chain type. MarshalABI of Asset, ExtendedAsset and the checksums has a pointer receiver, so
values of these types are not Marshalers and are encoded field by field or element by element. -/
def ChainTy.encodeValue (fn : EncFn) : (c : ChainTy) → c.Val → Enc (Option Err)
  | .checksum160, v => encEach (fun b : UInt8 => viaEncFn fn (.basic .u8) b (writeUint8 b)) (pure none) v
  | .checksum256, v => encEach (fun b : UInt8 => viaEncFn fn (.basic .u8) b (writeUint8 b)) (pure none) v
  | .checksum512, v => encEach (fun b : UInt8 => viaEncFn fn (.basic .u8) b (writeUint8 b)) (pure none) v
  | .asset, v => encodeAsset v
  | .extendedAsset, v => do
    let ea : ExtendedAsset := v
    match ← viaEncFn fn (.chain .asset) ea.quantity (encodeAsset ea.quantity) with
    | some e => pure (some e)
    | none => viaEncFn fn (.chain .name) ea.contract (Name.marshal ea.contract)
  | c, v => c.marshal v
where
  encodeAsset (a : Asset) : Enc (Option Err) := do
    match ← viaEncFn fn (.basic .i64) a.value (writeInt64 a.value) with
    | some e => pure (some e)
    | none => viaEncFn fn (.chain .symbol) a.symbol (Symbol.marshal a.symbol)

/-- encode.go:111-125: one iteration and the rest of the loop. The error of WriteBool is dropped; `Interface()` panics on fields that are not exported. -/
def encodeField (vis : Vis) (tag : Tag) (isZero : Bool) (one rest : Enc (Option Err)) : Enc (Option Err) := do
  let field : Enc (Option Err) :=
    if vis = .exported then do
      match ← one with
      | some e => pure (some e)
      | none => rest
    else .panic "reflect.Value.Interface: cannot return value obtained from unexported field or method"
  if tag = .optional then
    let _ ← writeBool (!isZero)
    if isZero then rest else field
  else field

mutual
/-- encode.go:28-77 `Encode`, :79-155 `EncodeValue`. The order in which a map is iterated is the order of the list. -/
def encodeWith (fn : EncFn) : (t : Ty) → t.Val → Enc (Option Err)
  | .basic b, v => viaEncFn fn (.basic b) v (b.write v)
  | .bytes, v => viaEncFn fn .bytes v do
    let b : Bytes := Option.getD v []
    match ← writeVaruint b.length.toUInt64 with
    | some e => pure (some e)
    | none => writeBytes b
  | .named b, v => viaEncFn fn (.named b) v (b.writeKind v)
  | .unsupported, v => viaEncFn fn .unsupported v (pure (some errUnexpectedType))
  | .chain c, v => viaEncFn fn (.chain c) v (c.encodeValue fn v)
  | .ptr t, v => viaEncFn fn (.ptr t) v <|
    match t, (v : Option t.Val) with
    | .chain _, none => .panic "nil pointer dereference"
    | .chain c, some x => c.marshal x
    | _, none => pure (some errNilPtr)
    | t, some x => encodeWith fn t x
  | .slice t, v => viaEncFn fn (.slice t) v do
    let xs : List t.Val := Option.getD v []
    match ← writeVaruint xs.length.toUInt64 with
    | some e => pure (some e)
    | none => encEach (encodeWith fn t) (pure none) xs
  | .array n t, v => viaEncFn fn (.array n t) v (encEach (encodeWith fn t) (pure none) v)
  | .map k e, v => viaEncFn fn (.map k e) v do
    let xs : List (k.Val × e.Val) := Option.getD v []
    match ← writeVaruint xs.length.toUInt64 with
    | some e => pure (some e)
    | none => encEach (fun (x, y) => do
        match ← encodeWith fn k x with
        | some e => pure (some e)
        | none => encodeWith fn e y) (pure none) xs
  | .struct fs, v => viaEncFn fn (.struct fs) v (encodeFields fn fs v)
  | .ref i s a, v => viaEncFn fn (.ref i s a) v .diverge
/-- encode.go:111-125 -/
def encodeFields (fn : EncFn) : (fs : Fields) → fs.Val → Enc (Option Err)
  | .nil, _ => pure none
  | .cons vis tag t fs, v =>
    let (x, xs) : t.Val × fs.Val := v
    encodeField vis tag (t.isZero x) (encodeWith fn t x) (encodeFields fn fs xs)
end

/-- chain/encoding.go:70-125 `chainEncoder`; ExtendedAsset is not listed -/
def chainEncoder : EncFn
  | .chain .extendedAsset, _ => pure (false, none)
  | .chain c, v => do
    let err ← c.marshal v
    pure (true, err)
  | _, _ => pure (false, none)

/-- chain/encoding.go:131-133 `chain.NewEncoder(w).Encode(v)` -/
def encode (t : Ty) (v : t.Val) : Enc (Option Err) := encodeWith chainEncoder t v

/-- chain/encoding.go:145-153 `NewCustomEncoder` -/
def customEncoder (fn : EncFn) : EncFn := fun t v => do
  let (done, err) ← fn t v
  if !done && err.isNone then chainEncoder t v else pure (done, err)

/-! ## Decoding -/

/-- decode.go:39-74: the destination is overwritten also on error -/
def Basic.read : (b : Basic) → Dec (b.Val × Option Err)
  | .bool => readBool
  | .string => readString
  | .u8 => readUint8
  | .u16 => readUint16
  | .u32 => readUint32
  | .u64 => readUint64
  | .i8 => readInt8
  | .i16 => readInt16
  | .i32 => readInt32
  | .i64 => readInt64
  | .f32 => readFloat32
  | .f64 => readFloat64
  | .int => readVarintD
  | .uint => readVaruint

/-- decode.go:276-305: kept on error -/
def Basic.readKind : (b : Basic) → b.Val → Dec (b.Val × Option Err)
  | .u64, old => do
    let (v, err) ← readUint64
    match err with
    | some e => pure (old, some e)
    | none => pure (v, none)
  | .u32, old => do
    let (v, err) ← readUint32
    match err with
    | some e => pure (old, some e)
    | none => pure (v, none)
  | .i64, old => do
    let (v, err) ← readInt64
    match err with
    | some e => pure (old, some e)
    | none => pure (v, none)
  | .i32, old => do
    let (v, err) ← readInt32
    match err with
    | some e => pure (old, some e)
    | none => pure (v, none)
  | _, old => pure (old, some errUnsupportedType)

/-- Bytes.UnmarshalABI and Blob.UnmarshalABI with nil slices -/
def unmarshalBytes (old : Option Bytes) : Dec (Option Bytes × Option Err) := do
  let (v, err) ← BytesT.unmarshal (old.getD [])
  match err with
  | some e => pure (old, some e)
  | none => pure (some v, none)

/-- UnmarshalABI of the types of pkg/chain -/
def ChainTy.unmarshal : (c : ChainTy) → c.Val → Dec (c.Val × Option Err)
  | .action, v => Action.unmarshal v
  | .asset, v => Asset.unmarshal v
  | .blob, v => unmarshalBytes v
  | .bytes, v => unmarshalBytes v
  | .blockNum, v => BlockNum.unmarshal v
  | .blockTimestamp, v => TimePointSec.unmarshal v
  | .timePointSec, v => TimePointSec.unmarshal v
  | .checksum160, v => Checksum.unmarshal 20 v
  | .checksum256, v => Checksum.unmarshal 32 v
  | .checksum512, v => Checksum.unmarshal 64 v
  | .float128, v => Float128.unmarshal v
  | .int128, v => U128.unmarshal v
  | .uint128, v => U128.unmarshal v
  | .name, v => Name.unmarshal v
  | .symbol, v => Symbol.unmarshal v
  | .symbolCode, v => Symbol.unmarshal v
  | .uint64, v => Uint64.unmarshal v
  | .permissionLevel, v => PermissionLevel.unmarshal v
  | .publicKey, v => PubKey.unmarshal v
  | .signature, v => Sig.unmarshal v
  | .timePoint, v => TimePoint.unmarshal v
  | .transaction, v => Transaction.unmarshal v
  | .transactionExtension, v => TxExtension.unmarshal v
  | .transactionHeader, v => TxHeader.unmarshal v
  | .extendedAsset, v => ExtendedAsset.unmarshal v

/-- decode.go:13 `DecodeFunc` on a pointer to a value of type t: new content, done, err -/
abbrev DecFn := (t : Ty) → t.Val → Dec (t.Val × Bool × Option Err)

/-- How a destination of type t is reached. -/
inductive Mode where
  /-- `dec.Decode(&x)` -/
  | decode
  /-- element of an array or slice, field of a struct (decode.go:162-170, :214-221, :261-269): `dec.Decode(x)`, allocated if nil, for a pointer, else `dec.Decode(&x)` -/
  | elem
  /-- `dec.DecodeValue(x)` -/
  | value
  /-- `dec.DecodeVariant(&x)` after the index has been read -/
  | variant (idx : Nat)
  /-- the selected member of a variant (decode.go:125-137) -/
  | member
deriving DecidableEq

/-- Reached by `dec.Decode(&x)` -/
def Mode.isDecode : Mode → Bool
  | .decode | .elem => true
  | _ => false

/-- decode.go:113; the kind is left out -/
def errVariantKind : Err := .msg "abi: invalid variant: expected struct"
/-- decode.go:117; the index is left out -/
def errVariantIndex : Err := .msg "abi: variant index out of bounds"
/-- decode.go:128; the kind is left out -/
def errVariantMember : Err := .msg "abi: invalid variant: expected field pointer"

/-- What happens to a destination that is not a pointer, a chain type or a struct: in `Decode` (decode.go:33-36) the function is asked first, then `fast`;
`DecodeValue` is `slow`; the two variant modes fail (:112-114, :127-129). -/
def viaDecFn (fn : DecFn) (t : Ty) (mode : Mode) (old : t.Val) (fast slow : t.Val → Dec (t.Val × Option Err)) : Dec (t.Val × Option Err) :=
  match mode with
  | .value => slow old
  | .variant _ => pure (old, some errVariantKind)
  | .member => pure (old, some errVariantMember)
  | _ => do
    let (x, done, err) ← fn t old
    if done || err.isSome then pure (x, err) else fast x

/-- decode.go:77-82 -/
def decodeBytes (old : Option Bytes) : Dec (Option Bytes × Option Err) := do
  let (l, err) ← readVaruint
  match err with
  | some e => pure (old, some e)
  | none =>
    let (_, b, err) ← readBytes (goInt l)
    pure (if goInt l < 0 then none else some b, err)

/-- decode.go:253-274: `decEach` is the loop; the old elements are reused if the length is unchanged -/
def decodeSlice {α : Type} (zero : α) (size : Nat) (dec : α → Dec (α × Option Err)) (old : Option (List α)) : Dec (Option (List α) × Option Err) := do
  let (l, err) ← readVaruint
  match err with
  | some e => pure (old, some e)
  | none =>
    if ((old.getD []).length : Int) ≠ goInt l then
      makeSlice zero size l fun xs => do
        let (ys, err) ← decEach dec xs
        pure (some ys, err)
    else
      let (ys, err) ← decEach dec (old.getD [])
      pure (old.map fun _ => ys, err)

/-- stdlib `reflect.Value.SetMapIndex` -/
def mapSet {α β : Type} [DecidableEq α] (k : α) (v : β) : List (α × β) → List (α × β)
  | [] => [(k, v)]
  | (k', v') :: m => if k' = k then (k', v) :: m else (k', v') :: mapSet k v m

/-- decode.go:188-203: the loop, n iterations left -/
def mapLoop {α β : Type} [DecidableEq α] (dk : Dec (α × Option Err)) (dv : Dec (β × Option Err)) : Nat → List (α × β) → Dec (List (α × β) × Option Err)
  | 0, m => pure (m, none)
  | n + 1, m => do
    let (k, err) ← dk
    match err with
    | some e => pure (m, some e)
    | none =>
      let (v, err) ← dv
      match err with
      | some e => pure (m, some e)
      | none => mapLoop dk dv n (mapSet k v m)

/-- decode.go:177-204 -/
def decodeMap {α β : Type} [DecidableEq α] (dk : Dec (α × Option Err)) (dv : Dec (β × Option Err)) (old : Option (List (α × β))) :
    Dec (Option (List (α × β)) × Option Err) := do
  let (l, err) ← readVaruint
  match err with
  | some e => pure (old, some e)
  | none =>
    let (m, err) ← mapLoop dk dv (goInt l).toNat []
    pure (some m, err)

/-- decode.go:214-218: a nil pointer field is set to a new zero value -/
def Ty.alloc : (t : Ty) → t.Val → t.Val
  | .ptr t, v => some (Option.getD (α := t.Val) v t.zero)
  | _, v => v

/-- stdlib `reflect.Value.IsNil`: `none` where it panics -/
def Ty.isNil : (t : Ty) → t.Val → Option Bool
  | .ptr t, v => some (Option.isNone (α := t.Val) v)
  | .slice t, v => some (Option.isNone (α := List t.Val) v)
  | .map k e, v => some (Option.isNone (α := List (k.Val × e.Val)) v)
  | .bytes, v => some (Option.isNone (α := Bytes) v)
  | .chain .bytes, v => some (Option.isNone (α := Bytes) v)
  | .chain .blob, v => some (Option.isNone (α := Bytes) v)
  | _, _ => none

/-- decode.go:120-124: every member but the selected one is set to nil; `none` where that panics -/
def Fields.clear : (fs : Fields) → Option Nat → fs.Val → Option fs.Val
  | .nil, _, _ => some ()
  | .cons vis _ t fs, idx, v =>
    let (x, xs) : t.Val × fs.Val := v
    let idx' : Option Nat := match idx with
      | some (n + 1) => some n
      | _ => none
    let x' : Option t.Val :=
      if idx = some 0 then some x
      else match t.isNil x with
        | none => none
        | some true => some x
        | some false => if vis = .exported then some t.zero else none
    match x', fs.clear idx' xs with
    | some x, some xs => some (x, xs)
    | _, _ => none

/-- NumField -/
def Fields.count : Fields → Nat
  | .nil => 0
  | .cons _ _ _ fs => fs.count + 1

/-- One iteration of the loop of decode.go:209-251 and the rest of the loop, on the pair of the field and the remaining fields; `x'` is the field after
the allocation of :214-218, `dec` decodes into it. `err` is the variable of :144 before the iteration, `rest` what follows given the variable after it. Fields called
`_` and absent optional fields leave it as it is, and so does the `continue` of :244, where it is io.EOF. -/
def decodeField {α β : Type} (vis : Vis) (tag : Tag) (x x' zero : α) (dec : Mode → Dec (α × Option Err)) (xs : β) (err : Option Err)
    (rest : Option Err → Dec (β × Option Err)) : Dec ((α × β) × Option Err) :=
  let next (y : α) (err : Option Err) : Dec ((α × β) × Option Err) := do
    let (ys, err) ← rest err
    pure ((y, ys), err)
  match vis with
  | .blank => next x err
  | .unexported => .panic "reflect: using value obtained using unexported field"
  | .exported =>
    match tag with
    | .none => do
      let (y, err) ← dec .elem
      match err with
      | some e => pure ((y, xs), some e)
      | none => next y none
    | .optional => do
      let (present, rerr) ← readBool
      match rerr with
      | some e => pure ((x', xs), some e)
      | none =>
        if present then do
          let (y, err) ← dec .elem
          match err with
          | some e => pure ((y, xs), some e)
          | none => next y none
        else next zero err
    | .extension => do
      let (y, err) ← dec .elem
      match err with
      | some e => if e = .eof then next zero (some .eof) else pure ((y, xs), some e)
      | none => next y none
    | .variant => do
      let (idx, err) ← readByte
      match err with
      | some e => pure ((x', xs), some e)
      | none =>
        let (y, err) ← dec (.variant idx.toNat)
        match err with
        | some e => pure ((y, xs), some e)
        | none => next y none

mutual
/-- decode.go:30-94 `Decode`, :143-308 `DecodeValue`, :97-140 `DecodeVariant` without reading the index, :454-520 `indirect`, into a destination of type t
holding `old`: new content and error -/
def decodeWith (fn : DecFn) : (t : Ty) → Mode → t.Val → Dec (t.Val × Option Err)
  | .basic b, mode, old => viaDecFn fn (.basic b) mode old (fun _ => b.read) b.readKind
  | .named b, mode, old => viaDecFn fn (.named b) mode old b.readKind b.readKind
  | .unsupported, mode, old => viaDecFn fn .unsupported mode old (fun old => pure (old, some errUnsupportedType)) (fun old => pure (old, some errUnsupportedType))
  | .bytes, mode, old => viaDecFn fn .bytes mode old decodeBytes (decodeSlice 0 1 fun x => viaDecFn fn (.basic .u8) .elem x (fun _ => readUint8) (fun x => pure (x, none)))
  | .chain c, mode, old =>
    match mode with
    | .variant _ => c.unmarshal old
    | mode => viaDecFn fn (.chain c) mode old c.unmarshal c.unmarshal
  | .ptr t, mode, old =>
    let old : Option t.Val := old
    match mode with
    | .elem => do
      let (x, err) ← decodeWith fn t .decode (old.getD t.zero)
      pure ((some x : Option t.Val), err)
    | .variant idx => do
      let (x, err) ← decodeWith fn t (.variant idx) (old.getD t.zero)
      pure ((some x : Option t.Val), err)
    | .member => do
      let (x, err) ← decodeWith fn t .decode t.zero
      match err with
      | some e => pure (old, some e)
      | none => pure ((some x : Option t.Val), none)
    | mode =>
      let slow (old : Option t.Val) : Dec (Option t.Val × Option Err) := do
        let (x, err) ← decodeWith fn t .value (old.getD t.zero)
        pure ((some x : Option t.Val), err)
      viaDecFn fn (.ptr t) mode old slow slow
  | .slice t, mode, old =>
    viaDecFn fn (.slice t) mode old (decodeSlice t.zero t.size (decodeWith fn t .elem)) (decodeSlice t.zero t.size (decodeWith fn t .elem))
  | .array n t, mode, old => viaDecFn fn (.array n t) mode old (decEach (decodeWith fn t .elem)) (decEach (decodeWith fn t .elem))
  | .map k e, mode, old =>
    viaDecFn fn (.map k e) mode old (decodeMap (decodeWith fn k .decode k.zero) (decodeWith fn e .decode e.zero))
      (decodeMap (decodeWith fn k .decode k.zero) (decodeWith fn e .decode e.zero))
  | .struct fs, mode, old =>
    match mode with
    | .variant idx =>
      if idx ≥ fs.count then pure (old, some errVariantIndex)
      else
        match fs.clear (some idx) old with
        | none => .panic "reflect: call of reflect.Value.IsNil on a value that cannot be nil, or Set on an unexported field"
        | some cleared => decodeMember fn fs idx cleared
    | mode => viaDecFn fn (.struct fs) mode old (decodeFields fn fs none) (decodeFields fn fs none)
  | .ref i s a, mode, old =>
    match mode with
    | .variant _ => .diverge
    | mode => viaDecFn fn (.ref i s a) mode old (fun _ => .diverge) (fun _ => .diverge)
/-- decode.go:206-251, :307: the loop over the fields, then `return err`; `err` is the variable of :144 -/
def decodeFields (fn : DecFn) : (fs : Fields) → (err : Option Err) → fs.Val → Dec (fs.Val × Option Err)
  | .nil, err, old => pure (old, err)
  | .cons vis tag t fs, err, old =>
    let (x, xs) : t.Val × fs.Val := old
    decodeField vis tag x (t.alloc x) t.zero (fun mode => decodeWith fn t mode (t.alloc x)) xs err (fun err => decodeFields fn fs err xs)
/-- decode.go:125-137: decode the selected member into a new variable, then store it; storing panics if the field is not exported -/
def decodeMember (fn : DecFn) : (fs : Fields) → Nat → fs.Val → Dec (fs.Val × Option Err)
  | .nil, _, old => pure (old, some errVariantIndex)
  | .cons vis _ t fs, 0, old => do
    let (x, xs) : t.Val × fs.Val := old
    let (y, err) ← decodeWith fn t .member x
    match err with
    | some e => pure ((y, xs), some e)
    | none => if vis = .exported then pure ((y, xs), none) else .panic "reflect: using value obtained using unexported field"
  | .cons _ _ t fs, n + 1, old => do
    let (x, xs) : t.Val × fs.Val := old
    let (ys, err) ← decodeMember fn fs n xs
    pure ((x, ys), err)
end

/-- chain/encoding.go:13-68 `chainDecoder`; ExtendedAsset is not listed -/
def chainDecoder : DecFn
  | .chain .extendedAsset, old => pure (old, false, none)
  | .chain c, old => do
    let (v, err) ← c.unmarshal old
    pure (v, true, err)
  | _, old => pure (old, false, none)

/-- chain/encoding.go:127-129 `chain.NewDecoder(r).Decode(&x)` -/
def decode (t : Ty) (old : t.Val) : Dec (t.Val × Option Err) := decodeWith chainDecoder t .decode old

/-- `chain.NewDecoder(r).DecodeVariant(&x)` (decode.go:97-140) -/
def decodeVariant (t : Ty) (old : t.Val) : Dec (t.Val × Option Err) := do
  let (idx, err) ← readByte
  match err with
  | some e => pure (old, some e)
  | none => decodeWith chainDecoder t (.variant idx.toNat) old

/-- chain/encoding.go:135-143 `NewCustomDecoder` -/
def customDecoder (fn : DecFn) : DecFn := fun t old => do
  let (x, done, err) ← fn t old
  if !done && err.isNone then chainDecoder t x else pure (x, done, err)

end Verif
