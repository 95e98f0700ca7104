import Verif.Model.Reflect
/-! # Arguments of Encode, Decode and DecodeVariant (pkg/abi/encode.go:28, pkg/abi/decode.go:30,97)

The parameters have type `interface{}`: a caller may pass nothing, a value that is not a pointer, or a nil pointer. -/
namespace Verif

/-- An `interface{}`: nil, or a value with its type. A pointer is given with its target. Simplified: values of interface, channel and function types are left out. -/
inductive Arg where
  | nil
  | of (t : Ty) (v : t.Val)

/-- decode.go:88; the type is left out -/
def errInvalidDest : Err := .msg "abi: invalid type, unable to decode into"
/-- decode.go:100; the type is left out -/
def errInvalidVariantDest : Err := .msg "abi: invalid variant type, unable to decode into"

/-- The panic of `*p = …` and of `p.f` with p nil -/
def nilDeref : String := "nil pointer dereference"

/-- Read, return the error if there is one, then use the nil receiver -/
def nilAfter {α : Type} (r : Dec (α × Option Err)) : Dec (Option Err) := do
  let (_, err) ← r
  match err with
  | some e => pure (some e)
  | none => .panic nilDeref

/-- UnmarshalABI on a nil receiver, as `chainDecoder` calls it (chain/encoding.go:13-68): what is read before the receiver is used.
name.go:31-37, symbol.go:93-107, asset.go:134-151, blob.go:32-42, bytes.go:31-41, checksum.go:79-101, numbers.go:153-191, time.go:108-130,
public_key.go:79-84, signature.go:63-68, transaction.go:108-185, action.go:78-90 -/
def ChainTy.unmarshalNil : ChainTy → Dec (Option Err)
  | .name | .symbol | .symbolCode | .uint64 => nilAfter readUint64
  | .asset | .timePoint => nilAfter readInt64
  | .blockNum | .blockTimestamp | .timePointSec => nilAfter readUint32
  | .checksum160 => nilAfter (do let (_, b, err) ← readBytes 20; pure (b, err))
  | .checksum256 => nilAfter (do let (_, b, err) ← readBytes 32; pure (b, err))
  | .checksum512 => nilAfter (do let (_, b, err) ← readBytes 64; pure (b, err))
  | .float128 => nilAfter (do let (_, b, err) ← readBytes 16; pure (b, err))
  | .int128 | .uint128 => do
    let (_, err) ← readUint64
    match err with
    | some e => pure (some e)
    | none => nilAfter readUint64
  | .blob | .bytes => do
    let (l, err) ← readVaruint
    match err with
    | some e => pure (some e)
    | none => nilAfter (do let (_, b, err) ← readBytes (goInt l); pure (b, err))
  | .publicKey | .signature => nilAfter readByte
  | .transactionExtension => do
    let _ ← readUint16
    .panic nilDeref
  | .action | .permissionLevel | .transaction | .transactionHeader | .extendedAsset => .panic nilDeref

/-- decode.go:30-94 `Decode` of chain.NewDecoder, with a nil pointer to a variable of type t: what is returned, if it does not panic. `*ptr, err = dec.ReadX()`
(:39-74) assigns even if there is an error. -/
def decodeNil : Ty → Dec (Option Err)
  | .basic b => do
    let _ ← b.read
    .panic nilDeref
  | .bytes => do
    let (l, err) ← readVaruint
    match err with
    | some e => pure (some e)
    | none =>
      let _ ← readBytes (goInt l)
      .panic nilDeref
  | .chain .extendedAsset => pure (some errInvalidDest)
  | .chain c => c.unmarshalNil
  | _ => pure (some errInvalidDest)

/-- decode.go:30-94 `chain.NewDecoder(r).Decode(v)`: the argument with the new content of its target, and the error. `val.Type()` (:88) panics on the zero Value. -/
def decodeArg : Arg → Dec (Arg × Option Err)
  | .nil => .panic "reflect: call of reflect.Value.Type on zero Value"
  | .of (.ptr t) v =>
    match (v : Option t.Val) with
    | some x => do
      let (y, err) ← decode t x
      pure (.of (.ptr t) (some y : Option t.Val), err)
    | none => do
      let err ← decodeNil t
      pure (.of (.ptr t) (none : Option t.Val), err)
  | .of t v => pure (.of t v, some errInvalidDest)

/-- decode.go:97-140 `chain.NewDecoder(r).DecodeVariant(v)` -/
def decodeVariantArg : Arg → Dec (Arg × Option Err)
  | .nil => .panic "reflect: call of reflect.Value.Type on zero Value"
  | .of (.ptr t) v =>
    match (v : Option t.Val) with
    | some x => do
      let (y, err) ← decodeVariant t x
      pure (.of (.ptr t) (some y : Option t.Val), err)
    | none => pure (.of (.ptr t) (none : Option t.Val), some errInvalidVariantDest)
  | .of t v => pure (.of t v, some errInvalidVariantDest)

/-- encode.go:28-77 `chain.NewEncoder(w).Encode(v)`; nil reaches `EncodeValue` with the zero Value, where CanInterface (:81) panics -/
def encodeArg : Arg → Enc (Option Err)
  | .nil => .panic "reflect: call of reflect.Value.CanInterface on zero Value"
  | .of t v => encode t v

end Verif
