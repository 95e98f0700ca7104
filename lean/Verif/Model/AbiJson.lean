import Verif.Go.Float
import Verif.Model.JsonChain
/-! # The values of Abi.Decode in JSON

What json.Marshal and json.Unmarshal (standard library) make of `interface{}` values: those Abi.Decode (abi.go:135-142) returns and Abi.Encode (abi.go:144-149) takes. -/
namespace Verif

/-- Neither infinite nor NaN -/
def finite32 (v : UInt32) : Bool := v >>> 23 &&& 0xff != 0xff
/-- Neither an infinity nor a NaN (the exponent of the bits is not all ones) -/
def finite64 (v : UInt64) : Bool := v >>> 52 &&& 0x7ff != 0x7ff

/-- The outcome of json.Marshal: a document, `none` for an error, or a panic -/
abbrev JOut := Pan (Option JVal)

/-- stdlib json: boolEncoder, stringEncoder, intEncoder, uintEncoder, floatEncoder; an infinite float or NaN is an UnsupportedValueError. -/
def Basic.json : (b : Basic) → b.Val → Option JVal
  | .bool, v => some (.bool v)
  | .string, v => some (.str (escapeStr v))
  | .u8, v => some (.num (fmtNat (UInt8.toNat v)))
  | .u16, v => some (.num (fmtNat (UInt16.toNat v)))
  | .u32, v => some (.num (fmtNat (UInt32.toNat v)))
  | .u64, v => some (.num (fmtNat (UInt64.toNat v)))
  | .uint, v => some (.num (fmtNat (UInt64.toNat v)))
  | .i8, v => some (.num (fmtInt (Int8.toInt v)))
  | .i16, v => some (.num (fmtInt (Int16.toInt v)))
  | .i32, v => some (.num (fmtInt (Int32.toInt v)))
  | .i64, v => some (.num (fmtInt (Int64.toInt v)))
  | .int, v => some (.num (fmtInt (Int64.toInt v)))
  | .f32, v => if finite32 v then some (.num (binary32.text v.toNat)) else none
  | .f64, v => if finite64 v then some (.num (binary64.text v.toNat)) else none

/-- A value in an interface cannot be addressed, so that the MarshalText of *Signature is not found. -/
def TextTy.jsonAny (x : TextTy) (v : x.Val) : JOut := (x.marshalJSON false v).bind fun j => .val (some j)

/-- The chain types Abi.Decode yields, chain.Blob and chain.BlockNum. The others (actions, transactions and their parts) are left out, as an error. -/
def ChainTy.json : (c : ChainTy) → c.Val → JOut
  | .asset, v => TextTy.asset.jsonAny v
  | .blob, v => TextTy.blob.jsonAny v
  | .blockTimestamp, v => TextTy.blockTimestamp.jsonAny v
  | .bytes, v => TextTy.bytes.jsonAny v
  | .checksum160, v => TextTy.checksum160.jsonAny v
  | .checksum256, v => TextTy.checksum256.jsonAny v
  | .checksum512, v => TextTy.checksum512.jsonAny v
  | .float128, v => TextTy.float128.jsonAny v
  | .int128, v => TextTy.int128.jsonAny v
  | .uint128, v => TextTy.uint128.jsonAny v
  | .name, v => TextTy.name.jsonAny v
  | .publicKey, v => TextTy.publicKey.jsonAny v
  | .signature, v => TextTy.signature.jsonAny v
  | .symbol, v => TextTy.symbol.jsonAny v
  | .symbolCode, v => TextTy.symbolCode.jsonAny v
  | .timePoint, v => TextTy.timePoint.jsonAny v
  | .timePointSec, v => TextTy.timePointSec.jsonAny v
  | .uint64, v => .val (some (compactJSON (writeUintJSON v)))
  | .blockNum, v => .val (some (compactJSON (writeUintJSON (UInt32.toUInt64 v))))
  | .extendedAsset, v =>
    let v : ExtendedAsset := v
    (extendedAssetTy.marshal false ((v.quantity, v.contract, ()) : Asset × UInt64 × Unit)).bind fun j => .val (some j)
  | _, _ => .val none

/-- stdlib json, mapEncoder: the entries in the order of their keys, by bytes -/
def insertKey {α : Type} (e : Bytes × α) : List (Bytes × α) → List (Bytes × α)
  | [] => [e]
  | d :: m => if d.1 < e.1 then d :: insertKey e m else e :: d :: m
/-- stdlib json.mapEncoder: members sorted by key (insertion sort: the keys of a map are distinct) -/
def sortKeys {α : Type} : List (Bytes × α) → List (Bytes × α)
  | [] => []
  | e :: m => insertKey e (sortKeys m)

/-- stdlib json, arrayEncoder: one element after the other up to the first error -/
def seqElems : List JOut → Pan (Option (List JVal))
  | [] => .val (some [])
  | p :: ps => p.bind fun
    | none => .val none
    | some j => (seqElems ps).bind fun r => .val (r.map (j :: ·))
/-- The same for the entries of a map -/
def seqMembers : List (Bytes × JOut) → Pan (Option (List (Bytes × JVal)))
  | [] => .val (some [])
  | p :: ps => p.2.bind fun
    | none => .val none
    | some j => (seqMembers ps).bind fun r => .val (r.map ((escapeStr p.1, j) :: ·))

mutual
/-- json.Marshal of an interface. Slices are taken for non-nil (`make` in abi.go:417, :463); values of other types are left out, as an error. -/
def AV.json : AV → JOut
  | .nil => .val (some .null)
  | .basic b v => .val (b.json v)
  | .byteSlice v => .val (some (.str (escapeStr (b64Encode v))))
  | .chain c v => c.json v
  | .slice xs => (seqElems (jsonEach xs)).bind fun r => .val (r.map .arr)
  | .map m => (seqMembers (sortKeys (jsonEntries m))).bind fun r => .val (r.map .obj)
  | .other => .val none
/-- json.arrayEncoder: texts of the elements -/
def jsonEach : List AV → List JOut
  | [] => []
  | x :: xs => x.json :: jsonEach xs
/-- json.mapEncoder: texts of the entries -/
def jsonEntries : List (Bytes × AV) → List (Bytes × JOut)
  | [] => []
  | (k, x) :: m => (k, x.json) :: jsonEntries m
end

/-- json.Marshal(v) -/
def AV.marshalJSON (v : AV) : Pan (Option Bytes) := (v.json).bind fun r => .val (r.map JVal.print)

mutual
/-- json.Unmarshal into an empty interface (stdlib json, arrayInterface, objectInterface, literalInterface): numbers become float64 (strconv.ParseFloat; nil if they are out of
range), of two members with one name the later one counts. -/
def AV.ofJson : JVal → AV
  | .null => .nil
  | .bool b => .basic .bool b
  | .num l => match parseFloat l with
    | some v => .basic .f64 v
    | none => .nil
  | .str l => .basic .string (unquote l)
  | .arr js => .slice (anyElems js)
  | .obj ms => .map (anyMembers ms [])
/-- json.arrayInterface -/
def anyElems : List JVal → List AV
  | [] => []
  | j :: js => AV.ofJson j :: anyElems js
/-- json.objectInterface: a later member overwrites an earlier one of the same name -/
def anyMembers : List (Bytes × JVal) → List (Bytes × AV) → List (Bytes × AV)
  | [], m => m
  | (k, j) :: ms, m => anyMembers ms (mapPut m (unquote k) (AV.ofJson j))
end

mutual
/-- stdlib json.convertNumber: whether no number is out of range, which is an error -/
def JVal.inRange : JVal → Bool
  | .num l => (parseFloat l).isSome
  | .arr js => inRangeAll js
  | .obj ms => inRangeMembers ms
  | _ => true
/-- Of every element -/
def inRangeAll : List JVal → Bool
  | [] => true
  | j :: js => j.inRange && inRangeAll js
/-- Of every member -/
def inRangeMembers : List (Bytes × JVal) → Bool
  | [] => true
  | (_, j) :: ms => j.inRange && inRangeMembers ms
end

/-- json.Unmarshal(text, &v) with `var v interface{}`; `none` for an error -/
def AV.unmarshalJSON (text : Bytes) : Option AV := (jsonParse text).bind fun j => if j.inRange then some (AV.ofJson j) else none

end Verif
