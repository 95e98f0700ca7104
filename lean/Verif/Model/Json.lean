import Verif.Go.Json
import Verif.Model.Reflect
import Verif.Model.TimeText
/-! # JSON forms of the chain types

What json.Marshal and json.Unmarshal (standard library, encoding/json) do with the types of pkg/chain: types with MarshalText/UnmarshalText are strings, Uint64 and
BlockNum have MarshalJSON/UnmarshalJSON, the rest are structs with `json:"…"` tags. Signed integers, floats, maps, fixed arrays and interfaces are left out, and so are
slices of bytes that are not chain.Bytes or chain.Blob (Go writes []uint8 in base64, `JTy.slice (.basic .u8)` below would write an array). -/
namespace Verif

/-- Types with MarshalText and UnmarshalText -/
inductive TextTy where
  | name | symbol | symbolCode | asset | bytes | blob | checksum160 | checksum256 | checksum512 | uint128 | int128 | float128 | publicKey | signature
  | timePoint | timePointSec | blockTimestamp
deriving DecidableEq, Repr

/-- The type of package chain -/
def TextTy.chain : TextTy → ChainTy
  | .name => .name
  | .symbol => .symbol
  | .symbolCode => .symbolCode
  | .asset => .asset
  | .bytes => .bytes
  | .blob => .blob
  | .checksum160 => .checksum160
  | .checksum256 => .checksum256
  | .checksum512 => .checksum512
  | .uint128 => .uint128
  | .int128 => .int128
  | .float128 => .float128
  | .publicKey => .publicKey
  | .signature => .signature
  | .timePoint => .timePoint
  | .timePointSec => .timePointSec
  | .blockTimestamp => .blockTimestamp

/-- Its values -/
abbrev TextTy.Val (x : TextTy) : Type := x.chain.Val

/-- The MarshalText methods (name.go:41-43, symbol.go:111-118, asset.go:155-157, bytes.go:45-47, blob.go:46-48, checksum.go:105-115, numbers.go:195-205,
public_key.go:115-117, signature.go:110-112, time.go:134-144); none returns an error. -/
def TextTy.marshal : (x : TextTy) → x.Val → Pan Bytes
  | .name, v => .val (Name.marshalText v)
  | .symbol, v => .val (Symbol.marshalText v)
  | .symbolCode, v => .val (SymbolCode.marshalText v)
  | .asset, v => Asset.string v
  | .bytes, v => .val (BytesT.marshalText (Option.getD (α := Bytes) v []))
  | .blob, v => .val (Blob.marshalText (Option.getD (α := Bytes) v []))
  | .checksum160, v => .val (Checksum.marshalText v)
  | .checksum256, v => .val (Checksum.marshalText v)
  | .checksum512, v => .val (Checksum.marshalText v)
  | .uint128, v => .val (U128.uString v)
  | .int128, v => .val (U128.iString v)
  | .float128, v => .val (Float128.marshalText v)
  | .publicKey, v => PubKey.marshalText v
  | .signature, v => Sig.string v
  | .timePoint, v => .val (TimePoint.string v)
  | .timePointSec, v => .val (TimePointSec.string v)
  | .blockTimestamp, v => .val (BlockTimestamp.string v)

/-- Bytes.UnmarshalText with nil told from empty (bytes.go:51-58) -/
def bytesUnmarshalText (old : Option Bytes) (text : Bytes) : Option Bytes × Option Err :=
  match hexDecode text with
  | (data, none) => (some data, none)
  | (_, some _) => (old, none)
/-- Blob.UnmarshalText with nil told from empty (blob.go:52-63) -/
def blobUnmarshalText (text : Bytes) : Option Bytes × Option Err :=
  match Blob.unmarshalText text with
  | (data, e) => (some data, e)

/-- The UnmarshalText methods -/
def TextTy.unmarshal (sha : Sha256) : (x : TextTy) → x.Val → Bytes → Pan (x.Val × Option Err)
  | .name, _, s => .val (Name.unmarshalText s)
  | .symbol, old, s => .val (Symbol.unmarshalText old s)
  | .symbolCode, old, s => .val (SymbolCode.unmarshalText old s)
  | .asset, old, s => .val (Asset.unmarshalText old s)
  | .bytes, old, s => .val (bytesUnmarshalText old s)
  | .blob, _, s => .val (blobUnmarshalText s)
  | .checksum160, old, s => Checksum.unmarshalText 20 old s
  | .checksum256, old, s => Checksum.unmarshalText 32 old s
  | .checksum512, old, s => Checksum.unmarshalText 64 old s
  | .uint128, _, s => .val (Uint128.unmarshalText s)
  | .int128, _, s => .val (Int128.unmarshalText s)
  | .float128, old, s => .val (Float128.unmarshalText old s)
  | .publicKey, old, s => PubKey.unmarshalText sha old s
  | .signature, old, s => Sig.unmarshalText old s
  | .timePoint, old, s => .val (TimePoint.unmarshalText old s)
  | .timePointSec, old, s => .val (TimePointSec.unmarshalText old s)
  | .blockTimestamp, old, s => .val (BlockTimestamp.unmarshalText old s)

/-- null sets slices to nil and leaves everything else alone (stdlib json, literalStore). -/
def TextTy.null : (x : TextTy) → x.Val → x.Val
  | .bytes, _ => (none : Option Bytes)
  | .blob, _ => (none : Option Bytes)
  | _, old => old

/-- Empty in the sense of `omitempty` (stdlib json, isEmptyValue): zero numbers and slices without elements; structs and arrays never. -/
def TextTy.isEmpty : (x : TextTy) → x.Val → Bool
  | .name, v => (show UInt64 from v) == 0
  | .symbol, v => (show UInt64 from v) == 0
  | .symbolCode, v => (show UInt64 from v) == 0
  | .bytes, v => (Option.getD (α := Bytes) v []).isEmpty
  | .blob, v => (Option.getD (α := Bytes) v []).isEmpty
  | .timePoint, v => (show Int64 from v) == 0
  | .timePointSec, v => (show UInt32 from v) == 0
  | .blockTimestamp, v => (show UInt32 from v) == 0
  | _, _ => false

/-- bool, string and the unsigned integers -/
inductive JBasic where
  | bool | string | u8 | u16 | u32 | uint
deriving DecidableEq, Repr
/-- Values of the basic types -/
def JBasic.Val : JBasic → Type
  | .bool => Bool
  | .string => Bytes
  | .u8 => UInt8
  | .u16 => UInt16
  | .u32 => UInt32
  | .uint => UInt64
/-- Zero values -/
def JBasic.zero : (b : JBasic) → b.Val
  | .bool => false
  | .string => ([] : Bytes)
  | .u8 => (0 : UInt8)
  | .u16 => (0 : UInt16)
  | .u32 => (0 : UInt32)
  | .uint => (0 : UInt64)
/-- stdlib json.isEmptyValue -/
def JBasic.isEmpty : (b : JBasic) → b.Val → Bool
  | .bool, v => !(show Bool from v)
  | .string, v => List.isEmpty (α := UInt8) v
  | .u8, v => (show UInt8 from v) == 0
  | .u16, v => (show UInt16 from v) == 0
  | .u32, v => (show UInt32 from v) == 0
  | .uint, v => (show UInt64 from v) == 0

mutual
/-- The types in the declarations of transaction.go:5-24, action.go:10-20 and abi.go:12-72, as encoding/json sees them -/
inductive JTy where
  | basic (b : JBasic)
  | text (x : TextTy)
  /-- chain.Uint64 -/
  | uint64
  /-- chain.BlockNum -/
  | blockNum
  | ptr (t : JTy)
  | slice (t : JTy)
  /-- Fields of embedded structs are listed with the others, as json does. -/
  | struct (fs : JFields)
/-- Fields with their json tags; an embedded struct is listed with its fields -/
inductive JFields where
  | nil
  /-- `json:"key"` or `json:"key,omitempty"` -/
  | cons (key : Bytes) (om : Bool) (t : JTy) (fs : JFields)
end

mutual
/-- Values of the types -/
def JTy.Val : JTy → Type
  | .basic b => b.Val
  | .text x => x.Val
  | .uint64 => UInt64
  | .blockNum => UInt32
  | .ptr t => Option t.Val
  | .slice t => Option (List t.Val)
  | .struct fs => fs.Val
/-- Values of the fields -/
def JFields.Val : JFields → Type
  | .nil => Unit
  | .cons _ _ t fs => t.Val × fs.Val
end

/-- Zero values -/
def TextTy.zero (x : TextTy) : x.Val := x.chain.zero

mutual
/-- Zero values -/
def JTy.zero : (t : JTy) → t.Val
  | .basic b => b.zero
  | .text x => x.zero
  | .uint64 => (0 : UInt64)
  | .blockNum => (0 : UInt32)
  | .ptr t => (none : Option t.Val)
  | .slice t => (none : Option (List t.Val))
  | .struct fs => fs.zero
/-- Zero values of the fields -/
def JFields.zero : (fs : JFields) → fs.Val
  | .nil => ()
  | .cons _ _ t fs => ((t.zero, fs.zero) : t.Val × fs.Val)
end

/-! ## json.Marshal -/

/-- Go on after a call that did not panic -/
def Pan.bind {α β : Type} (p : Pan α) (f : α → Pan β) : Pan β := match p with
  | .val a => f a
  | .panic w => .panic w
/-- A list of results -/
def panEach {α β : Type} (f : α → Pan β) : List α → Pan (List β)
  | [] => .val []
  | x :: xs => (f x).bind fun y => (panEach f xs).bind fun ys => .val (y :: ys)

/-- stdlib json.boolEncoder, intEncoder, uintEncoder, stringEncoder -/
def JBasic.marshal : (b : JBasic) → b.Val → JVal
  | .bool, v => .bool v
  | .string, v => .str (escapeStr v)
  | .u8, v => .num (fmtNat (UInt8.toNat v))
  | .u16, v => .num (fmtNat (UInt16.toNat v))
  | .u32, v => .num (fmtNat (UInt32.toNat v))
  | .uint, v => .num (fmtNat (UInt64.toNat v))

/-- The output of a MarshalJSON method (numbers.go:231-237) is compacted (stdlib json, marshalerEncoder); output that is no JSON would be an error. -/
def compactJSON (b : Bytes) : JVal := (jsonParse b).getD .null

/-- A Signature that cannot be addressed is not seen as a TextMarshaler, as the method is defined on *Signature (signature.go:110): it is written as a struct
(signature.go:12-15), its data in base64 as json does with a []byte.
Nil data would be null; the model does not tell it from empty data. -/
def sigStruct (s : Sig) : JVal := .obj [(asc "Type", .num (fmtNat s.type.toNat)), (asc "Data", .str (escapeStr (b64Encode s.data)))]

/-- `addr`: whether the value can be addressed -/
def TextTy.marshalJSON (x : TextTy) (addr : Bool) (v : x.Val) : Pan JVal :=
  if h : x = .signature ∧ addr = false then .val (sigStruct (cast (by rw [h.1]; rfl) v))
  else (x.marshal v).bind fun s => .val (.str (escapeStr s))

/-- stdlib json.isEmptyValue -/
def JTy.isEmpty : (t : JTy) → t.Val → Bool
  | .basic b, v => b.isEmpty v
  | .text x, v => x.isEmpty v
  | .uint64, v => (show UInt64 from v) == 0
  | .blockNum, v => (show UInt32 from v) == 0
  | .ptr t, v => Option.isNone (α := t.Val) v
  | .slice t, v => (Option.getD (α := List t.Val) v []).isEmpty
  | .struct _, _ => false

mutual
/-- stdlib json.Marshal: what is behind a pointer or in a slice can be addressed, the fields of a struct if the struct can. -/
def JTy.marshal : (t : JTy) → (addr : Bool) → t.Val → Pan JVal
  | .basic b, _, v => .val (b.marshal v)
  | .text x, addr, v => x.marshalJSON addr v
  | .uint64, _, v => .val (compactJSON (writeUintJSON v))
  | .blockNum, _, v => .val (compactJSON (writeUintJSON (UInt32.toUInt64 v)))
  | .ptr t, _, v => match (show Option t.Val from v) with
    | none => .val .null
    | some x => t.marshal true x
  | .slice t, _, v => match (show Option (List t.Val) from v) with
    | none => .val .null
    | some xs => (panEach (t.marshal true) xs).bind fun ys => .val (.arr ys)
  | .struct fs, addr, v => (fs.marshal addr v).bind fun ms => .val (.obj ms)
/-- stdlib json.structEncoder.encode -/
def JFields.marshal : (fs : JFields) → (addr : Bool) → fs.Val → Pan (List (Bytes × JVal))
  | .nil, _, _ => .val []
  | .cons key om t fs, addr, v =>
    let (x, xs) : t.Val × fs.Val := v
    if om && t.isEmpty x then fs.marshal addr xs
    else (t.marshal addr x).bind fun y => (fs.marshal addr xs).bind fun ys => .val ((escapeStr key, y) :: ys)
end

/-- json.Marshal(v), and json.Marshal(&v) with addr = true -/
def jsonMarshal (t : JTy) (addr : Bool) (v : t.Val) : Pan Bytes := (t.marshal addr v).bind fun j => .val j.print

/-! ## json.Unmarshal -/

/-- How decoding a value went: `saved` is an error that is reported at the end while decoding goes on (a value of the wrong kind), `failed` one that stops it (from an
Unmarshal method). -/
inductive JErr where
  | ok | saved | failed
deriving DecidableEq, Repr
/-- The state after the next value -/
def JErr.and : JErr → JErr → JErr
  | .ok, e => e
  | .saved, .failed => .failed
  | .saved, _ => .saved
  | .failed, _ => .failed

/-- The result of an Unmarshal method -/
def ofMethod {α : Type} (p : Pan (α × Option Err)) : Pan (α × JErr) := p.bind fun r => .val (r.1, if r.2 = none then .ok else .failed)

/-- stdlib json, literalStore for a number and an unsigned integer of the given size -/
def storeUint {α : Type} (bits : Nat) (conv : Nat → α) (old : α) (j : JVal) : α × JErr := match j with
  | .num l => match parseUint 64 l with
    | (n, none) => if n < 2 ^ bits then (conv n, .ok) else (old, .saved)
    | (_, some _) => (old, .saved)
  | .null => (old, .ok)
  | _ => (old, .saved)

/-- stdlib json.decodeState.literalStore into the basic types -/
def JBasic.unmarshal : (b : JBasic) → b.Val → JVal → b.Val × JErr
  | .bool, old, j => match j with
    | .bool b => (b, .ok)
    | .null => (old, .ok)
    | _ => (old, .saved)
  | .string, old, j => match j with
    | .str l => (unquote l, .ok)
    | .null => (old, .ok)
    | _ => (old, .saved)
  | .u8, old, j => storeUint 8 (fun n => (n.toUInt8 : UInt8)) old j
  | .u16, old, j => storeUint 16 (fun n => (n.toUInt16 : UInt16)) old j
  | .u32, old, j => storeUint 32 (fun n => (n.toUInt32 : UInt32)) old j
  | .uint, old, j => storeUint 64 (fun n => (n.toUInt64 : UInt64)) old j

/-- Strings go to UnmarshalText, null is no call, anything else is the wrong kind. -/
def TextTy.unmarshalJSON (sha : Sha256) (x : TextTy) (old : x.Val) (j : JVal) : Pan (x.Val × JErr) := match j with
  | .str l => ofMethod (x.unmarshal sha old (unquote l))
  | .null => .val (x.null old, .ok)
  | _ => .val (old, .saved)

/-- The elements of an array, one after the other, over those of the slice that was there. Elements beyond the old length start as zero; if an earlier, longer array was
decoded into the slice Go finds its elements there instead (the model does not keep them). -/
def elemsFrom {α : Type} (dec : α → JVal → Pan (α × JErr)) (zero : α) : List JVal → List α → Pan (List α × JErr)
  | [], _ => .val ([], .ok)
  | j :: js, old => (dec (old.headD zero) j).bind fun (x, e) =>
    if e = .failed then .val (x :: old.tail, .failed)
    else (elemsFrom dec zero js old.tail).bind fun (xs, e') => .val (x :: xs, e.and e')

/-- The members of an object in their order -/
def membersFrom {α : Type} (set : α → Bytes → JVal → Pan (α × JErr)) : List (Bytes × JVal) → α → Pan (α × JErr)
  | [], v => .val (v, .ok)
  | (k, j) :: ms, v => (set v (unquote k) j).bind fun (v, e) =>
    if e = .failed then .val (v, .failed)
    else (membersFrom set ms v).bind fun (v, e') => .val (v, e.and e')

/-- Letter case is ignored: stdlib json's folding, for a field name in ASCII. Two other letters fold to k and s. -/
def foldAux : (fuel : Nat) → Bytes → Bytes
  | 0, _ => []
  | _, [] => []
  | f + 1, c :: t =>
    if c < 0x80 then (if 65 ≤ c ∧ c ≤ 90 then c + 32 else c) :: foldAux f t
    else
      let d := decodeRune (c :: t)
      (if d.1 = 0x212A then [107] else if d.1 = 0x017F then [115] else (c :: t).take d.2) ++ foldAux f ((c :: t).drop d.2)
/-- stdlib json.foldName -/
def foldKey (s : Bytes) : Bytes := foldAux s.length s

/-- The first field whose name satisfies p -/
def JFields.findIdx (p : Bytes → Bool) : JFields → Option Nat
  | .nil => none
  | .cons key _ _ fs => if p key then some 0 else (fs.findIdx p).map (· + 1)
/-- The field a key stands for: the one of that name, otherwise the first one whose name differs in case only -/
def JFields.find (fs : JFields) (k : Bytes) : Option Nat := match fs.findIdx (· == k) with
  | some i => some i
  | none => fs.findIdx fun key => foldKey key == foldKey k

mutual
/-- stdlib json.decodeState.value into a variable of the type, with its content before -/
def JTy.unmarshal (sha : Sha256) : (t : JTy) → t.Val → JVal → Pan (t.Val × JErr)
  | .basic b, old, j => .val (b.unmarshal old j)
  | .text x, old, j => x.unmarshalJSON sha old j
  | .uint64, old, j => ofMethod (.val (Uint64.unmarshalJSON old j.print))
  | .blockNum, old, j => ofMethod (.val (BlockNum.unmarshalJSON old j.print))
  | .ptr t, old, j => match j with
    | .null => .val ((none : Option t.Val), .ok)
    | j => (t.unmarshal sha (Option.getD (α := t.Val) old t.zero) j).bind fun r => .val ((some r.1 : Option t.Val), r.2)
  | .slice t, old, j => match j with
    | .null => .val ((none : Option (List t.Val)), .ok)
    | .arr js => (elemsFrom (t.unmarshal sha) t.zero js (Option.getD (α := List t.Val) old [])).bind fun r => .val ((some r.1 : Option (List t.Val)), r.2)
    | _ => .val (old, .saved)
  | .struct fs, old, j => match j with
    | .null => .val (old, .ok)
    | .obj ms => membersFrom (fun v k j => match fs.find k with
        | some i => fs.unmarshalAt sha i v j
        | none => .val (v, .ok)) ms old
    | _ => .val (old, .saved)
/-- The i-th field -/
def JFields.unmarshalAt (sha : Sha256) : (fs : JFields) → (i : Nat) → fs.Val → JVal → Pan (fs.Val × JErr)
  | .nil, _, old, _ => .val (old, .ok)
  | .cons _ _ t fs, 0, old, j =>
    let (x, xs) : t.Val × fs.Val := old
    (t.unmarshal sha x j).bind fun r => .val (((r.1, xs) : t.Val × fs.Val), r.2)
  | .cons _ _ t fs, i + 1, old, j =>
    let (x, xs) : t.Val × fs.Val := old
    (fs.unmarshalAt sha i xs j).bind fun r => .val (((x, r.1) : t.Val × fs.Val), r.2)
end

/-- json.Unmarshal(text, &v): text that is not JSON is refused before anything is stored. -/
def jsonUnmarshal (sha : Sha256) (t : JTy) (old : t.Val) (text : Bytes) : Pan (t.Val × JErr) := match jsonParse text with
  | none => .val (old, .failed)
  | some j => t.unmarshal sha old j

end Verif
