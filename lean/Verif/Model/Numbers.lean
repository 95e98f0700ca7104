import Verif.Model.Prim
import Verif.Go.Strconv
import Verif.Go.Hex
/-! # pkg/chain/numbers.go

`*big.Int` is represented by the mathematical integer (`Int`). -/
namespace Verif

/-- Big-endian bytes, `binary.BigEndian.PutUint64` etc. -/
def beBytes (n v : Nat) : Bytes := (leBytes n v).reverse
/-- stdlib big.Int.SetBytes: a number from its bytes, most significant first -/
def beNat (bs : Bytes) : Nat := leNat bs.reverse

/-- stdlib (*big.Int).BitLen -/
def bitLen (i : Int) : Nat := if i = 0 then 0 else Nat.log2 i.natAbs + 1

/-- stdlib (*big.Int).Bytes: the absolute value, big-endian, without leading zero bytes. -/
def bigBytes (i : Int) : Bytes := beBytes ((bitLen i + 7) / 8) i.natAbs

/-- An optional sign; `true` for minus. -/
def splitSign : Bytes → Bool × Bytes
  | 43 :: t => (false, t)
  | 45 :: t => (true, t)
  | s => (false, s)

/-- The digits after the sign, as a natural number. -/
def setDigits (neg : Bool) (ds : Bytes) : Option Int :=
  if ds = [] ∨ ¬ ds.all isDigit then none
  else some (if neg then -((ds.foldl (fun n c => n * 10 + digitVal c) 0 : Nat) : Int) else (ds.foldl (fun n c => n * 10 + digitVal c) 0 : Nat))

/-- stdlib (*big.Int).SetString(s, 10): an optional sign and at least one digit, nothing else; `none` is `ok == false`. -/
def setString (s : Bytes) : Option Int := setDigits (splitSign s).1 (splitSign s).2

/-- numbers.go:15-18 `Uint128`, :20 `Int128` -/
structure U128 where
  lo : UInt64
  hi : UInt64
deriving DecidableEq, Repr

/-- numbers.go:67-70: `Int128{BigEndian.Uint64(b[8:]), BigEndian.Uint64(b[:8])}`; both read the first eight bytes of their argument. The
slice has at least 16 bytes in both callers. -/
def u128OfBytes (b : Bytes) : U128 := ⟨(beNat ((b.drop 8).take 8)).toUInt64, (beNat (b.take 8)).toUInt64⟩

/-- numbers.go:37-44 `NewUint128`; `FillBytes` writes the absolute value and panics if it does not fit 16 bytes. -/
def newUint128 (i : Int) : Pan U128 :=
  if i.natAbs ≥ 2 ^ 128 then .panic "math/big: buffer too small to fit value"
  else .val (u128OfBytes (beBytes 16 i.natAbs))

/-- numbers.go:57-59, :63-65: prepend `c` until there are 16 bytes. -/
def padTo16 (c : UInt8) (b : Bytes) : Bytes := List.replicate (16 - b.length) c ++ b

/-- numbers.go:47-71 `NewInt128` -/
def newInt128 (i : Int) : Pan U128 :=
  if bitLen i > 128 then .panic "int128 only supports bitlen <= 128"
  else if i = 0 then .val ⟨0, 0⟩
  else if i > 0 then .val (u128OfBytes (padTo16 0 (bigBytes i)))
  else
    let length := (bitLen i / 8 + 1) * 8
    .val (u128OfBytes (padTo16 0xff (bigBytes (i + 2 ^ length))))

/-- numbers.go:73-79 `NewUint128FromString`; after the check `NewUint128` cannot panic. -/
def newUint128FromString (s : Bytes) : U128 × Option Err :=
  match setString s with
  | none => (⟨0, 0⟩, some (.msg "invalid unsigned integer"))
  | some i =>
    if bitLen i > 128 ∨ i < 0 then (⟨0, 0⟩, some (.msg "invalid unsigned integer"))
    else match newUint128 i with
      | .val u => (u, none)
      | .panic w => (⟨0, 0⟩, some (.msg w))

/-- numbers.go:81-87 `NewInt128FromString`; after the check `NewInt128` cannot panic. -/
def newInt128FromString (s : Bytes) : U128 × Option Err :=
  match setString s with
  | none => (⟨0, 0⟩, some (.msg "invalid signed integer"))
  | some i =>
    if bitLen i > 128 then (⟨0, 0⟩, some (.msg "invalid signed integer"))
    else match newInt128 i with
      | .val u => (u, none)
      | .panic w => (⟨0, 0⟩, some (.msg w))

/-- numbers.go:89-99 `Uint128.Bytes(binary.BigEndian)`; `Int128.Bytes` (:101-103) is the same. -/
def U128.bytesBE (u : U128) : Bytes := beBytes 8 u.hi.toNat ++ beBytes 8 u.lo.toNat
/-- numbers.go:89-99 `Uint128.Bytes(binary.LittleEndian)` -/
def U128.bytesLE (u : U128) : Bytes := leBytes 8 u.lo.toNat ++ leBytes 8 u.hi.toNat

/-- numbers.go:105-109 `Uint128.BigInt` -/
def U128.bigUint (u : U128) : Int := beNat u.bytesBE

/-- numbers.go:111-119 `Int128.BigInt` -/
def U128.bigInt (u : U128) : Int :=
  let b := u.bytesBE
  let rv : Int := beNat b
  if b.length > 0 ∧ b.headD 0 &&& 0x80 > 0 then rv - 2 ^ (b.length * 8) else rv

/-- numbers.go:121-123 `Uint128.String`, :195-197 -/
def U128.uString (u : U128) : Bytes := fmtInt u.bigUint
/-- numbers.go:125-127 `Int128.String`, :199-201 -/
def U128.iString (u : U128) : Bytes := fmtInt u.bigInt

/-- numbers.go:131-137 `MarshalABI` of Uint128 and Int128 -/
def U128.marshal (u : U128) : Enc (Option Err) := writeBytes u.bytesLE

/-- numbers.go:139-141 `Float128.MarshalABI`; the array is a list of 16 bytes -/
def Float128.marshal (f : Bytes) : Enc (Option Err) := writeBytes f

/-- numbers.go:143-145 -/
def Uint64.marshal (v : UInt64) : Enc (Option Err) := writeUint64 v
/-- numbers.go:147-149 -/
def BlockNum.marshal (v : UInt32) : Enc (Option Err) := writeUint32 v

/-- numbers.go:153-167 `UnmarshalABI` of Uint128 and Int128 -/
def U128.unmarshal (old : U128) : Dec (U128 × Option Err) := do
  let (lo, err) ← readUint64
  match err with
  | some e => pure (old, some e)
  | none =>
    let (hi, err) ← readUint64
    match err with
    | some e => pure (old, some e)
    | none => pure (⟨lo, hi⟩, none)

/-- numbers.go:169-175 `Float128.UnmarshalABI` -/
def Float128.unmarshal (old : Bytes) : Dec (Bytes × Option Err) := do
  let (_, b, err) ← readBytes 16
  match err with
  | some e => pure (old, some e)
  | none => pure (b.take 16 ++ old.drop b.length, none)

/-- numbers.go:177-183 -/
def Uint64.unmarshal (old : UInt64) : Dec (UInt64 × Option Err) := do
  let (v, err) ← readUint64
  match err with
  | some e => pure (old, some e)
  | none => pure (v, none)

/-- numbers.go:185-191 -/
def BlockNum.unmarshal (old : UInt32) : Dec (UInt32 × Option Err) := do
  let (v, err) ← readUint32
  match err with
  | some e => pure (old, some e)
  | none => pure (v, none)

/-- numbers.go:209-213: the destination is overwritten even on error -/
def Uint128.unmarshalText (text : Bytes) : U128 × Option Err := newUint128FromString text
/-- numbers.go:215-219 -/
def Int128.unmarshalText (text : Bytes) : U128 × Option Err := newInt128FromString text

/-- numbers.go:203-205 `Float128.MarshalText` -/
def Float128.marshalText (f : Bytes) : Bytes := hexEncode f

/-- numbers.go:221-227 `Float128.UnmarshalText`; `copy` into the 16-byte array -/
def Float128.unmarshalText (old text : Bytes) : Bytes × Option Err :=
  match hexDecode text with
  | (b, none) => (b.take 16 ++ old.drop b.length, none)
  | (_, some e) => (old, some e)

/-- numbers.go:262-268 `readUintJSON` -/
def readUintJSON (b : Bytes) : Nat × Option Err :=
  let s := if b.length > 1 ∧ b.head? = some 34 ∧ b.getLast? = some 34 then (b.drop 1).dropLast else b
  parseUint 64 s

/-- numbers.go:270-276 `writeUintJSON` -/
def writeUintJSON (v : UInt64) : Bytes :=
  let s := fmtNat v.toNat
  if v.toNat > 2 ^ 32 - 1 then [34] ++ s ++ [34] else s

/-- numbers.go:241-247 `Uint64.UnmarshalJSON` -/
def Uint64.unmarshalJSON (old : UInt64) (b : Bytes) : UInt64 × Option Err :=
  match readUintJSON b with
  | (v, none) => (v.toUInt64, none)
  | (_, some e) => (old, some e)

/-- numbers.go:249-258 `BlockNum.UnmarshalJSON` -/
def BlockNum.unmarshalJSON (old : UInt32) (b : Bytes) : UInt32 × Option Err :=
  match readUintJSON b with
  | (v, err) =>
    if v > 2 ^ 32 - 1 then (old, some (.msg "block number is too large"))
    else match err with
      | none => (v.toUInt32, none)
      | some e => (old, some e)

/-- numbers.go:32-34 `BlockNum.String`: `%010d` -/
def BlockNum.string (v : UInt32) : Bytes := List.replicate (10 - (fmtNat v.toNat).length) 48 ++ fmtNat v.toNat

end Verif
