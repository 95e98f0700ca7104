import Verif.Go.Basic
/-! # Go `encoding/hex` (standard library) -/
namespace Verif

/-- stdlib hex.hextable -/
def hexDigit (n : Nat) : UInt8 := if n < 10 then (48 + n).toUInt8 else (87 + n).toUInt8

/-- stdlib hex.EncodeToString -/
def hexEncode : Bytes → Bytes
  | [] => []
  | b :: bs => hexDigit (b.toNat / 16) :: hexDigit (b.toNat % 16) :: hexEncode bs

/-- stdlib hex.fromHexChar -/
def fromHexChar (c : UInt8) : Option Nat :=
  if 48 ≤ c ∧ c ≤ 57 then some (c.toNat - 48)
  else if 97 ≤ c ∧ c ≤ 102 then some (c.toNat - 87)
  else if 65 ≤ c ∧ c ≤ 70 then some (c.toNat - 55)
  else none

/-- stdlib hex.InvalidByteError; the byte is left out -/
def errHexByte : Err := .msg "encoding/hex: invalid byte"
/-- stdlib hex.ErrLength -/
def errHexLength : Err := .msg "encoding/hex: odd length hex string"

/-- stdlib hex.Decode: the bytes written to dst before the end or the first error, and the error. -/
def hexDecode : Bytes → Bytes × Option Err
  | [] => ([], none)
  | [a] => match fromHexChar a with
    | none => ([], some errHexByte)
    | some _ => ([], some errHexLength)
  | a :: b :: rest =>
    match fromHexChar a, fromHexChar b with
    | some x, some y =>
      let (r, e) := hexDecode rest
      ((x * 16 + y).toUInt8 :: r, e)
    | _, _ => ([], some errHexByte)

end Verif
