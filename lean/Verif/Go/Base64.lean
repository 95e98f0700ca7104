import Verif.Go.Basic
/-! # Go `encoding/base64`, `StdEncoding` (standard library) -/
namespace Verif

/-- stdlib base64.encodeStd -/
def b64Alphabet : Bytes := asc "ABCDEFGHIJKLMNOPQRSTUVWXYZabcdefghijklmnopqrstuvwxyz0123456789+/"

/-- The digit n of the alphabet -/
def b64Char (n : Nat) : UInt8 := b64Alphabet.getD n 0

/-- stdlib (*Encoding).EncodeToString -/
def b64Encode : Bytes → Bytes
  | [] => []
  | [a] =>
    let v := a.toNat * 2 ^ 16
    [b64Char (v / 2 ^ 18 % 64), b64Char (v / 2 ^ 12 % 64), 61, 61]
  | [a, b] =>
    let v := a.toNat * 2 ^ 16 + b.toNat * 2 ^ 8
    [b64Char (v / 2 ^ 18 % 64), b64Char (v / 2 ^ 12 % 64), b64Char (v / 2 ^ 6 % 64), 61]
  | a :: b :: c :: rest =>
    let v := a.toNat * 2 ^ 16 + b.toNat * 2 ^ 8 + c.toNat
    b64Char (v / 2 ^ 18 % 64) :: b64Char (v / 2 ^ 12 % 64) :: b64Char (v / 2 ^ 6 % 64) :: b64Char (v % 64) :: b64Encode rest

/-- stdlib (*Encoding).decodeMap: `none` is 0xff -/
def b64Val (c : UInt8) : Option Nat :=
  if 65 ≤ c ∧ c ≤ 90 then some (c.toNat - 65)
  else if 97 ≤ c ∧ c ≤ 122 then some (c.toNat - 71)
  else if 48 ≤ c ∧ c ≤ 57 then some (c.toNat + 4)
  else if c = 43 then some 62
  else if c = 47 then some 63
  else none

/-- stdlib base64.CorruptInputError; the offset is left out -/
def errBase64 : Err := .msg "illegal base64 data"

/-- '\n' or '\r' -/
def isNL (c : UInt8) : Bool := c == 10 || c == 13

/-- What decodeQuantum does after the padding: skip newlines; anything left is trailing garbage. -/
def b64Tail (out : Bytes) (src : Bytes) : Bytes × Option Err :=
  if src.dropWhile isNL = [] then (out, none) else (out, some errBase64)

/-- decodeQuantum on the padding character, after the sextets `acc`. -/
def b64Pad : List Nat → Bytes → Bytes × Option Err
  | [x, y], src =>
    match src.dropWhile isNL with
    | [] => ([], some errBase64)
    | c2 :: src2 =>
      if c2 ≠ 61 then ([], some errBase64)
      else b64Tail [((x * 2 ^ 18 + y * 2 ^ 12) / 2 ^ 16).toUInt8] src2
  | [x, y, z], src =>
    let v := x * 2 ^ 18 + y * 2 ^ 12 + z * 2 ^ 6
    b64Tail [(v / 2 ^ 16).toUInt8, (v / 2 ^ 8).toUInt8] src
  | _, _ => ([], some errBase64)

/-- The three bytes of a full quantum. -/
def b64Three (x y z d : Nat) : Bytes :=
  let v := x * 2 ^ 18 + y * 2 ^ 12 + z * 2 ^ 6 + d
  [(v / 2 ^ 16).toUInt8, (v / 2 ^ 8).toUInt8, v.toUInt8]

/-- stdlib (*Encoding).Decode as used by DecodeString: the bytes decoded before the end or the first error, and the error. `acc` holds the
sextets of the current quantum (at most three). The 4- and 8-byte fast paths of the library are shortcuts with the same result. The
position in the error is not modelled. -/
def b64Go (acc : List Nat) : Bytes → Bytes × Option Err
  | [] => if acc = [] then ([], none) else ([], some errBase64)
  | c :: src =>
    match b64Val c with
    | some d =>
      if acc.length = 3 then
        let (r, e) := b64Go [] src
        (b64Three (acc.getD 0 0) (acc.getD 1 0) (acc.getD 2 0) d ++ r, e)
      else b64Go (acc ++ [d]) src
    | none =>
      if isNL c then b64Go acc src
      else if c ≠ 61 then ([], some errBase64)
      else b64Pad acc src

/-- stdlib (*Encoding).DecodeString -/
def b64Decode (s : Bytes) : Bytes × Option Err := b64Go [] s

end Verif
