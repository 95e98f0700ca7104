import Verif.Go.Utf8
import Verif.Model.Numbers
import Verif.Model.Ripemd
/-! # pkg/base58 -/
namespace Verif

/-- pkg/base58/alphabet.go:5 -/
def b58Alphabet : Bytes := asc "123456789ABCDEFGHJKLMNPQRSTUVWXYZabcdefghijkmnopqrstuvwxyz"

/-- pkg/base58/alphabet.go:7 `alphabetIdx0` -/
def b58Idx0 : UInt8 := 49

/-- pkg/base58/alphabet.go:10-43; the upper half is all 255 -/
def b58Table : List UInt8 := [
  255, 255, 255, 255, 255, 255, 255, 255,
  255, 255, 255, 255, 255, 255, 255, 255,
  255, 255, 255, 255, 255, 255, 255, 255,
  255, 255, 255, 255, 255, 255, 255, 255,
  255, 255, 255, 255, 255, 255, 255, 255,
  255, 255, 255, 255, 255, 255, 255, 255,
  255, 0, 1, 2, 3, 4, 5, 6,
  7, 8, 255, 255, 255, 255, 255, 255,
  255, 9, 10, 11, 12, 13, 14, 15,
  16, 255, 17, 18, 19, 20, 21, 255,
  22, 23, 24, 25, 26, 27, 28, 29,
  30, 31, 32, 255, 255, 255, 255, 255,
  255, 33, 34, 35, 36, 37, 38, 39,
  40, 41, 42, 43, 255, 44, 45, 46,
  47, 48, 49, 50, 51, 52, 53, 54,
  55, 56, 57, 255, 255, 255, 255, 255] ++ List.replicate 128 255

/-- pkg/base58/base58.go:21 -/
def bigRadix10 : Nat := 58 * 58 * 58 * 58 * 58 * 58 * 58 * 58 * 58 * 58

/-- pkg/base58/base58.go:7-19 -/
def bigRadix : List Nat := [
  0,
  58,
  58 * 58,
  58 * 58 * 58,
  58 * 58 * 58 * 58,
  58 * 58 * 58 * 58 * 58,
  58 * 58 * 58 * 58 * 58 * 58,
  58 * 58 * 58 * 58 * 58 * 58 * 58,
  58 * 58 * 58 * 58 * 58 * 58 * 58 * 58,
  58 * 58 * 58 * 58 * 58 * 58 * 58 * 58 * 58,
  bigRadix10]

/-- pkg/base58/base58.go:50-57: the runes of one block. `none`: the function returns the empty slice. Indexing `b58` with a rune of 256 or more panics.
`fuel` is the length of the block. -/
def b58Runes : (fuel : Nat) → Bytes → (total : UInt64) → Pan (Option UInt64)
  | 0, _, total => .val (some total)
  | f + 1, t, total =>
    if t.length = 0 then .val (some total)
    else match b58Table[(decodeRune t).1]? with
      | none => .panic "index out of range"
      | some tmp => if tmp == 255 then .val none else b58Runes f (t.drop (decodeRune t).2) (total * 58 + tmp.toUInt64)

/-- pkg/base58/base58.go:44-64: the loop over blocks of ten bytes. `fuel` is the length of the string. -/
def b58DecLoop : (fuel : Nat) → Bytes → (answer : Nat) → Pan (Option Nat)
  | 0, _, answer => .val (some answer)
  | f + 1, t, answer =>
    if t.length = 0 then .val (some answer)
    else
      let n := if t.length > 10 then 10 else t.length
      match b58Runes n (t.take n) 0 with
      | .panic w => .panic w
      | .val none => .val none
      | .val (some total) => b58DecLoop f (t.drop n) (answer * bigRadix.getD n 0 + total.toNat)

/-- pkg/base58/base58.go:68-73: number of leading '1' -/
def b58Ones : Bytes → Nat
  | [] => 0
  | c :: t => if c != b58Idx0 then 0 else b58Ones t + 1

/-- pkg/base58/base58.go:24-79 `Decode` -/
def b58Decode (b : Bytes) : Pan Bytes :=
  match b58DecLoop b.length b 0 with
  | .panic w => .panic w
  | .val none => .val []
  | .val (some answer) => .val (List.replicate (b58Ones b) 0 ++ bigBytes answer)

/-- `alphabet[m%58]`; a negative index panics -/
def b58Char (m : Int64) : Option UInt8 := if m % 58 < 0 then none else b58Alphabet[(m % 58).toInt.toNat]?

/-- pkg/base58/base58.go:110-113: `for i := 0; i < 10; i++` (k iterations left) -/
def b58Ten : (k : Nat) → (m : Int64) → (answer : Bytes) → Pan Bytes
  | 0, _, answer => .val answer
  | k + 1, m, answer =>
    match b58Char m with
    | none => .panic "index out of range"
    | some c => b58Ten k (m / 58) (answer ++ [c])

/-- pkg/base58/base58.go:104-107: `for m > 0`. An int64 has at most 11 base-58 digits, which bounds the iterations (`fuel`). -/
def b58Rest : (fuel : Nat) → (m : Int64) → (answer : Bytes) → Pan Bytes
  | 0, _, answer => .val answer
  | f + 1, m, answer =>
    if m > 0 then
      match b58Char m with
      | none => .panic "index out of range"
      | some c => b58Rest f (m / 58) (answer ++ [c])
    else .val answer

/-- pkg/base58/base58.go:90-115: `for x.Sign() > 0`; `fuel` is the number of bytes of the input, more than enough iterations. -/
def b58EncLoop : (fuel : Nat) → (x : Nat) → (answer : Bytes) → Pan Bytes
  | 0, _, answer => .val answer
  | f + 1, x, answer =>
    if x > 0 then
      let mod := x % bigRadix10
      let x := x / bigRadix10
      if x = 0 then b58Rest 11 (Int64.ofNat mod) answer
      else match b58Ten 10 (Int64.ofNat mod) answer with
        | .panic w => .panic w
        | .val answer => b58EncLoop f x answer
    else .val answer

/-- pkg/base58/base58.go:118-123: one '1' for each leading zero byte -/
def b58Zeros : Bytes → Bytes
  | [] => []
  | i :: t => if i != 0 then [] else b58Idx0 :: b58Zeros t

/-- pkg/base58/base58.go:82-132 `Encode`. The capacity computed at :87 only affects allocation and is left out. -/
def b58Encode (b : Bytes) : Pan Bytes :=
  match b58EncLoop b.length (beNat b) [] with
  | .panic w => .panic w
  | .val answer => .val (answer ++ b58Zeros b).reverse

/-- crypto/sha256.Sum256 as a parameter: any function with 32-byte results. Model/Sha2 has the function itself (`goSha256`). -/
structure Sha256 where
  sum : Bytes → Bytes
  len : ∀ m, (sum m).length = 32

/-- pkg/base58/base58check.go:11, :14 -/
def errChecksum : Err := .msg "checksum error"
/-- base58check.go:14 -/
def errInvalidFormat : Err := .msg "invalid format: checksum bytes missing"

/-- pkg/base58/base58check.go:17-22 `checksum` -/
def b58Checksum (sha : Sha256) (input : Bytes) : Bytes := (sha.sum (sha.sum input)).take 4

/-- pkg/base58/base58check.go:25-34 `checksumEosio` -/
def b58ChecksumEosio (input suffix : Bytes) : Pan Bytes :=
  let h := Digest.new.write input
  let h := if suffix.length > 0 then h.write suffix else h
  match h.sum [] with
  | .panic w => .panic w
  | .val sum => .val (sum.take 4)

/-- pkg/base58/base58check.go:37-43 `CheckEncode` -/
def b58CheckEncode (sha : Sha256) (input : Bytes) : Pan Bytes := b58Encode (input ++ b58Checksum sha input)

/-- pkg/base58/base58check.go:46-52 `CheckEncodeEosio` -/
def b58CheckEncodeEosio (input suffix : Bytes) : Pan Bytes :=
  match b58ChecksumEosio input suffix with
  | .panic w => .panic w
  | .val c => b58Encode (input ++ c)

/-- pkg/base58/base58check.go:55-68 `CheckDecode`; a nil and an empty result are not distinguished -/
def b58CheckDecode (sha : Sha256) (input : Bytes) : Pan (Bytes × Option Err) :=
  match b58Decode input with
  | .panic w => .panic w
  | .val decoded =>
    if decoded.length < 4 then .val ([], some errInvalidFormat)
    else
      let cksum := decoded.drop (decoded.length - 4)
      if b58Checksum sha (decoded.take (decoded.length - 4)) ≠ cksum then .val ([], some errChecksum)
      else .val (decoded.take (decoded.length - 4), none)

/-- pkg/base58/base58check.go:71-84 `CheckDecodeEosio` -/
def b58CheckDecodeEosio (input suffix : Bytes) : Pan (Bytes × Option Err) :=
  match b58Decode input with
  | .panic w => .panic w
  | .val decoded =>
    if decoded.length < 4 then .val ([], some errInvalidFormat)
    else
      let cksum := decoded.drop (decoded.length - 4)
      match b58ChecksumEosio (decoded.take (decoded.length - 4)) suffix with
      | .panic w => .panic w
      | .val c => if c ≠ cksum then .val ([], some errChecksum) else .val (decoded.take (decoded.length - 4), none)

end Verif
