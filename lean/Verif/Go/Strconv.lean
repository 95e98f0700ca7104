import Verif.Go.Basic
/-!
# Go `strconv`, `strings`, `fmt` (standard library, modelled by documented behaviour; base 10 only)
-/
namespace Verif

/-- ASCII digit of `d < 10`. -/
def digitChar (d : Nat) : UInt8 := (48 + d).toUInt8

/-- `fuel` bounds the number of digits. -/
def fmtNatAux : (fuel : Nat) → Nat → Bytes → Bytes
  | 0, _, acc => acc
  | f + 1, n, acc => if n < 10 then digitChar n :: acc else fmtNatAux f (n / 10) (digitChar (n % 10) :: acc)

/-- `strconv.FormatUint(n, 10)`, `(*big.Int).String` of a natural number: decimal digits without leading zeros. -/
def fmtNat (n : Nat) : Bytes := fmtNatAux (n + 1) n []

/-- `strconv.Itoa`, `strconv.FormatInt(i, 10)`, `fmt.Sprint(i)`, `(*big.Int).String`. -/
def fmtInt (i : Int) : Bytes := if i < 0 then 45 :: fmtNat i.natAbs else fmtNat i.natAbs

/-- ASCII digit test and value. -/
def isDigit (c : UInt8) : Bool := 48 ≤ c && c ≤ 57
/-- Value of a decimal digit -/
def digitVal (c : UInt8) : Nat := c.toNat - 48

/-- stdlib strconv.ErrSyntax; the function and the text are left out -/
def errSyntax : Err := .msg "invalid syntax"
/-- stdlib strconv.ErrRange; the function and the text are left out -/
def errRange : Err := .msg "value out of range"

/-- The digit loop of `strconv.ParseUint(s, 10, bits)`: left to right, stopping at the first non-digit (syntax error, value 0) or as soon
as the value exceeds `max = 2^bits - 1` (range error, value `max`). -/
def parseUintLoop (max : Nat) : Bytes → Nat → Nat × Option Err
  | [], n => (n, none)
  | c :: cs, n =>
    if isDigit c then
      if n * 10 + digitVal c > max then (max, some errRange)
      else parseUintLoop max cs (n * 10 + digitVal c)
    else (0, some errSyntax)

/-- `strconv.ParseUint(s, 10, bits)` -/
def parseUint (bits : Nat) (s : Bytes) : Nat × Option Err :=
  if s = [] then (0, some errSyntax) else parseUintLoop (2 ^ bits - 1) s 0

/-- `strconv.ParseInt(s, 10, bits)`: optional sign, then `ParseUint`, then the range check. -/
def parseInt (bits : Nat) (s : Bytes) : Int × Option Err :=
  if s = [] then (0, some errSyntax)
  else
    let (neg, s') := match s with
      | 43 :: t => (false, t)
      | 45 :: t => (true, t)
      | _ => (false, s)
    match parseUint bits s' with
    | (un, err) =>
      if err ≠ none ∧ err ≠ some errRange then (0, err)
      else if ¬neg ∧ un ≥ 2 ^ (bits - 1) then (2 ^ (bits - 1) - 1, some errRange)
      else if neg ∧ un > 2 ^ (bits - 1) then (-2 ^ (bits - 1), some errRange)
      else (if neg then -(un : Int) else un, none)

/-- `strings.Split(s, sep)` for a one-byte separator: always at least one element. -/
def splitByte (sep : UInt8) : Bytes → List Bytes
  | [] => [[]]
  | c :: cs =>
    if c = sep then [] :: splitByte sep cs
    else match splitByte sep cs with
      | [] => [[c]]
      | p :: ps => (c :: p) :: ps

/-- Go's `string(byte(v))`: the UTF-8 encoding of the code point `b` (two bytes from 128 on). -/
def runeOfByte (b : UInt8) : Bytes :=
  if b < 0x80 then [b] else [(0xC0 : UInt8) ||| (b >>> 6), (0x80 : UInt8) ||| (b &&& 0x3f)]

end Verif
