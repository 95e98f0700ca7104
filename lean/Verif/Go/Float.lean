import Verif.Go.Strconv
/-! # float32 and float64: strconv.ParseFloat and strconv.AppendFloat

A float is its bits. Magnitudes (the bits without the sign) are natural numbers: in their order, and one after the other, they stand for the multiples of the smallest
float that are floats. All calculations are exact; the algorithms of strconv (Eisel-Lemire, Ryu) are taken to round correctly. -/
namespace Verif

/-- A format: the bits of the mantissa and of the exponent (stdlib strconv `floatInfo`) -/
structure FloatFmt where
  mant : Nat
  exp : Nat

/-- stdlib strconv/ftoa.go `float64info` -/
def binary64 : FloatFmt := ⟨52, 11⟩
/-- stdlib strconv/ftoa.go `float32info` -/
def binary32 : FloatFmt := ⟨23, 8⟩

/-- The smallest float above zero is 2 to the power of minus this -/
def FloatFmt.shift (f : FloatFmt) : Nat := 2 ^ (f.exp - 1) - 2 + f.mant
/-- The bits of +Inf -/
def FloatFmt.inf (f : FloatFmt) : Nat := (2 ^ f.exp - 1) * 2 ^ f.mant
/-- The bit of the sign -/
def FloatFmt.sign (f : FloatFmt) : Nat := 2 ^ (f.mant + f.exp)

/-- The float as a multiple of the smallest one. With exponent 0 there is no implicit bit. -/
def FloatFmt.scaled (f : FloatFmt) (b : Nat) : Nat :=
  if b / 2 ^ f.mant = 0 then b else (2 ^ f.mant + b % 2 ^ f.mant) * 2 ^ (b / 2 ^ f.mant - 1)

/-- `a / b` rounded to an integer, halves to an even one -/
def roundDiv (a b : Nat) : Nat :=
  if 2 * (a % b) < b then a / b
  else if b < 2 * (a % b) then a / b + 1
  else a / b + a / b % 2

/-- The magnitude nearest to `n / d` times the smallest float, without an upper limit: the last bit is worth 2 ^ e of it. A mantissa that is rounded up to the next power of
two carries into the exponent. -/
def FloatFmt.round (f : FloatFmt) (n d : Nat) : Nat :=
  let e := (n / d).log2 - f.mant
  e * 2 ^ f.mant + roundDiv n (d * 2 ^ e)

/-- The number a run of digits stands for -/
def digitsNat : Bytes → Nat → Nat
  | [], n => n
  | c :: t, n => digitsNat t (10 * n + (c.toNat - 48))

/-- The digits of an exponent; from 10000 on further ones are ignored (strconv.readFloat) -/
def expNat : Bytes → Nat → Nat
  | [], n => n
  | c :: t, n => expNat t (if n < 10000 then 10 * n + (c.toNat - 48) else n)

/-- An optional sign and what follows -/
def floatSign : Bytes → Bool × Bytes
  | 45 :: t => (true, t)
  | 43 :: t => (false, t)
  | t => (false, t)

/-- The exponent after the `e`: an optional sign and digits -/
def readExp (s : Bytes) : Option Int :=
  let (neg, ds) := floatSign s
  if ds ≠ [] ∧ ds.all isDigit then some (if neg then -(expNat ds 0 : Int) else expNat ds 0) else none

/-- A point with the digits after it, and what follows -/
def floatFrac : Bytes → Bytes × Bytes
  | 46 :: t => (t.takeWhile isDigit, t.dropWhile isDigit)
  | t => ([], t)

/-- The power of ten: nothing more, or an exponent -/
def floatExp : Bytes → Option Int
  | [] => some 0
  | c :: t => if c = 101 ∨ c = 69 then readExp t else none

/-- stdlib strconv.readFloat: sign, digits with at most one point and at least one digit, exponent. The result is the sign, the digits and the power of ten. Hexadecimal
numbers, inf, nan and underscores are left out (as errors): neither JSON numbers nor the numbers in the texts of assets have them. -/
def readFloat (s : Bytes) : Option (Bool × Nat × Int) :=
  let (neg, s) := floatSign s
  let ip := s.takeWhile isDigit
  let (fp, s) := floatFrac (s.dropWhile isDigit)
  if ip ++ fp = [] then none else (floatExp s).map fun e => (neg, digitsNat (ip ++ fp) 0, e - fp.length)

/-- The magnitude nearest to `n * 10 ^ e` -/
def FloatFmt.ofDecimal (f : FloatFmt) (n : Nat) (e : Int) : Nat :=
  f.round (n * 10 ^ e.toNat * 2 ^ f.shift) (10 ^ (-e).toNat)

/-- stdlib strconv.ParseFloat; `none` for an error. A number that is rounded to infinity is out of range. -/
def FloatFmt.parse (f : FloatFmt) (s : Bytes) : Option Nat := do
  let (neg, n, e) ← readFloat s
  let b := f.ofDecimal n e
  if b < f.inf then some ((if neg then f.sign else 0) + b) else none

/-- strconv.ParseFloat(s, 64) -/
def parseFloat (s : Bytes) : Option UInt64 := (binary64.parse s).map Nat.toUInt64

/-- Whether `x` is in the interval of numbers nearest to a float: its ends belong to it if the float is even -/
def between (even : Bool) (lo x hi : Nat) : Bool := if even then lo ≤ x && x ≤ hi else lo < x && x < hi

/-- The digits `c` and the position `j` of the last one: the first position at which `x` rounded down or up is in the interval, and of both the nearer one, with a tie the
even one (strconv.roundShortest) -/
def shortestFrom (even : Bool) (lo x hi : Nat) : Nat → Nat × Nat
  | 0 => (x, 0)
  | j + 1 =>
    let p := 10 ^ (j + 1)
    let c := x / p
    match between even lo (c * p) hi, between even lo ((c + 1) * p) hi with
    | true, true => (roundDiv x p, j + 1)
    | true, false => (c, j + 1)
    | false, true => (c + 1, j + 1)
    | false, false => shortestFrom even lo x hi j

/-- stdlib strconv/ftoa.go: the shortest digits that are nearer to the float than to its neighbours. The unit is 10 to the power of minus `shift + 1`, of which the float
and the middles between it and its neighbours are multiples. -/
def FloatFmt.shortest (f : FloatFmt) (b : Nat) : Nat × Nat :=
  let u := 5 ^ (f.shift + 1)
  shortestFrom (b % 2 == 0) ((f.scaled (b - 1) + f.scaled b) * u) (2 * f.scaled b * u) ((f.scaled b + f.scaled (b + 1)) * u) (2 * (f.shift + 1))

/-- stdlib strconv/ftoa.go `fmtF` with the shortest digits: `dp` digits are before the point -/
def fmtF (ds : Bytes) (dp : Int) : Bytes :=
  if dp ≤ 0 then asc "0." ++ (List.replicate (-dp).toNat 48 ++ ds)
  else if ds.length ≤ dp.toNat then ds ++ List.replicate (dp.toNat - ds.length) 48
  else ds.take dp.toNat ++ 46 :: ds.drop dp.toNat

/-- stdlib strconv/ftoa.go `fmtE` with the shortest digits: an exponent of at least two digits -/
def fmtE (ds : Bytes) (dp : Int) : Bytes :=
  let x := dp - 1
  let es := fmtNat x.natAbs
  ds.take 1 ++ ((if ds.length ≤ 1 then [] else 46 :: ds.drop 1) ++ (101 :: (if x < 0 then 45 else 43) :: (if es.length < 2 then 48 :: es else es)))

/-- stdlib json, floatEncoder: e-09 becomes e-9 -/
def cleanExp (s : Bytes) : Bytes := match s.reverse with
  | d :: 48 :: 45 :: 101 :: t => (d :: 45 :: 101 :: t).reverse
  | _ => s

/-- The text of a magnitude in JSON: with an exponent if it is not zero and below 1e-6 or not below 1e21 -/
def FloatFmt.magText (f : FloatFmt) (b : Nat) : Bytes :=
  if b = 0 then asc "0"
  else
    let (c, j) := f.shortest b
    let ds := fmtNat c
    let dp : Int := ds.length + j - (f.shift + 1)
    if b < f.ofDecimal 1 (-6) ∨ f.ofDecimal 1 21 ≤ b then cleanExp (fmtE ds dp) else fmtF ds dp

/-- stdlib json, floatEncoder, for a finite float -/
def FloatFmt.text (f : FloatFmt) (v : Nat) : Bytes := (if v / f.sign % 2 = 1 then asc "-" else []) ++ f.magText (v % f.sign)

end Verif
