import Verif.Spec.JsonSyntax
import Verif.Spec.Text
import Mathlib.Algebra.Order.Ring.Rat
import Mathlib.Algebra.Order.Group.Unbundled.Abs
/-! # Numbers and the floats nearest to them (IEEE 754) -/
namespace Verif

/-- The number that bits of a binary interchange format stand for: `p` bits of the significand are stored, `w` bits of the exponent (IEEE 754, section 3.4). Infinities and NaN
are left out. -/
def ieeeValue (p w bits : Nat) : Rat :=
  let m := bits % 2 ^ p
  let e := bits / 2 ^ p % 2 ^ w
  let bias := 2 ^ (w - 1) - 1
  let mag : Rat := if e = 0 then 2 * m / 2 ^ (bias + p) else (2 ^ p + m) * 2 ^ e / 2 ^ (bias + p)
  if bits / 2 ^ (p + w) % 2 = 1 then -mag else mag

/-- Neither an infinity nor NaN: the exponent is not all ones -/
def IeeeFinite (p w bits : Nat) : Prop := bits < 2 ^ (p + w + 1) ∧ bits / 2 ^ p % 2 ^ w ≠ 2 ^ w - 1

/-- q is rounded to this float: no finite float is nearer to it, and if one of another value is as near, this one is even; numbers from 2 ^ bias * (2 - 1 / 2 ^ (p + 1)) on are
rounded to an infinity (IEEE 754, section 4.3.1, roundTiesToEven). -/
structure Nearest (p w : Nat) (q : Rat) (bits : Nat) : Prop where
  range : |q| < 2 ^ (2 ^ (w - 1) - 1) * (2 - 1 / 2 ^ (p + 1))
  finite : IeeeFinite p w bits
  nearest : ∀ b, IeeeFinite p w b → |ieeeValue p w bits - q| ≤ |ieeeValue p w b - q|
  even : ∀ b, IeeeFinite p w b → ieeeValue p w b ≠ ieeeValue p w bits → |ieeeValue p w b - q| = |ieeeValue p w bits - q| → bits % 2 = 0

/-- binary32 and binary64 -/
def f32Value (v : UInt32) : Rat := ieeeValue 23 8 v.toNat
def f64Value (v : UInt64) : Rat := ieeeValue 52 11 v.toNat
def Finite32 (v : UInt32) : Prop := IeeeFinite 23 8 v.toNat
def Finite64 (v : UInt64) : Prop := IeeeFinite 52 11 v.toNat
def NearestF32 (q : Rat) (v : UInt32) : Prop := Nearest 23 8 q v.toNat
def NearestF64 (q : Rat) (v : UInt64) : Prop := Nearest 52 11 q v.toNat

/-- Numbers from here on are out of the range of float64: half the last place above the largest one -/
abbrev limit64 : Rat := 2 ^ 1023 * (2 - 1 / 2 ^ 53)

/-- 10 to the power of e -/
def tenTo (e : Int) : Rat := if 0 ≤ e then (10 ^ e.toNat : Nat) else 1 / (10 ^ (-e).toNat : Nat)

/-- The number a JSON number stands for -/
def NumValue (l : Bytes) (q : Rat) : Prop := ∃ sign int frac fp exp, ∃ x : Int, l = sign ++ (int ++ (frac ++ exp)) ∧ (sign = [] ∨ sign = asc "-") ∧
  (int = asc "0" ∨ (DigitSeq int ∧ int.head? ≠ some 48)) ∧ (frac = [] ∧ fp = [] ∨ DigitSeq fp ∧ frac = 46 :: fp) ∧
  (exp = [] ∧ x = 0 ∨ ∃ e s ds, (e = 101 ∨ e = 69) ∧ (s = [] ∨ s = asc "+" ∨ s = asc "-") ∧ DigitSeq ds ∧ exp = e :: (s ++ ds) ∧ x = if s = asc "-" then -(decValue ds : Int) else decValue ds) ∧
  q = (if sign = asc "-" then -1 else 1) * decValue (int ++ fp) * tenTo (x - fp.length)

end Verif
