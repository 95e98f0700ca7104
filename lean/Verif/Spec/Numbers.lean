import Verif.Spec.Text
import Verif.Model.Numbers
/-! # 128-bit integers and decimal text, specified -/
namespace Verif

/-- The natural number a Uint128 stands for. -/
def U128.natVal (u : U128) : Nat := u.hi.toNat * 2 ^ 64 + u.lo.toNat

/-- The integer an Int128 stands for (two's complement). -/
def U128.intVal (u : U128) : Int := if u.natVal < 2 ^ 127 then u.natVal else (u.natVal : Int) - 2 ^ 128

/-- `s` is the decimal text of `i`: optional sign, at least one digit. -/
def DecimalText (s : Bytes) (i : Int) : Prop :=
  ∃ (sign ds : Bytes), s = sign ++ ds ∧ ds ≠ [] ∧ AllDigits ds ∧
    ((sign = [] ∨ sign = [43]) ∧ i = decValue ds ∨ sign = [45] ∧ i = -(decValue ds : Int))

end Verif
