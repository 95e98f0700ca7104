import Verif.Spec.Codec
/-! # Decimal text, symbols and assets as the documentation describes them -/
namespace Verif

/-- ASCII decimal digits. -/
def AllDigits (s : Bytes) : Prop := ∀ c ∈ s, 48 ≤ c.toNat ∧ c.toNat ≤ 57

/-- The number written by a digit string. -/
def decValue (s : Bytes) : Nat := s.foldl (fun n c => 10 * n + (c.toNat - 48)) 0

/-- A symbol name: at most seven letters A-Z. -/
def SymbolName (n : Bytes) : Prop := n.length ≤ 7 ∧ ∀ c ∈ n, 65 ≤ c.toNat ∧ c.toNat ≤ 90

instance (s : Bytes) : Decidable (AllDigits s) := inferInstanceAs (Decidable (∀ c ∈ s, _))
instance (s : Bytes) : Decidable (SymbolName s) := inferInstanceAs (Decidable (_ ∧ ∀ c ∈ s, _))

/-- The 64-bit representation of a symbol: precision in the lowest byte, then the name. -/
def symbolBits (p : Nat) (name : Bytes) : Nat := p + 256 * leValue name

/-- The text of an asset with units `v`, `d` digits after the point and symbol `name`:
`'-'? digits ('.' digits)? ' ' name`, at least one digit, at most 18 after the point, 1 to 7 letters, units in int64 range. -/
def AssetText (s : Bytes) (v : Int) (d : Nat) (name : Bytes) : Prop :=
  ∃ (neg : Bool) (ip fp : Bytes) (point : Bool),
    s = (if neg then [45] else []) ++ ip ++ (if point then 46 :: fp else []) ++ 32 :: name ∧
    AllDigits ip ∧ AllDigits fp ∧ (point = false → fp = []) ∧ ip ++ fp ≠ [] ∧ fp.length ≤ 18 ∧ d = fp.length ∧
    SymbolName name ∧ name ≠ [] ∧
    v = (if neg then -(decValue (ip ++ fp) : Int) else decValue (ip ++ fp)) ∧ -2 ^ 63 ≤ v ∧ v < 2 ^ 63

end Verif
