import Verif.Go.Basic
/-! # Hexadecimal and base64 text, stated with the published alphabets; no repository code -/
namespace Verif

/-- `c` is a hexadecimal digit, in either case, of value `v`. -/
def IsHexDigit (c : UInt8) (v : Nat) : Prop :=
  (asc "0123456789abcdef")[v]? = some c ∨ (asc "0123456789ABCDEF")[v]? = some c

/-- `s` is hexadecimal text for `b`: two digits per byte, high one first. -/
inductive HexText : Bytes → Bytes → Prop
  | nil : HexText [] []
  | cons {h l : UInt8} {x y : Nat} {s b : Bytes} {c : UInt8} : IsHexDigit h x → IsHexDigit l y → c.toNat = 16 * x + y → HexText s b →
      HexText (h :: l :: s) (c :: b)

/-- `c` is the base64 character (RFC 4648 table 1) of the sextet `v`. -/
def IsB64Digit (c : UInt8) (v : Nat) : Prop :=
  (asc "ABCDEFGHIJKLMNOPQRSTUVWXYZabcdefghijklmnopqrstuvwxyz0123456789+/")[v]? = some c

/-- `s` is padded base64 text for `b` (RFC 4648 section 4). `strict`: the unused bits are zero. -/
inductive B64Text (strict : Bool) : Bytes → Bytes → Prop
  | nil : B64Text strict [] []
  | one {p q : UInt8} {x y : Nat} {a : UInt8} {low : Nat} : IsB64Digit p x → IsB64Digit q y → x * 64 + y = a.toNat * 16 + low → low < 16 →
      (strict → low = 0) → B64Text strict [p, q, 61, 61] [a]
  | two {p q r : UInt8} {x y z : Nat} {a b : UInt8} {low : Nat} : IsB64Digit p x → IsB64Digit q y → IsB64Digit r z →
      x * 64 ^ 2 + y * 64 + z = (a.toNat * 256 + b.toNat) * 4 + low → low < 4 → (strict → low = 0) → B64Text strict [p, q, r, 61] [a, b]
  | three {p q r t : UInt8} {x y z w : Nat} {a b c : UInt8} {s bs : Bytes} : IsB64Digit p x → IsB64Digit q y → IsB64Digit r z → IsB64Digit t w →
      x * 64 ^ 3 + y * 64 ^ 2 + z * 64 + w = a.toNat * 256 ^ 2 + b.toNat * 256 + c.toNat → B64Text strict s bs →
      B64Text strict (p :: q :: r :: t :: s) (a :: b :: c :: bs)

end Verif
