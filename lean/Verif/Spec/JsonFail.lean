import Verif.Go.Basic
/-! # Names of members that stand for a field -/
namespace Verif

/-- The same character, or the same letter from A to Z in the other case -/
def SameLetter (c d : UInt8) : Prop := c = d ∨ (65 ≤ d.toNat ∧ d.toNat ≤ 90 ∧ c.toNat = d.toNat + 32) ∨ (65 ≤ c.toNat ∧ c.toNat ≤ 90 ∧ d.toNat = c.toNat + 32)

/-- `s` is the name `key` of a field but for letter case: U+212A KELVIN SIGN counts as a k, U+017F LATIN SMALL LETTER LONG S as an s. -/
inductive SameName : (s key : Bytes) → Prop
  | nil : SameName [] []
  | char {c d : UInt8} {s key : Bytes} : SameLetter c d → SameName s key → SameName (c :: s) (d :: key)
  | kelvin {d : UInt8} {s key : Bytes} : SameLetter 107 d → SameName s key → SameName (0xE2 :: 0x84 :: 0xAA :: s) (d :: key)
  | longS {d : UInt8} {s key : Bytes} : SameLetter 115 d → SameName s key → SameName (0xC5 :: 0xBF :: s) (d :: key)

end Verif
