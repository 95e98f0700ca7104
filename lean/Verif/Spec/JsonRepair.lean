import Verif.Spec.JsonSyntax
/-! # What Go makes of literals and strings that are not Unicode text: U+FFFD in place of what is not a character -/
namespace Verif

/-- U+FFFD in UTF-8 -/
def replacement : Bytes := [0xEF, 0xBF, 0xBD]

/-- No UTF-8 character stands at the beginning. -/
def NoChar (s : Bytes) : Prop := ∀ r c u, Utf8Char r c → s ≠ c ++ u

/-- A string with every byte that does not belong to a UTF-8 character replaced by U+FFFD -/
inductive Repaired : Bytes → Bytes → Prop
  | nil : Repaired [] []
  | char (r : Nat) (c s t : Bytes) : Utf8Char r c → Repaired s t → Repaired (c ++ s) (c ++ t)
  | bad (b : UInt8) (s t : Bytes) : NoChar (b :: s) → Repaired s t → Repaired (b :: s) (replacement ++ t)

/-- The text goes on with the escape of a low surrogate. -/
def LowNext (l : Bytes) : Prop := ∃ a b c d r t, l = 92 :: 117 :: a :: b :: c :: d :: t ∧ Hex4 a b c d r ∧ 0xDC00 ≤ r ∧ r < 0xE000

/-- The string a literal is read as: as `LitMeans` says, with U+FFFD for every surrogate that is not part of a pair and every byte that does not belong to a UTF-8 character -/
inductive ReadAs : Bytes → Bytes → Prop
  | nil : ReadAs [] []
  | char (r : Nat) (c l s : Bytes) : Utf8Char r c → 32 ≤ r → r ≠ 34 → r ≠ 92 → ReadAs l s → ReadAs (c ++ l) (c ++ s)
  | bad (b : UInt8) (l s : Bytes) : NoChar (b :: l) → ReadAs l s → ReadAs (b :: l) (replacement ++ s)
  | esc (e b : UInt8) (l s : Bytes) : (e, b) ∈ [((98 : UInt8), (8 : UInt8)), (102, 12), (110, 10), (114, 13), (116, 9), (92, 92), (47, 47), (34, 34)] → ReadAs l s →
      ReadAs (92 :: e :: l) (b :: s)
  | code (a b c d : UInt8) (r : Nat) (u l s : Bytes) : Hex4 a b c d r → Utf8Char r u → ReadAs l s → ReadAs (92 :: 117 :: a :: b :: c :: d :: l) (u ++ s)
  | pair (a b c d a' b' c' d' : UInt8) (hi lo : Nat) (u l s : Bytes) : Hex4 a b c d (0xD800 + hi) → Hex4 a' b' c' d' (0xDC00 + lo) → hi < 1024 → lo < 1024 →
      Utf8Char (0x10000 + 1024 * hi + lo) u → ReadAs l s → ReadAs (92 :: 117 :: a :: b :: c :: d :: 92 :: 117 :: a' :: b' :: c' :: d' :: l) (u ++ s)
  | lone (a b c d : UInt8) (r : Nat) (l s : Bytes) : Hex4 a b c d r → 0xD800 ≤ r → r < 0xE000 → ¬ (r < 0xDC00 ∧ LowNext l) → ReadAs l s →
      ReadAs (92 :: 117 :: a :: b :: c :: d :: l) (replacement ++ s)

end Verif
