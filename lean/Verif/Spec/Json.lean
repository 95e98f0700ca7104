import Verif.Go.Json
/-! # Well-formed JSON documents and strings -/
namespace Verif

/-- Unicode code points other than surrogates -/
def Scalar (r : Nat) : Prop := r < 0xD800 ∨ (0xE000 ≤ r ∧ r ≤ 0x10FFFF)

/-- UTF-8 (RFC 3629): the high bits of the first byte give the length, the others carry six bits each. -/
inductive Utf8Char : Nat → Bytes → Prop
  | one (a : UInt8) : a.toNat < 128 → Utf8Char a.toNat [a]
  | two (a b : Nat) : a < 32 → b < 64 → 128 ≤ a * 64 + b → Utf8Char (a * 64 + b) [(192 + a).toUInt8, (128 + b).toUInt8]
  | three (a b c : Nat) : a < 16 → b < 64 → c < 64 → 2048 ≤ a * 4096 + b * 64 + c → Scalar (a * 4096 + b * 64 + c) →
      Utf8Char (a * 4096 + b * 64 + c) [(224 + a).toUInt8, (128 + b).toUInt8, (128 + c).toUInt8]
  | four (a b c d : Nat) : a < 8 → b < 64 → c < 64 → d < 64 → 65536 ≤ a * 262144 + b * 4096 + c * 64 + d → Scalar (a * 262144 + b * 4096 + c * 64 + d) →
      Utf8Char (a * 262144 + b * 4096 + c * 64 + d) [(240 + a).toUInt8, (128 + b).toUInt8, (128 + c).toUInt8, (128 + d).toUInt8]

/-- Text in UTF-8 -/
inductive Utf8Text : Bytes → Prop
  | nil : Utf8Text []
  | cons (r : Nat) (c s : Bytes) : Utf8Char r c → Utf8Text s → Utf8Text (c ++ s)

/-- String literals (RFC 8259, section 7; any byte from 32 on counts as a character) -/
inductive StrLit : Bytes → Prop
  | nil : StrLit []
  | char (c : UInt8) (s : Bytes) : 32 ≤ c.toNat → c ≠ 34 → c ≠ 92 → StrLit s → StrLit (c :: s)
  | esc (e : UInt8) (s : Bytes) : e ∈ asc "bfnrt\\/\"" → StrLit s → StrLit (92 :: e :: s)
  | code (a b c d : UInt8) (s : Bytes) : (∀ x ∈ [a, b, c, d], x ∈ asc "0123456789abcdefABCDEF") → StrLit s → StrLit (92 :: 117 :: a :: b :: c :: d :: s)

mutual
/-- Documents with numbers that are natural, no deeper than n -/
def JVal.Fine : Nat → JVal → Prop
  | _, .null => True
  | _, .bool _ => True
  | _, .num l => ∃ k, l = fmtNat k
  | _, .str l => StrLit l
  | n, .arr xs => 1 ≤ n ∧ fineList (n - 1) xs
  | n, .obj ms => 1 ≤ n ∧ fineMembers (n - 1) ms
def fineList : Nat → List JVal → Prop
  | _, [] => True
  | n, x :: xs => x.Fine n ∧ fineList n xs
def fineMembers : Nat → List (Bytes × JVal) → Prop
  | _, [] => True
  | n, (k, x) :: ms => StrLit k ∧ x.Fine n ∧ fineMembers n ms
end

end Verif
