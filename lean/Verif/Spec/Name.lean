import Verif.Go.Basic
/-! # What an EOSIO name is

A name is a 64-bit number: twelve 5-bit digits followed by one 4-bit digit, most significant first; digits are written with the
characters `.12345abcdefghijklmnopqrstuvwxyz`. -/
namespace Verif

/-- The digit characters, in order. -/
def nameAlphabet : List Char := ['.', '1', '2', '3', '4', '5', 'a', 'b', 'c', 'd', 'e', 'f', 'g', 'h', 'i', 'j', 'k', 'l', 'm', 'n',
  'o', 'p', 'q', 'r', 's', 't', 'u', 'v', 'w', 'x', 'y', 'z']

/-- Value of a character: its place in the alphabet; anything else counts as '.'. -/
def nameDigit (c : UInt8) : Nat := (nameAlphabet.findIdx? (fun a => a.toNat = c.toNat)).getD 0

/-- Weight of the i-th character. -/
def nameWeight (i : Nat) : Nat := if i < 12 then 2 ^ (59 - 5 * i) else 1

/-- The number a string stands for: at most 13 characters count, missing ones are '.', the 13th keeps its low four bits. -/
def nameValue (s : Bytes) : Nat :=
  ((List.range 13).map (fun i =>
    (if i < 12 then nameDigit (s.getD i 46) else nameDigit (s.getD i 46) % 16) * nameWeight i)).sum

/-- Canonical name strings: at most 13 characters of the alphabet, the 13th among the first sixteen, no trailing '.'. -/
def CanonicalName (s : Bytes) : Prop :=
  s.length ≤ 13 ∧ (∀ c ∈ s, ∃ a ∈ nameAlphabet, c.toNat = a.toNat) ∧
  (∀ c, s[12]? = some c → ∃ a ∈ nameAlphabet.take 16, c.toNat = a.toNat) ∧
  s.getLast? ≠ some 46

/-- The string filled up with '.' to 13 characters. -/
def padName (s : Bytes) : Bytes := s ++ List.replicate (13 - s.length) 46

/-- Lexicographic comparison of byte strings (as Go's `<` on strings). -/
def lexLt : Bytes → Bytes → Bool
  | _, [] => false
  | [], _ :: _ => true
  | a :: as, b :: bs => a < b || (a == b && lexLt as bs)

end Verif
