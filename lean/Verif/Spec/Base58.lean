import Verif.Go.Basic
/-! # What Base58 means: positional notation -/
namespace Verif

/-- The Base58 letters in the order of their values. -/
def base58Letters : List Char := "123456789ABCDEFGHJKLMNPQRSTUVWXYZabcdefghijkmnopqrstuvwxyz".toList

/-- The letter with value d. -/
def letter58 (d : Nat) : UInt8 := ((base58Letters.getD d '?').toNat).toUInt8

/-- Value of a list of digits, most significant first, in base B. -/
def posVal (B : Nat) (ds : List Nat) : Nat := ds.foldl (fun a d => a * B + d) 0

/-- Digits of base B without a leading zero. -/
def Canonical (B : Nat) (ds : List Nat) : Prop := (∀ d ∈ ds, d < B) ∧ ∀ t, ds ≠ 0 :: t

/-- `s` is the Base58 text of the bytes `b`: as many '1' as `b` has leading zero bytes, followed by the base-58 digits, without leading zero, of the
number whose base-256 digits are the remaining bytes of `b`. -/
def Base58Text (s b : Bytes) : Prop := ∃ (z : Nat) (ds : List Nat) (bs : Bytes),
  s = List.replicate z 49 ++ ds.map letter58 ∧ b = List.replicate z 0 ++ bs ∧
  Canonical 58 ds ∧ Canonical 256 (bs.map UInt8.toNat) ∧ posVal 58 ds = posVal 256 (bs.map UInt8.toNat)

/-- A string over the Base58 alphabet. -/
def Base58String (s : Bytes) : Prop := ∀ c ∈ s, ∃ d, d < 58 ∧ c = letter58 d

/-- The bytes start with a two-byte UTF-8 sequence for a code point 128..255. -/
def LatinStart (w : Bytes) : Prop := ∃ c c1 t, w = c :: c1 :: t ∧ (c = 0xC2 ∨ c = 0xC3) ∧ 0x80 ≤ c1 ∧ c1 ≤ 0xBF

end Verif
