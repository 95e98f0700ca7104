import Verif.Go.Basic
/-! # Iterating over the runes of a Go string -/
namespace Verif

/-- Continuation byte in the given range (unicode/utf8 `acceptRange`). -/
def contIn (lo hi : UInt8) (b : UInt8) : Bool := lo ≤ b && b ≤ hi

/-- utf8.RuneError with width 1: what an invalid or incomplete sequence yields. -/
def runeError : Nat × Nat := (0xFFFD, 1)

/-- The second byte's range for a first byte (unicode/utf8/utf8.go, tables `first` and `acceptRanges`). -/
def secondRange (b0 : UInt8) : UInt8 × UInt8 :=
  if b0 == 0xE0 then (0xA0, 0xBF) else if b0 == 0xED then (0x80, 0x9F) else if b0 == 0xF0 then (0x90, 0xBF)
  else if b0 == 0xF4 then (0x80, 0x8F) else (0x80, 0xBF)

/-- stdlib utf8.DecodeRuneInString on a non-empty string: code point and width. This is what `for _, v := range s` uses. -/
def decodeRune : Bytes → Nat × Nat
  | [] => (0xFFFD, 0)
  | b0 :: t =>
    if b0 < 0x80 then (b0.toNat, 1)
    else if b0 < 0xC2 || b0 > 0xF4 then runeError
    else match t with
      | [] => runeError
      | b1 :: t1 =>
        if !(contIn (secondRange b0).1 (secondRange b0).2 b1) then runeError
        else if b0 < 0xE0 then ((b0.toNat % 32) * 64 + b1.toNat % 64, 2)
        else match t1 with
          | [] => runeError
          | b2 :: t2 =>
            if !(contIn 0x80 0xBF b2) then runeError
            else if b0 < 0xF0 then ((b0.toNat % 16) * 4096 + (b1.toNat % 64) * 64 + b2.toNat % 64, 3)
            else match t2 with
              | [] => runeError
              | b3 :: _ =>
                if !(contIn 0x80 0xBF b3) then runeError
                else ((b0.toNat % 8) * 262144 + (b1.toNat % 64) * 4096 + (b2.toNat % 64) * 64 + b3.toNat % 64, 4)

end Verif
