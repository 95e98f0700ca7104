import Verif.Go.Basic
/-! # Literals for test vectors: `txt! "…"` is the list of the bytes of a string, `hex! "…"` the bytes given in hexadecimal

Expanded when the file is read, so that evaluation starts from a list of numbers. -/
namespace Verif.Vectors
open Lean

def hexVal (c : Char) : Nat := if c.isDigit then c.toNat - 48 else c.toNat - 87
def hexPairs : List Char → List Nat
  | a :: b :: r => (hexVal a * 16 + hexVal b) :: hexPairs r
  | _ => []

def byteList (bs : List Nat) : MacroM Term := do
  let xs : Array Term := (bs.map fun b => Syntax.mkNumLit (toString b)).toArray
  `(([$xs,*] : Bytes))

macro "txt! " s:str : term => byteList (s.getString.toUTF8.toList.map UInt8.toNat)
macro "hex! " s:str : term => byteList (hexPairs s.getString.toList)

end Verif.Vectors
