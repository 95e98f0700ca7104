import Verif.Model.Prim
/-! # pkg/chain/name.go -/
namespace Verif

/-- name.go:55 `base32Alphabet` -/
def base32Alphabet : Bytes := asc ".12345abcdefghijklmnopqrstuvwxyz"

/-- name.go:61-74, the loop of `nameToString`: `left` iterations remain, `i` is the loop variable, `acc` is `a[13-i:]` (iteration `i`
stores `a[12-i]`, i.e. prepends). The table access is always in range. -/
def nameLoop : (left i : Nat) → (tmp : UInt64) → (acc : Bytes) → Bytes
  | 0, _, _, acc => acc
  | left + 1, i, tmp, acc =>
    let bit : UInt64 := if i = 0 then 0x0f else 0x1f
    let c := base32Alphabet.getD (tmp &&& bit).toNat 0
    let shift : UInt64 := if i = 0 then 4 else 5
    nameLoop left (i + 1) (tmp >>> shift) (c :: acc)

/-- name.go:80-86, the loop of `trimRightDots`: the index up to which the bytes are kept. -/
def trimUpTo (a : Bytes) : Nat → Nat
  | 0 => 0
  | i + 1 => if a.getD i 0 = 46 then trimUpTo a i else i + 1

/-- name.go:78-91 `trimRightDots` on a 13-byte array. -/
def trimRightDots (a : Bytes) : Bytes := a.take (trimUpTo a 13)

/-- name.go:57-76 `nameToString` -/
def nameToString (value : UInt64) : Bytes := trimRightDots (nameLoop 13 0 value [])

/-- name.go:113-121 `charToSymbol` (byte arithmetic: `'a' = 97`, `'z' = 122`, `'1' = 49`, `'5' = 53`) -/
def charToSymbol (c : UInt8) : UInt8 :=
  if c ≥ 97 ∧ c ≤ 122 then c - 97 + 6
  else if c ≥ 49 ∧ c ≤ 53 then c - 49 + 1
  else 0

/-- name.go:97-109, the loop of `stringToName`; `sLen := uint32(len(s))` wraps for strings of 4 GiB and more. -/
def stringToNameLoop (s : Bytes) (sLen : UInt32) : (left i : Nat) → (rv : UInt64) → UInt64
  | 0, _, rv => rv
  | left + 1, i, rv =>
    let c : UInt64 := if i < sLen.toNat then (charToSymbol (s.getD i 0)).toUInt64 else 0
    let c := if i < 12 then (c &&& 0x1f) <<< (64 - 5 * (i + 1)).toUInt64 else c &&& 0x0f
    stringToNameLoop s sLen left (i + 1) (rv ||| c)

/-- name.go:93-111 `stringToName` -/
def stringToName (s : Bytes) : UInt64 := stringToNameLoop s s.length.toUInt32 13 0 0

/-- name.go:9-11 `NewName` (and :14-16 `N`) -/
def newName (s : Bytes) : UInt64 := stringToName s

/-- name.go:19-21 `Name.String` -/
def Name.string (n : UInt64) : Bytes := nameToString n

/-- name.go:25-27 `Name.MarshalABI` -/
def Name.marshal (n : UInt64) : Enc (Option Err) := writeUint64 n

/-- name.go:31-37 `Name.UnmarshalABI`: previous content in, new content and error out. -/
def Name.unmarshal (old : UInt64) : Dec (UInt64 × Option Err) := do
  let (v, err) ← readUint64
  match err with
  | some e => pure (old, some e)
  | none => pure (v, none)

/-- name.go:41-43 `Name.MarshalText` -/
def Name.marshalText (n : UInt64) : Bytes := Name.string n

/-- name.go:47-51 `Name.UnmarshalText` -/
def Name.unmarshalText (text : Bytes) : UInt64 × Option Err := (newName text, none)

end Verif
