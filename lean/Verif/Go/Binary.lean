import Verif.Go.Dec
import Verif.Go.Enc
/-!
# Go `encoding/binary` (standard library, modelled by its documented behaviour)
-/
namespace Verif

/-- The `n` low base-256 digits of `v`, least significant first: what `binary.LittleEndian.PutUint{16,32,64}` stores. -/
def leBytes : Nat → Nat → Bytes
  | 0, _ => []
  | n + 1, v => (v % 256).toUInt8 :: leBytes n (v / 256)

/-- The number with base-256 digits `bs`, least significant first: what `binary.LittleEndian.Uint{16,32,64}` returns. -/
def leNat : Bytes → Nat
  | [] => 0
  | b :: bs => b.toNat + 256 * leNat bs

/-- `binary.PutUvarint(buf, x)` on a buffer of `cap` bytes: the bytes stored in `buf[:i+1]`; `none` is the index-out-of-range
panic when the buffer is too small.
```go
i := 0
for x >= 0x80 { buf[i] = byte(x) | 0x80; x >>= 7; i++ }
buf[i] = byte(x)
return i + 1
``` -/
def putUvarint : (cap : Nat) → (x : UInt64) → Option Bytes
  | 0, _ => none
  | cap + 1, x =>
    if x ≥ 0x80 then (putUvarint cap (x >>> 7)).map (fun bs => (x.toUInt8 ||| 0x80) :: bs)
    else some [x.toUInt8]

/-- `binary.PutVarint`: `ux := uint64(x) << 1; if x < 0 { ux = ^ux }; return PutUvarint(buf, ux)`. -/
def zigzag (x : Int64) : UInt64 :=
  let ux := x.toUInt64 <<< 1
  if x < 0 then ~~~ux else ux

/-- stdlib binary.PutVarint -/
def putVarint (cap : Nat) (x : Int64) : Option Bytes := putUvarint cap (zigzag x)

/-- `binary.ReadVarint`'s second half: `x := int64(ux >> 1); if ux&1 != 0 { x = ^x }`. -/
def unzigzag (ux : UInt64) : Int64 :=
  let x := (ux >>> 1).toInt64
  if ux &&& 1 ≠ 0 then ~~~x else x

/-- Whether the Go release in use still lets `binary.ReadUvarint` return a bare `io.EOF` in the middle of a number (Go ≤ 1.18,
which the repository's CI uses) or turns it into `io.ErrUnexpectedEOF` (later releases). Every theorem holds for both. -/
opaque goLegacyUvarint : Bool

/-- The overflow error of `binary.ReadUvarint`. -/
def errVarintOverflow : Err := .msg "binary: varint overflows a 64-bit integer"

/-- `binary.ReadUvarint(r)` given `r.ReadByte`: `left` of the ten iterations remain, `x` and `s` as in the Go source.
```go
for i := 0; i < MaxVarintLen64; i++ {
    b, err := r.ReadByte()
    if err != nil { return x, err }                 // later releases: if i > 0 && err == io.EOF { err = io.ErrUnexpectedEOF }
    if b < 0x80 {
        if i == MaxVarintLen64-1 && b > 1 { return x, overflow }
        return x | uint64(b)<<s, nil
    }
    x |= uint64(b&0x7f) << s
    s += 7
}
return x, overflow
``` -/
def readUvarintLoop (readByte : Dec (UInt8 × Option Err)) : (left : Nat) → (x : UInt64) → (s : UInt64) → Dec (UInt64 × Option Err)
  | 0, x, _ => pure (x, some errVarintOverflow)
  | left + 1, x, s => do
    let (b, err) ← readByte
    match err with
    | some e => pure (x, some (if e = .eof ∧ s ≠ 0 ∧ goLegacyUvarint = false then .unexpectedEOF else e))
    | none =>
      if b < 0x80 then
        if left = 0 ∧ b > 1 then pure (x, some errVarintOverflow)
        else pure (x ||| (b.toUInt64 <<< s), none)
      else readUvarintLoop readByte left (x ||| ((b &&& 0x7f).toUInt64 <<< s)) (s + 7)

/-- stdlib binary.ReadUvarint -/
def readUvarint (readByte : Dec (UInt8 × Option Err)) : Dec (UInt64 × Option Err) :=
  readUvarintLoop readByte 10 0 0

/-- `binary.ReadVarint(r)`: `ux, err := ReadUvarint(r); …; return x, err`. -/
def readVarint (readByte : Dec (UInt8 × Option Err)) : Dec (Int64 × Option Err) := do
  let (ux, err) ← readUvarint readByte
  pure (unzigzag ux, err)

end Verif
