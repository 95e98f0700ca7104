import Verif.Go.Basic
/-! # pkg/ripemd160 -/
namespace Verif

/-- ripemd160block.go:8-14 `_n` -/
def rmdN : List Nat := [
  0, 1, 2, 3, 4, 5, 6, 7, 8, 9, 10, 11, 12, 13, 14, 15,
  7, 4, 13, 1, 10, 6, 15, 3, 12, 0, 9, 5, 2, 14, 11, 8,
  3, 10, 14, 4, 9, 15, 8, 1, 2, 7, 0, 6, 13, 11, 5, 12,
  1, 9, 11, 10, 0, 8, 12, 4, 13, 3, 7, 15, 14, 5, 6, 2,
  4, 0, 5, 9, 7, 12, 2, 10, 14, 1, 3, 8, 11, 6, 15, 13]

/-- ripemd160block.go:16-22 `_r` -/
def rmdR : List Nat := [
  11, 14, 15, 12, 5, 8, 7, 9, 11, 13, 14, 15, 6, 7, 9, 8,
  7, 6, 8, 13, 11, 9, 7, 15, 7, 12, 15, 9, 11, 7, 13, 12,
  11, 13, 6, 7, 14, 9, 13, 15, 14, 8, 13, 6, 5, 12, 7, 5,
  11, 12, 14, 15, 14, 15, 9, 8, 9, 14, 5, 6, 8, 6, 5, 12,
  9, 15, 5, 11, 6, 8, 13, 12, 5, 12, 13, 14, 11, 8, 5, 6]

/-- ripemd160block.go:25-31 `n_` -/
def rmdN' : List Nat := [
  5, 14, 7, 0, 9, 2, 11, 4, 13, 6, 15, 8, 1, 10, 3, 12,
  6, 11, 3, 7, 0, 13, 5, 10, 14, 15, 8, 12, 4, 9, 1, 2,
  15, 5, 1, 3, 7, 14, 6, 9, 11, 8, 12, 2, 10, 0, 4, 13,
  8, 6, 4, 1, 3, 11, 15, 0, 5, 12, 2, 13, 9, 7, 10, 14,
  12, 15, 10, 4, 1, 5, 8, 7, 6, 2, 13, 14, 0, 3, 9, 11]

/-- ripemd160block.go:33-39 `r_` -/
def rmdR' : List Nat := [
  8, 9, 9, 11, 13, 15, 15, 5, 7, 7, 8, 11, 14, 14, 12, 6,
  9, 13, 15, 7, 12, 8, 9, 11, 7, 7, 12, 7, 6, 15, 13, 11,
  9, 7, 15, 11, 8, 6, 6, 14, 12, 13, 5, 14, 13, 13, 7, 5,
  15, 5, 8, 11, 14, 14, 6, 14, 6, 9, 12, 9, 12, 5, 15, 8,
  8, 5, 12, 9, 12, 5, 14, 6, 8, 13, 6, 5, 15, 13, 11, 11]

/-- The variables a, b, c, d, e (also `digest.s`). -/
structure R5 where
  a : UInt32
  b : UInt32
  c : UInt32
  d : UInt32
  e : UInt32
deriving DecidableEq, Repr

/-- stdlib bits.RotateLeft32(x, k), 0 < k < 32 -/
def rotl (x : UInt32) (k : Nat) : UInt32 := (x <<< k.toUInt32) ||| (x >>> (32 - k).toUInt32)

/-- ripemd160block.go:57-61 and its nine variations: one step of a line. `f` is the Boolean function, `k` the added constant (0 where the code
adds none), `n`/`r` the tables. -/
def rmdLine (f : UInt32 → UInt32 → UInt32 → UInt32) (k : UInt32) (n r : List Nat) (x : List UInt32) (i : Nat) (s : R5) : R5 :=
  let alpha := s.a + f s.b s.c s.d + x.getD (n.getD i 0) 0 + k
  let alpha := rotl alpha (r.getD i 0) + s.e
  let beta := rotl s.c 10
  ⟨s.e, alpha, s.b, beta, s.d⟩

/-- One of the five `for` loops: both lines advance for i = from .. from+15. -/
def rmdRound (start : Nat) (fl : UInt32 → UInt32 → UInt32 → UInt32) (kl : UInt32) (fr : UInt32 → UInt32 → UInt32 → UInt32) (kr : UInt32) (x : List UInt32) (st : R5 × R5) : R5 × R5 :=
  (List.range' start 16).foldl (fun st i => (rmdLine fl kl rmdN rmdR x i st.1, rmdLine fr kr rmdN' rmdR' x i st.2)) st

/-- ripemd160block.go:48-52: sixteen little-endian words -/
def rmdWords (p : Bytes) : List UInt32 :=
  (List.range 16).map fun i =>
    (p.getD (4 * i) 0).toUInt32 ||| ((p.getD (4 * i + 1) 0).toUInt32 <<< 8) ||| ((p.getD (4 * i + 2) 0).toUInt32 <<< 16) |||
      ((p.getD (4 * i + 3) 0).toUInt32 <<< 24)

/-- ripemd160block.go:46-151: the body of the loop of `_Block` for one 64-byte block. -/
def rmdCompress (s : R5) (p : Bytes) : R5 :=
  let x := rmdWords p
  -- round 1
  let st := rmdRound 0 (fun b c d => b ^^^ c ^^^ d) 0 (fun b c d => b ^^^ (c ||| ~~~d)) 0x50a28be6 x (s, s)
  -- round 2
  let st := rmdRound 16 (fun b c d => b &&& c ||| ~~~b &&& d) 0x5a827999 (fun b c d => b &&& d ||| c &&& ~~~d) 0x5c4dd124 x st
  -- round 3
  let st := rmdRound 32 (fun b c d => (b ||| ~~~c) ^^^ d) 0x6ed9eba1 (fun b c d => (b ||| ~~~c) ^^^ d) 0x6d703ef3 x st
  -- round 4
  let st := rmdRound 48 (fun b c d => b &&& d ||| c &&& ~~~d) 0x8f1bbcdc (fun b c d => b &&& c ||| ~~~b &&& d) 0x7a6d76e9 x st
  -- round 5
  let st := rmdRound 64 (fun b c d => b ^^^ (c ||| ~~~d)) 0xa953fd4e (fun b c d => b ^^^ c ^^^ d) 0 x st
  -- combine results
  let l := st.1
  let r := st.2
  let dd := r.d + (l.c + s.b)
  ⟨dd, s.c + l.d + r.e, s.d + l.e + r.a, s.e + l.a + r.b, s.a + l.b + r.c⟩

/-- ripemd160block.go:41-157 `_Block`: final state and the number of bytes consumed. `fuel` (the length of p) bounds the iterations. -/
def rmdBlock : (fuel : Nat) → R5 → Bytes → (n : Nat) → R5 × Nat
  | 0, s, _, n => (s, n)
  | f + 1, s, p, n => if p.length ≥ 64 then rmdBlock f (rmdCompress s p) (p.drop 64) (n + 64) else (s, n)

/-- ripemd160.go:31-36 `digest` -/
structure Digest where
  s : R5
  /-- the 64-byte buffer -/
  x : Bytes
  nx : Nat
  tc : UInt64

/-- ripemd160.go:22-28, :38-42 `Reset`: the buffer keeps its content. (:51 `Size` is 20, :53 `BlockSize` 64.) -/
def Digest.reset (d : Digest) : Digest := { d with s := ⟨0x67452301, 0xefcdab89, 0x98badcfe, 0x10325476, 0xc3d2e1f0⟩, nx := 0, tc := 0 }

/-- ripemd160.go:45-49 `New`; :12-14 `init` makes it known to package crypto -/
def Digest.new : Digest := Digest.reset ⟨⟨0, 0, 0, 0, 0⟩, List.replicate 64 0, 0, 0⟩

/-- Writing `p` into the array `x` at index `i` (a `copy` or the loop at ripemd160.go:63-65). -/
def overwrite (x : Bytes) (i : Nat) (p : Bytes) : Bytes := x.take i ++ p ++ x.drop (i + p.length)

/-- ripemd160.go:73-78: the tail of `Write` -/
def Digest.writeTail (d : Digest) (p : Bytes) : Digest :=
  let r := rmdBlock p.length d.s p 0
  let p' := p.drop r.2
  if p'.length > 0 then { d with s := r.1, x := overwrite d.x 0 (p'.take 64), nx := min p'.length 64 }
  else { d with s := r.1 }

/-- ripemd160.go:55-79 `Write` (which always returns len(p), nil) -/
def Digest.write (d : Digest) (p : Bytes) : Digest :=
  let d := { d with tc := d.tc + p.length.toUInt64 }
  if d.nx > 0 then
    let n := if p.length > 64 - d.nx then 64 - d.nx else p.length
    let d := { d with x := overwrite d.x d.nx (p.take n), nx := d.nx + n }
    let d := if d.nx = 64 then { d with s := (rmdBlock d.x.length d.s d.x 0).1, nx := 0 } else d
    d.writeTail (p.drop n)
  else d.writeTail p

/-- ripemd160.go:107-112: a word, little-endian -/
def rmdOut (s : UInt32) : Bytes := [s.toUInt8, (s >>> 8).toUInt8, (s >>> 16).toUInt8, (s >>> 24).toUInt8]

/-- ripemd160.go:81-115 `Sum(in)`. `tmp` is the 64-byte buffer: 0x80 and zeros, then overwritten with the length. -/
def Digest.sum (d0 : Digest) (inp : Bytes) : Pan Bytes :=
  let tc := d0.tc
  let tmp : Bytes := 0x80 :: List.replicate 63 0
  let d :=
    if (tc % 64).toNat < 56 then d0.write (tmp.take (56 - (tc % 64).toNat))
    -- 64+56-tc%64 is at most 64 here, so slicing tmp does not fail
    else d0.write (tmp.take (64 + 56 - (tc % 64).toNat))
  let tc := tc <<< 3
  let len := (List.range 8).map fun i => (tc >>> (8 * i).toUInt64).toUInt8
  let d := d.write len
  if d.nx ≠ 0 then .panic "d.nx != 0"
  else .val (inp ++ rmdOut d.s.a ++ rmdOut d.s.b ++ rmdOut d.s.c ++ rmdOut d.s.d ++ rmdOut d.s.e)

/-- checksum.go:21-29 `Checksum160Digest`: hash of a message written at once. -/
def checksum160Digest (message : Bytes) : Pan Bytes :=
  match (Digest.new.write message).sum [] with
  | .val d => .val (d.take 20)
  | .panic w => .panic w

end Verif
