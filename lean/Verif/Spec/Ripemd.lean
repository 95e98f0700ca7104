import Verif.Go.Basic
/-!
# RIPEMD-160 as published (Dobbertin, Bosselaers, Preneel: "RIPEMD-160: A Strengthened Version of RIPEMD", 1996; ISO/IEC 10118-3)

Written from the mathematical description (permutations rho and pi, shift table by message word), not from the repository's tables.
-/
namespace Verif.RipemdSpec

/-- Boolean functions, j = 0..79 -/
def f (j : Nat) (x y z : BitVec 32) : BitVec 32 :=
  match j / 16 with
  | 0 => x ^^^ y ^^^ z
  | 1 => (x &&& y) ||| (~~~x &&& z)
  | 2 => (x ||| ~~~y) ^^^ z
  | 3 => (x &&& z) ||| (y &&& ~~~z)
  | _ => x ^^^ (y ||| ~~~z)

/-- Added constants of the left line: integer parts of 2^30 times the square roots of 2, 3, 5, 7 -/
def K (j : Nat) : BitVec 32 := match j / 16 with
  | 0 => 0x00000000#32 | 1 => 0x5A827999#32 | 2 => 0x6ED9EBA1#32 | 3 => 0x8F1BBCDC#32 | _ => 0xA953FD4E#32

/-- Added constants of the right line: integer parts of 2^30 times the cube roots of 2, 3, 5, 7 -/
def K' (j : Nat) : BitVec 32 := match j / 16 with
  | 0 => 0x50A28BE6#32 | 1 => 0x5C4DD124#32 | 2 => 0x6D703EF3#32 | 3 => 0x7A6D76E9#32 | _ => 0x00000000#32

/-- The permutation rho of message words. -/
def rho (i : Nat) : Nat := [7, 4, 13, 1, 10, 6, 15, 3, 12, 0, 9, 5, 2, 14, 11, 8].getD i 0
/-- The permutation pi: 9i + 5 mod 16. -/
def pi (i : Nat) : Nat := (9 * i + 5) % 16

/-- rho applied k times -/
def rhoPow : Nat → Nat → Nat
  | 0, i => i
  | k + 1, i => rho (rhoPow k i)

/-- Message word used in step j of the left line: id, rho, rho^2, rho^3, rho^4. -/
def r (j : Nat) : Nat := rhoPow (j / 16) (j % 16)
/-- Message word used in step j of the right line: pi, rho pi, ..., rho^4 pi. -/
def r' (j : Nat) : Nat := rhoPow (j / 16) (pi (j % 16))

/-- Shift for message word w in round k (the same for both lines). -/
def shift (k w : Nat) : Nat := ([
  [11, 14, 15, 12, 5, 8, 7, 9, 11, 13, 14, 15, 6, 7, 9, 8],
  [12, 13, 11, 15, 6, 9, 9, 7, 12, 15, 11, 13, 7, 8, 7, 7],
  [13, 15, 14, 11, 7, 7, 6, 8, 13, 14, 13, 12, 5, 5, 6, 9],
  [14, 11, 12, 14, 8, 6, 5, 5, 15, 12, 15, 14, 9, 9, 8, 6],
  [15, 12, 13, 13, 9, 5, 8, 6, 14, 11, 12, 11, 8, 6, 5, 5]].getD k []).getD w 0

structure Words where
  A : BitVec 32
  B : BitVec 32
  C : BitVec 32
  D : BitVec 32
  E : BitVec 32

/-- Little-endian 32-bit word number i of a block. -/
def word (block : Bytes) (i : Nat) : BitVec 32 :=
  BitVec.ofNat 32 ((block.getD (4 * i) 0).toNat + 256 * (block.getD (4 * i + 1) 0).toNat + 256 ^ 2 * (block.getD (4 * i + 2) 0).toNat +
    256 ^ 3 * (block.getD (4 * i + 3) 0).toNat)

def step (func : BitVec 32 → BitVec 32 → BitVec 32 → BitVec 32) (k : BitVec 32) (m : BitVec 32) (s : Nat) (h : Words) : Words :=
  let T := (h.A + func h.B h.C h.D + m + k).rotateLeft s + h.E
  ⟨h.E, T, h.B, h.C.rotateLeft 10, h.D⟩

def left (X : Nat → BitVec 32) (h : Words) : Words :=
  (List.range 80).foldl (fun h j => step (f j) (K j) (X (r j)) (shift (j / 16) (r j)) h) h

def right (X : Nat → BitVec 32) (h : Words) : Words :=
  (List.range 80).foldl (fun h j => step (f (79 - j)) (K' j) (X (r' j)) (shift (j / 16) (r' j)) h) h

/-- The compression function. -/
def compress (h : Words) (block : Bytes) : Words :=
  let l := left (word block) h
  let r := right (word block) h
  ⟨h.B + l.C + r.D, h.C + l.D + r.E, h.D + l.E + r.A, h.E + l.A + r.B, h.A + l.B + r.C⟩

def init : Words := ⟨0x67452301#32, 0xEFCDAB89#32, 0x98BADCFE#32, 0x10325476#32, 0xC3D2E1F0#32⟩

/-- Padding: a one bit, zeros up to 56 modulo 64 bytes, the length in bits as 64-bit little-endian number. -/
def pad (m : Bytes) : Bytes :=
  m ++ [0x80] ++ List.replicate ((119 - m.length % 64) % 64) 0 ++
    (List.range 8).map (fun i => UInt8.ofNat (8 * m.length / 256 ^ i))

/-- All complete blocks of p, in order. -/
def process (h : Words) (p : Bytes) : Words :=
  (List.range (p.length / 64)).foldl (fun h i => compress h ((p.drop (64 * i)).take 64)) h

def bytesOf (w : BitVec 32) : Bytes := (List.range 4).map (fun i => UInt8.ofNat (w.toNat / 256 ^ i))

def digest (m : Bytes) : Bytes :=
  let h := process init (pad m)
  bytesOf h.A ++ bytesOf h.B ++ bytesOf h.C ++ bytesOf h.D ++ bytesOf h.E

end Verif.RipemdSpec
