import Verif.Go.Basic
import Mathlib.Data.Nat.Nth
import Mathlib.Data.Nat.Prime.Basic
/-! # SHA-256 and SHA-512 as published (FIPS 180-4)

Written from the standard for words of w bits: w = 32 in SHA-256, 64 in SHA-512. The constants are given by their definition, not by the tables of the standard. -/
namespace Verif.Sha2Spec

/-- The prime number with index t: 2, 3, 5, … -/
noncomputable def prime (t : Nat) : Nat := Nat.nth Nat.Prime t

/-- The first w bits of the fractional part of the k-th root of n: the integer part of 2^w times the root, modulo 2^w -/
def rootBits (k w n : Nat) : BitVec w := BitVec.ofNat w (Nat.findGreatest (fun x => x ^ k ≤ n * 2 ^ (w * k)) (n * 2 ^ (w * k)))

variable {w : Nat}

/-- 4.2.2, 4.2.3: cube roots -/
noncomputable def K (w t : Nat) : BitVec w := rootBits 3 w (prime t)
/-- 5.3.3, 5.3.5: square roots -/
noncomputable def H0 (w t : Nat) : BitVec w := rootBits 2 w (prime t)

/-- 4.1.2, 4.1.3 -/
def Ch (x y z : BitVec w) : BitVec w := (x &&& y) ^^^ (~~~x &&& z)
def Maj (x y z : BitVec w) : BitVec w := (x &&& y) ^^^ (x &&& z) ^^^ (y &&& z)

/-- The numbers in the definitions of the functions Σ0, Σ1, σ0, σ1 -/
structure Numbers where
  Sigma0 : Nat × Nat × Nat
  Sigma1 : Nat × Nat × Nat
  sigma0 : Nat × Nat × Nat
  sigma1 : Nat × Nat × Nat
def numbers256 : Numbers := ⟨(2, 13, 22), (6, 11, 25), (7, 18, 3), (17, 19, 10)⟩
def numbers512 : Numbers := ⟨(28, 34, 39), (14, 18, 41), (1, 8, 7), (19, 61, 6)⟩

/-- Three rotations -/
def Sigma (r : Nat × Nat × Nat) (x : BitVec w) : BitVec w := x.rotateRight r.1 ^^^ x.rotateRight r.2.1 ^^^ x.rotateRight r.2.2
/-- Two rotations and a shift -/
def sigma (r : Nat × Nat × Nat) (x : BitVec w) : BitVec w := x.rotateRight r.1 ^^^ x.rotateRight r.2.1 ^^^ x >>> r.2.2

/-- A big-endian number -/
def number (bs : Bytes) : Nat := bs.foldl (fun n b => 256 * n + b.toNat) 0
/-- n bytes of a big-endian number -/
def bytes (n v : Nat) : Bytes := (List.range n).map fun i => UInt8.ofNat (v / 256 ^ (n - 1 - i))

/-- 5.1: a one bit, as few zeros as possible, and the length in bits as a number of 2w bits fill blocks of 16 words. -/
def Padded (w : Nat) (m p : Bytes) : Prop := ∃ z, p = m ++ [0x80] ++ List.replicate z 0 ++ bytes (w / 4) (8 * m.length) ∧ p.length % (2 * w) = 0 ∧ z < 2 * w

/-- 6.2.2, 6.4.2, step 1: the message schedule of a block of words M -/
def W (N : Numbers) (M : Nat → BitVec w) (t : Nat) : BitVec w :=
  if t < 16 then M t else sigma N.sigma1 (W N M (t - 2)) + W N M (t - 7) + sigma N.sigma0 (W N M (t - 15)) + W N M (t - 16)
termination_by t

/-- Eight working variables, a to h -/
abbrev Vars (w : Nat) : Type := Fin 8 → BitVec w

/-- Step 3 -/
def step (N : Numbers) (k x : BitVec w) (v : Vars w) : Vars w :=
  let T1 := v 7 + Sigma N.Sigma1 (v 4) + Ch (v 4) (v 5) (v 6) + k + x
  let T2 := Sigma N.Sigma0 (v 0) + Maj (v 0) (v 1) (v 2)
  fun | 0 => T1 + T2 | 1 => v 0 | 2 => v 1 | 3 => v 2 | 4 => v 3 + T1 | 5 => v 4 | 6 => v 5 | 7 => v 6

noncomputable def steps (N : Numbers) (M : Nat → BitVec w) (v : Vars w) : Nat → Vars w
  | 0 => v
  | t + 1 => step N (K w t) (W N M t) (steps N M v t)

/-- Steps 2 and 4: the next hash value after a block -/
noncomputable def compress (N : Numbers) (rounds : Nat) (h : Vars w) (M : Nat → BitVec w) : Vars w := fun i => steps N M h rounds i + h i

/-- The hash value after n blocks of the padded message -/
noncomputable def hash (N : Numbers) (rounds : Nat) (p : Bytes) : Nat → Vars w
  | 0 => fun i => H0 w i.val
  | n + 1 => compress N rounds (hash N rounds p n) fun j => BitVec.ofNat w (number ((p.drop (2 * w * n + w / 8 * j)).take (w / 8)))

/-- The message digest -/
def IsDigest (w : Nat) (N : Numbers) (rounds : Nat) (m d : Bytes) : Prop :=
  ∃ p, Padded w m p ∧ d = (List.finRange 8).flatMap fun i => bytes (w / 8) (hash (w := w) N rounds p (p.length / (2 * w)) i).toNat

def IsSha256 : Bytes → Bytes → Prop := IsDigest 32 numbers256 64
def IsSha512 : Bytes → Bytes → Prop := IsDigest 64 numbers512 80

end Verif.Sha2Spec
