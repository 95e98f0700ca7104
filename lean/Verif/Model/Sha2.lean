import Verif.Model.Base58
import Verif.Lemmas.Numbers
/-! # SHA-256 and SHA-512: packages crypto/sha256 and crypto/sha512, pkg/chain/checksum.go:31-49

The two packages of the standard library differ in the word size, the constants and the rotations only, so there is one model with these as parameters. It follows
their portable code (sha256block.go, sha512block.go). Simplified: `Write` is called once, so there is no buffer of an incomplete block between calls. -/
namespace Verif

/-- The variables h0 … h7, a … h -/
structure S8 (w : Nat) where
  a : BitVec w
  b : BitVec w
  c : BitVec w
  d : BitVec w
  e : BitVec w
  f : BitVec w
  g : BitVec w
  h : BitVec w
deriving DecidableEq

/-- What sets SHA-256 and SHA-512 apart: `_K`, the initial state, and the rotations (the last number of `t1`, `t2` is a shift) -/
structure Sha2Alg (w : Nat) where
  k : List (BitVec w)
  init : S8 w
  t1 : Nat × Nat × Nat
  t2 : Nat × Nat × Nat
  e : Nat × Nat × Nat
  a : Nat × Nat × Nat

variable {w : Nat}

/-- stdlib: the words of a chunk, then `w[i] = t1 + w[i-7] + t2 + w[i-16]` for the others -/
def Sha2Alg.extend (A : Sha2Alg w) (ws : List (BitVec w)) (i : Nat) : List (BitVec w) :=
  let v1 := ws.getD (i - 2) 0
  let t1 := v1.rotateRight A.t1.1 ^^^ v1.rotateRight A.t1.2.1 ^^^ (v1 >>> A.t1.2.2)
  let v2 := ws.getD (i - 15) 0
  let t2 := v2.rotateRight A.t2.1 ^^^ v2.rotateRight A.t2.2.1 ^^^ (v2 >>> A.t2.2.2)
  ws ++ [t1 + ws.getD (i - 7) 0 + t2 + ws.getD (i - 16) 0]

/-- FIPS 180-4, 6.2.2 and 6.4.2, step 1: the message schedule of a block -/
def Sha2Alg.schedule (A : Sha2Alg w) (p : Bytes) : List (BitVec w) :=
  (List.range' 16 (A.k.length - 16)).foldl A.extend ((List.range 16).map fun i => BitVec.ofNat w (beNat ((p.drop (w / 8 * i)).take (w / 8))))

/-- stdlib: one round -/
def Sha2Alg.round (A : Sha2Alg w) (k x : BitVec w) (s : S8 w) : S8 w :=
  let t1 := s.h + (s.e.rotateRight A.e.1 ^^^ s.e.rotateRight A.e.2.1 ^^^ s.e.rotateRight A.e.2.2) + ((s.e &&& s.f) ^^^ (~~~s.e &&& s.g)) + k + x
  let t2 := (s.a.rotateRight A.a.1 ^^^ s.a.rotateRight A.a.2.1 ^^^ s.a.rotateRight A.a.2.2) + ((s.a &&& s.b) ^^^ (s.a &&& s.c) ^^^ (s.b &&& s.c))
  ⟨t1 + t2, s.a, s.b, s.c, s.d + t1, s.e, s.f, s.g⟩

/-- stdlib: the body of the loop of `block` for one chunk of 2w bytes -/
def Sha2Alg.chunk (A : Sha2Alg w) (s : S8 w) (p : Bytes) : S8 w :=
  let ws := A.schedule p
  let t := (List.range A.k.length).foldl (fun t i => A.round (A.k.getD i 0) (ws.getD i 0) t) s
  ⟨s.a + t.a, s.b + t.b, s.c + t.c, s.d + t.d, s.e + t.e, s.f + t.f, s.g + t.g, s.h + t.h⟩

/-- stdlib `block`: `for len(p) >= chunk`. `fuel` (the length of p) bounds the iterations. -/
def Sha2Alg.block (A : Sha2Alg w) : (fuel : Nat) → S8 w → Bytes → S8 w
  | 0, s, _ => s
  | f + 1, s, p => if p.length ≥ 2 * w then A.block f (A.chunk s p) (p.drop (2 * w)) else s

/-- stdlib `checkSum`: a byte 0x80, zeros, the length in bits in w/4 bytes of which only the last eight are used -/
def Sha2Alg.padding (_ : Sha2Alg w) (len : UInt64) : Bytes :=
  let l := len.toNat % (2 * w)
  let t := if l < 2 * w - w / 4 then 2 * w - w / 4 - l else 2 * w + (2 * w - w / 4) - l
  (0x80 : UInt8) :: List.replicate (t - 1) (0 : UInt8) ++ List.replicate (w / 4 - 8) (0 : UInt8) ++ beBytes 8 (len <<< 3).toNat

/-- stdlib `New`, `Write`, `Sum(nil)` -/
def Sha2Alg.sum (A : Sha2Alg w) (m : Bytes) : Bytes :=
  let p := m ++ A.padding m.length.toUInt64
  let s := A.block p.length A.init p
  [s.a, s.b, s.c, s.d, s.e, s.f, s.g, s.h].flatMap fun x => beBytes (w / 8) x.toNat

/-- stdlib crypto/sha256: `_K`, `init0` … `init7`, sha256block.go -/
def sha256Alg : Sha2Alg 32 where
  k := [
  0x428a2f98, 0x71374491, 0xb5c0fbcf, 0xe9b5dba5, 0x3956c25b, 0x59f111f1, 0x923f82a4, 0xab1c5ed5,
  0xd807aa98, 0x12835b01, 0x243185be, 0x550c7dc3, 0x72be5d74, 0x80deb1fe, 0x9bdc06a7, 0xc19bf174,
  0xe49b69c1, 0xefbe4786, 0x0fc19dc6, 0x240ca1cc, 0x2de92c6f, 0x4a7484aa, 0x5cb0a9dc, 0x76f988da,
  0x983e5152, 0xa831c66d, 0xb00327c8, 0xbf597fc7, 0xc6e00bf3, 0xd5a79147, 0x06ca6351, 0x14292967,
  0x27b70a85, 0x2e1b2138, 0x4d2c6dfc, 0x53380d13, 0x650a7354, 0x766a0abb, 0x81c2c92e, 0x92722c85,
  0xa2bfe8a1, 0xa81a664b, 0xc24b8b70, 0xc76c51a3, 0xd192e819, 0xd6990624, 0xf40e3585, 0x106aa070,
  0x19a4c116, 0x1e376c08, 0x2748774c, 0x34b0bcb5, 0x391c0cb3, 0x4ed8aa4a, 0x5b9cca4f, 0x682e6ff3,
  0x748f82ee, 0x78a5636f, 0x84c87814, 0x8cc70208, 0x90befffa, 0xa4506ceb, 0xbef9a3f7, 0xc67178f2]
  init := ⟨0x6a09e667, 0xbb67ae85, 0x3c6ef372, 0xa54ff53a, 0x510e527f, 0x9b05688c, 0x1f83d9ab, 0x5be0cd19⟩
  t1 := (17, 19, 10)
  t2 := (7, 18, 3)
  e := (6, 11, 25)
  a := (2, 13, 22)

/-- stdlib crypto/sha512: `_K`, `init0` … `init7`, sha512block.go -/
def sha512Alg : Sha2Alg 64 where
  k := [
  0x428a2f98d728ae22, 0x7137449123ef65cd, 0xb5c0fbcfec4d3b2f, 0xe9b5dba58189dbbc, 0x3956c25bf348b538,
  0x59f111f1b605d019, 0x923f82a4af194f9b, 0xab1c5ed5da6d8118, 0xd807aa98a3030242, 0x12835b0145706fbe,
  0x243185be4ee4b28c, 0x550c7dc3d5ffb4e2, 0x72be5d74f27b896f, 0x80deb1fe3b1696b1, 0x9bdc06a725c71235,
  0xc19bf174cf692694, 0xe49b69c19ef14ad2, 0xefbe4786384f25e3, 0x0fc19dc68b8cd5b5, 0x240ca1cc77ac9c65,
  0x2de92c6f592b0275, 0x4a7484aa6ea6e483, 0x5cb0a9dcbd41fbd4, 0x76f988da831153b5, 0x983e5152ee66dfab,
  0xa831c66d2db43210, 0xb00327c898fb213f, 0xbf597fc7beef0ee4, 0xc6e00bf33da88fc2, 0xd5a79147930aa725,
  0x06ca6351e003826f, 0x142929670a0e6e70, 0x27b70a8546d22ffc, 0x2e1b21385c26c926, 0x4d2c6dfc5ac42aed,
  0x53380d139d95b3df, 0x650a73548baf63de, 0x766a0abb3c77b2a8, 0x81c2c92e47edaee6, 0x92722c851482353b,
  0xa2bfe8a14cf10364, 0xa81a664bbc423001, 0xc24b8b70d0f89791, 0xc76c51a30654be30, 0xd192e819d6ef5218,
  0xd69906245565a910, 0xf40e35855771202a, 0x106aa07032bbd1b8, 0x19a4c116b8d2d0c8, 0x1e376c085141ab53,
  0x2748774cdf8eeb99, 0x34b0bcb5e19b48a8, 0x391c0cb3c5c95a63, 0x4ed8aa4ae3418acb, 0x5b9cca4f7763e373,
  0x682e6ff3d6b2b8a3, 0x748f82ee5defb2fc, 0x78a5636f43172f60, 0x84c87814a1f0ab72, 0x8cc702081a6439ec,
  0x90befffa23631e28, 0xa4506cebde82bde9, 0xbef9a3f7b2c67915, 0xc67178f2e372532b, 0xca273eceea26619c,
  0xd186b8c721c0c207, 0xeada7dd6cde0eb1e, 0xf57d4f7fee6ed178, 0x06f067aa72176fba, 0x0a637dc5a2c898a6,
  0x113f9804bef90dae, 0x1b710b35131c471b, 0x28db77f523047d84, 0x32caab7b40c72493, 0x3c9ebe0a15c9bebc,
  0x431d67c49c100d4c, 0x4cc5d4becb3e42b6, 0x597f299cfc657e2a, 0x5fcb6fab3ad6faec, 0x6c44198c4a475817]
  init := ⟨0x6a09e667f3bcc908, 0xbb67ae8584caa73b, 0x3c6ef372fe94f82b, 0xa54ff53a5f1d36f1,
  0x510e527fade682d1, 0x9b05688c2b3e6c1f, 0x1f83d9abfb41bd6b, 0x5be0cd19137e2179⟩
  t1 := (19, 61, 6)
  t2 := (1, 8, 7)
  e := (14, 18, 41)
  a := (28, 34, 39)

theorem Sha2Alg.sum_length (A : Sha2Alg w) (m : Bytes) : (A.sum m).length = 8 * (w / 8) := by
  unfold Sha2Alg.sum
  simp only [List.flatMap_cons, List.flatMap_nil, List.length_append, length_beBytes, List.length_nil]
  omega

/-- crypto/sha256.Sum256 -/
def goSha256 : Sha256 := ⟨sha256Alg.sum, sha256Alg.sum_length⟩

/-- checksum.go:31-39 `Checksum256Digest` -/
def checksum256Digest (message : Bytes) : Bytes := (sha256Alg.sum message).take 32
/-- checksum.go:41-49 `Checksum512Digest` -/
def checksum512Digest (message : Bytes) : Bytes := (sha512Alg.sum message).take 64

end Verif
