import Verif.Spec.Codec
import Verif.Spec.Ripemd
import Verif.Spec.Base58
/-! # Text and binary form of public keys and signatures -/
namespace Verif

/-- The key types and their names. -/
inductive KeyName : UInt8 → Bytes → Prop where
  | k1 : KeyName 0 (asc "K1")
  | p1 : KeyName 1 (asc "P1")
  | wa : KeyName 2 (asc "WA")

/-- `body` is the Base58 text of the data followed by the first four bytes of RIPEMD-160(data, type name). -/
def CheckedText (name data body : Bytes) : Prop := Base58Text body (data ++ (RipemdSpec.digest (data ++ name)).take 4)

/-- `body` is the Base58 text of the data followed by the first four bytes of hash(hash(data)). -/
def LegacyBody (hash : Bytes → Bytes) (data body : Bytes) : Prop := Base58Text body (data ++ (hash (hash data)).take 4)

/-- Strings on which base58.Decode panics (C30): with `c` the first byte outside the alphabet, `c` is not ASCII and the part of the string from `c` to the end of its
ten-byte block does not start with the UTF-8 form of a code point 128..255. -/
def Base58Bad (s : Bytes) : Prop := ∃ pre c post, s = pre ++ c :: post ∧ Base58String pre ∧ ¬ Base58String [c] ∧ 128 ≤ c.toNat ∧
  ¬ LatinStart ((c :: post).take (10 - pre.length % 10))

/-- Minimal LEB128 form of a number. -/
def MinLeb (lb : Bytes) (n : Nat) : Prop := IsLeb lb ∧ lebValue lb = n ∧ (lb.length = 1 ∨ lb.getLast? ≠ some 0)

/-- A byte string after its length. -/
def Prefixed (w b : Bytes) : Prop := ∃ lb, MinLeb lb b.length ∧ w = lb ++ b

/-- Data of a public key: 33 bytes, or for WebAuthn 34 bytes (point and user presence) and a relying party id with length; the id is shorter than 2^35. -/
def WfKey (t : UInt8) (data : Bytes) : Prop :=
  ((t = 0 ∨ t = 1) ∧ data.length = 33) ∨
  (t = 2 ∧ ∃ point w id, point.length = 34 ∧ Prefixed w id ∧ id.length < 2 ^ 35 ∧ data = point ++ w)

/-- Data of a signature: 65 bytes, followed for WebAuthn by the authenticator data and the client JSON, each with length. -/
def WfSig (t : UInt8) (data : Bytes) : Prop :=
  ((t = 0 ∨ t = 1) ∧ data.length = 65) ∨
  (t = 2 ∧ ∃ sig w ad w' cd, sig.length = 65 ∧ Prefixed w ad ∧ Prefixed w' cd ∧ ad.length < 2 ^ 35 ∧ cd.length < 2 ^ 35 ∧ data = sig ++ w ++ w')

end Verif
