import Verif.Go.Dec
import Verif.Go.Enc
/-!
# What it means to encode, decode and round-trip

Stated only in terms of runs; no repository code is used here.
-/
namespace Verif

/-- The encode function writes exactly `bs` to a `bytes.Buffer` and returns a nil error. -/
def Enc.Writes (p : Enc (Option Err)) (bs : Bytes) : Prop := p.run = .ok none bs

instance (p : Enc (Option Err)) (bs : Bytes) : Decidable (p.Writes bs) := inferInstanceAs (Decidable (p.run = .ok none bs))

/-- Given a stream that starts with `bs`, whatever follows and however the stream ends, the decode function returns `a` and a nil
error, having consumed exactly `bs`. -/
def Dec.Reads {α : Type} (p : Dec (α × Option Err)) (bs : Bytes) (a : α) : Prop :=
  ∀ (fin : Err) (rest : Bytes), p.runE fin (bs ++ rest) = .ok (a, none) rest

/-- The number whose little-endian base-256 digits are `bs`: digit `i` has weight `256^i`. -/
def leValue (bs : Bytes) : Nat :=
  ((List.range bs.length).map (fun i => (bs.getD i 0).toNat * 256 ^ i)).sum

/-- LEB128: every byte but the last has the top bit set, the last has not. -/
def IsLeb (bs : Bytes) : Prop :=
  ∃ init last, bs = init ++ [last] ∧ (∀ b ∈ init, 128 ≤ b.toNat) ∧ last.toNat < 128

/-- LEB128 value: low seven bits of byte `i` have weight `128^i`. -/
def lebValue (bs : Bytes) : Nat :=
  ((List.range bs.length).map (fun i => (bs.getD i 0).toNat % 128 * 128 ^ i)).sum

end Verif
