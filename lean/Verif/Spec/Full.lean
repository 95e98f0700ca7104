import Verif.Model.Abi
/-! # A writer that runs full -/
namespace Verif

/-- Run an encode function on a writer with room for n bytes: what fits is written; a `Write` that does not fit writes what does and returns e, and so do all later
ones that have something to write. -/
def Enc.runFull {α : Type} (e : Err) : Enc α → (n : Nat) → EOut α
  | .ret a, _ => .ok a []
  | .panic w, _ => .panic w
  | .diverge, _ => .diverge
  | .write bs k, n =>
    if bs.length ≤ n then ((k none).runFull e (n - bs.length)).prepend bs
    else ((k (some e)).runFull e 0).prepend (bs.take n)

/-- If p writes b to a writer that never fails, then on one with room for n bytes it does the same if b fits; otherwise the writer has the first n bytes of b, and p returns
the error of the writer; a nil error is possible only if Q is true of the bytes that are missing. -/
def Enc.Fills (Q : Bytes → Prop) (p : Enc (Option Err)) : Prop := ∀ (e : Err) (n : Nat) (b : Bytes), p.run = .ok none b →
  if b.length ≤ n then p.runFull e n = .ok none b
  else p.runFull e n = .ok (some e) (b.take n) ∨ p.runFull e n = .ok none (b.take n) ∧ Q (b.drop n)

/-- Presence flags and nothing else -/
def AllFlags (m : Bytes) : Prop := ∀ x ∈ m, x = 0 ∨ x = 1

/-- The first byte is a presence flag. -/
def FlagFirst (m : Bytes) : Prop := ∃ x r, m = x :: r ∧ (x = 0 ∨ x = 1)

mutual
/-- No field has the tag optional. -/
def Ty.Flagless : Ty → Prop
  | .ptr t => t.Flagless
  | .slice t => t.Flagless
  | .array _ t => t.Flagless
  | .map k e => k.Flagless ∧ e.Flagless
  | .struct fs => fs.Flagless
  | _ => True
/-- No field has the tag optional. -/
def Fields.Flagless : Fields → Prop
  | .nil => True
  | .cons _ tag t fs => tag ≠ .optional ∧ t.Flagless ∧ fs.Flagless
end

end Verif
