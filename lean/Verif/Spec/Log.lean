import Mathlib.Data.List.Forall2
import Verif.Spec.Fails
/-! # Values one after the other on one stream -/
namespace Verif

/-- `for _, v := range vs { if err := enc.Encode(v); err != nil { return err } }` -/
def writeLog (t : Ty) : List t.Val → Enc (Option Err)
  | [] => pure none
  | v :: vs => do
    match ← encode t v with
    | some e => pure (some e)
    | none => writeLog t vs

/-- `for { var x T; if err := dec.Decode(&x); err != nil { return xs, err }; xs = append(xs, x) }`; `fuel` bounds the number of turns: running out of it is divergence. -/
def readLog (t : Ty) : (fuel : Nat) → Dec (List t.Val × Err)
  | 0 => .diverge
  | fuel + 1 => do
    let (x, err) ← decode t t.zero
    match err with
    | some e => pure ([], e)
    | none =>
      let (xs, e) ← readLog t fuel
      pure (x :: xs, e)

/-- The values vs in the forms ws. -/
def Entries (t : Ty) (vs : List t.Val) (ws : List Bytes) : Prop := List.Forall₂ (fun v w => t.Takes .decode v w) vs ws

/-- The first n bytes of ws hold the first k of them completely, and no more. -/
def Complete (ws : List Bytes) (n k : Nat) : Prop := k ≤ ws.length ∧ (ws.take k).flatten.length ≤ n ∧ (k = ws.length ∨ n < (ws.take (k + 1)).flatten.length)

end Verif
