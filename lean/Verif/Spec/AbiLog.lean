import Verif.Spec.Log
import Verif.Spec.AbiEnds
/-! # Values of an ABI type one after the other on one stream -/
namespace Verif

/-- `for _, v := range vs { if err := a.Encode(enc, n, v); err != nil { return err } }`; `depth` is the stack there is. -/
def Abi.writeLog (a : Abi) (depth : Nat) (n : Bytes) : List AV → Enc (Option Err)
  | [] => pure none
  | v :: vs => do
    match ← a.encode depth n v with
    | some e => pure (some e)
    | none => a.writeLog depth n vs

/-- `for { v, err := a.Decode(dec, n); if err != nil { return vs, err }; vs = append(vs, v) }`; `fuel` bounds the number of turns: running out of it is divergence. -/
def Abi.readLog (a : Abi) (depth : Nat) (n : Bytes) : (fuel : Nat) → Dec (List AV × Err)
  | 0 => .diverge
  | fuel + 1 => do
    let (x, err) ← a.decode depth n
    match err with
    | some e => pure ([], e)
    | none =>
      let (xs, e) ← a.readLog depth n fuel
      pure (x :: xs, e)

end Verif
