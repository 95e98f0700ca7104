import Verif.Go.Basic
/-!
# Encoding programs

`Enc α` is the meaning of a Go function that writes to an `*abi.Encoder` and returns an `α`. All output goes through
`enc.w.Write` (pkg/abi/encode.go:160,165), so an encode function is a tree of `Write` calls.
-/
namespace Verif

/-- Meaning of a function that writes to an `*abi.Encoder` (pkg/abi/encode.go:158-168); `NewEncoder` (:23-25) only stores the writer and the function. -/
inductive Enc (α : Type) where
  | ret (a : α)
  | panic (why : String)
  | diverge
  /-- `_, err := w.Write(bs)`; the continuation gets the error -/
  | write (bs : Bytes) (k : Option Err → Enc α)

namespace Enc

/-- Run p, then f on what p returns -/
protected def bind {α β : Type} (p : Enc α) (f : α → Enc β) : Enc β :=
  match p with
  | ret a => f a
  | panic w => panic w
  | diverge => diverge
  | write bs k => write bs (fun e => (k e).bind f)

instance : Monad Enc where
  pure := ret
  bind := Enc.bind

end Enc

/-- Result of running an encode function: what it returned and every byte that reached the writer. -/
inductive EOut (α : Type) where
  | ok (a : α) (out : Bytes)
  | panic (why : String)
  | diverge
deriving Repr, DecidableEq

/-- Go on after a run that returned; a panic stays one -/
def EOut.bind {α β : Type} (o : EOut α) (f : α → Bytes → EOut β) : EOut β :=
  match o with
  | .ok a r => f a r
  | .panic w => .panic w
  | .diverge => .diverge

/-- Prepend bytes already written. -/
def EOut.prepend {α : Type} (bs : Bytes) (o : EOut α) : EOut α :=
  o.bind (fun a out => .ok a (bs ++ out))

/-- Run an encode function on a `bytes.Buffer`, whose `Write` never fails. -/
def Enc.run {α : Type} : Enc α → EOut α
  | .ret a => .ok a []
  | .panic w => .panic w
  | .diverge => .diverge
  | .write bs k => (k none).run.prepend bs

/-- What one `Write` call does: succeed, or write only the first `n` bytes and return an error. -/
inductive WEv where
  | ok
  | fail (n : Nat) (e : Err)

/-- Result of running an encode function over a faulty writer: returned value, bytes that reached the writer, whether any
`Write` failed. -/
inductive WOut (α : Type) where
  | ok (a : α) (out : Bytes) (failed : Bool)
  | panic (why : String)
  | diverge

/-- The run that first wrote bs, f telling whether that `Write` failed -/
def WOut.prepend {α : Type} (bs : Bytes) (f : Bool) : WOut α → WOut α
  | .ok a out g => .ok a (bs ++ out) (f || g)
  | .panic w => .panic w
  | .diverge => .diverge

/-- Run an encode function over a writer whose i-th `Write` call behaves as `w i` says. -/
def Enc.runW {α : Type} : Enc α → (Nat → WEv) → WOut α
  | .ret a, _ => .ok a [] false
  | .panic w, _ => .panic w
  | .diverge, _ => .diverge
  | .write bs k, w =>
    match w 0 with
    | .ok => ((k none).runW (fun i => w (i + 1))).prepend bs false
    | .fail n e => ((k (some e)).runW (fun i => w (i + 1))).prepend (bs.take n) true

end Verif
