import Verif.Go.Basic
/-!
# Decoding programs

`Dec α` is the meaning of a Go function that reads from an `*abi.Decoder` and returns an `α`. All input goes through
`io.ReadFull(dec.r, b)` (pkg/abi/decode.go:320), so a decode function is a tree whose inner nodes are `io.ReadFull` calls
on a fresh buffer of `n` bytes.
-/
namespace Verif

/-- Meaning of a function that reads from an `*abi.Decoder` (pkg/abi/decode.go:318-331); `NewDecoder` (:25-27) only stores the reader and the function. -/
inductive Dec (α : Type) where
  /-- the function returns -/
  | ret (a : α)
  /-- the function panics -/
  | panic (why : String)
  /-- the function recurses without bound (Go: fatal stack overflow) -/
  | diverge
  /-- `an, err = io.ReadFull(r, make([]byte, n))`; the continuation gets the buffer (zero padded after a short read),
  the count and the error -/
  | read (n : Nat) (k : Bytes → Nat → Option Err → Dec α)

namespace Dec

/-- Sequencing: run `p`, then `f` on its result. -/
protected def bind {α β : Type} (p : Dec α) (f : α → Dec β) : Dec β :=
  match p with
  | ret a => f a
  | panic w => panic w
  | diverge => diverge
  | read n k => read n (fun b c e => (k b c e).bind f)

instance : Monad Dec where
  pure := ret
  bind := Dec.bind

end Dec

/-- Result of running a decode function over a byte stream. -/
inductive Out (α : Type) where
  | ok (a : α) (rest : Bytes)
  | panic (why : String)
  | diverge
deriving Repr, DecidableEq

/-- Sequencing of results. -/
def Out.bind {α β : Type} (o : Out α) (f : α → Bytes → Out β) : Out β :=
  match o with
  | .ok a r => f a r
  | .panic w => .panic w
  | .diverge => .diverge

/-- stdlib `io.ReadFull`: error reported when the stream, which ends with error `fin`, ends after `got` bytes of a read:
`EOF` becomes `ErrUnexpectedEOF` if something was read. -/
def shortErr (fin : Err) (got : Nat) : Err :=
  if got ≠ 0 ∧ fin = .eof then .unexpectedEOF else fin

/-- Run a decode function on an in-memory stream `bs` that ends with error `fin` (`io.EOF` for `bytes.Reader`). -/
def Dec.runE {α : Type} (fin : Err) : Dec α → Bytes → Out α
  | .ret a, bs => .ok a bs
  | .panic w, _ => .panic w
  | .diverge, _ => .diverge
  | .read n k, bs =>
    if n ≤ bs.length then (k (bs.take n) n none).runE fin (bs.drop n)
    else (k (bs ++ List.replicate (n - bs.length) 0) bs.length (some (shortErr fin bs.length))).runE fin []

/-- Run a decode function on `bytes.NewReader(bs)`. -/
abbrev Dec.run {α : Type} (p : Dec α) (bs : Bytes) : Out α := p.runE .eof bs

/-- What one call of `Read` on the underlying `io.Reader` does. -/
inductive Ev where
  /-- return at most `n` of the available bytes and a nil error (`n = 0`: an empty read) -/
  | chunk (n : Nat)
  /-- return at most `n` bytes together with an error, but stay usable (a transient fault) -/
  | fault (n : Nat) (e : Err)

/-- An `io.Reader` over `data`: `sched` says what each successive `Read` call does; when it is used up, every call returns
as much as it can. At the end of the data the reader reports `fin`, together with the last bytes if `early`. -/
structure Reader where
  data : Bytes
  sched : List Ev
  fin : Err
  early : Bool

/-- One call `r.Read(buf)` with `len(buf) = want`. -/
def Reader.read (r : Reader) (want : Nat) : Bytes × Option Err × Reader :=
  match r.sched with
  | .fault n e :: s => (r.data.take (min want n), some e, { r with data := r.data.drop (min want n), sched := s })
  | .chunk n :: s =>
    if r.data = [] ∧ n ≠ 0 then ([], some r.fin, { r with sched := s })
    else
      let m := min want n
      (r.data.take m,
        (if r.early ∧ r.data.length ≤ m ∧ r.data ≠ [] then some r.fin else none),
        { r with data := r.data.drop m, sched := s })
  | [] =>
    if r.data = [] then ([], some r.fin, r)
    else (r.data.take want, (if r.early ∧ r.data.length ≤ want then some r.fin else none),
      { r with data := r.data.drop want })

/-- stdlib `io.ReadAtLeast(r, buf, len(buf))`'s loop: `need` bytes still wanted, `acc` already read. Returns the bytes read
and the raw error of the last `Read`. -/
def Reader.readLoop (r : Reader) (need : Nat) (acc : Bytes) : Bytes × Option Err × Reader :=
  if _hn : need = 0 then (acc, none, r)
  else
    match _hr : r.read need with
    | (got, some e, r') => (acc ++ got, some e, r')
    | (got, none, r') => r'.readLoop (need - got.length) (acc ++ got)
termination_by r.sched.length + r.data.length
decreasing_by
  rename (r.read need = _) => hr
  simp only [Reader.read] at hr
  split at hr
  · simp at hr
  · rename_i n s hs
    split at hr
    · simp at hr
    · simp only [Prod.mk.injEq] at hr
      obtain ⟨_, _, h3⟩ := hr
      subst h3
      simp [hs]
      omega
  · rename_i hs
    split at hr
    · simp at hr
    · rename_i hd
      simp only [Prod.mk.injEq] at hr
      obtain ⟨_, _, h3⟩ := hr
      subst h3
      have : 0 < r.data.length := List.length_pos_iff.mpr hd
      simp [hs]
      omega

/-- stdlib `io.ReadFull(r, buf)` with `len(buf) = n`: the buffer, the count and the error. -/
def Reader.readFull (r : Reader) (n : Nat) : Bytes × Nat × Option Err × Reader :=
  let (got, e, r') := r.readLoop n []
  (got ++ List.replicate (n - got.length) 0, got.length,
    (if n ≤ got.length then none else e.map (fun e => shortErr e got.length)), r')

/-- Result of running a decode function over an `io.Reader`. -/
inductive ROut (α : Type) where
  | ok (a : α) (r : Reader)
  | panic (why : String)
  | diverge

/-- Run a decode function over an `io.Reader`. -/
def Dec.runR {α : Type} : Dec α → Reader → ROut α
  | .ret a, r => .ok a r
  | .panic w, _ => .panic w
  | .diverge, _ => .diverge
  | .read n k, r =>
    let (b, c, e, r') := r.readFull n
    (k b c e).runR r'

end Verif
