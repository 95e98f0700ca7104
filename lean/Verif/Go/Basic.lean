/-!
# Go run-time vocabulary shared by the whole model

Go strings and byte slices are lists of bytes; Go's `error` is `Option Err`, `none` being `nil`.
-/
namespace Verif

/-- A Go `[]byte` or `string`: its bytes. (Aliasing and capacity are modelled only where a property needs them,
see `Verif/Model/Blob.lean`.) -/
abbrev Bytes := List UInt8

/-- Go error values. `eof`/`unexpectedEOF` are `io.EOF`/`io.ErrUnexpectedEOF` (the only ones the code compares against);
`io n` stands for an error produced by the underlying reader or writer; `msg` for errors built by the repository or
the standard library with a text (the text is not part of any property). -/
inductive Err where
  | eof
  | unexpectedEOF
  | io (code : Nat)
  | msg (s : String)
deriving DecidableEq, Repr

/-- Result of a Go function that may panic and does no I/O. -/
inductive Pan (α : Type) where
  | val (a : α)
  | panic (why : String)
deriving DecidableEq, Repr

/-- The bytes of an ASCII literal. Used to write Go string constants. -/
def asc (s : String) : Bytes := s.toList.map (fun c => c.toNat.toUInt8)

/-- Conversion `int(u)` of a Go `uint` on a 64-bit platform, as a mathematical integer (negative from 2^63 on). -/
def goInt (u : UInt64) : Int := u.toInt64.toInt

/-- Largest element count the model lets `make([]T, n)` allocate: Go's `maxAlloc` (2^48 bytes) on linux/amd64, so every
larger request panics ("makeslice: len out of range") for elements of at least one byte. Real memory limits below this
are not modelled. -/
def maxAlloc : Nat := 2 ^ 48

end Verif
