import Verif.Model.Prim
import Verif.Go.Hex
import Verif.Go.Base64
/-! # pkg/chain/bytes.go, blob.go, checksum.go -/
namespace Verif

/-- bytes.go:19-27 `Bytes.MarshalABI`, blob.go:20-28 `Blob.MarshalABI` (the same text) -/
def BytesT.marshal (b : Bytes) : Enc (Option Err) := do
  match ← writeVaruint b.length.toUInt64 with
  | some e => pure (some e)
  | none => writeBytes b

/-- bytes.go:31-41 `Bytes.UnmarshalABI`, blob.go:32-42 `Blob.UnmarshalABI` (the same text) -/
def BytesT.unmarshal (old : Bytes) : Dec (Bytes × Option Err) := do
  let (l, err) ← readVaruint
  match err with
  | some e => pure (old, some e)
  | none =>
    let (_, data, err) ← readBytes (goInt l)
    match err with
    | some e => pure (old, some e)
    | none => pure (data, none)

/-- bytes.go:13-15 `Bytes.Hex`, bytes.go:45-47 `Bytes.MarshalText` -/
def BytesT.marshalText (b : Bytes) : Bytes := hexEncode b

/-- bytes.go:51-58 `Bytes.UnmarshalText`: the error of hex.Decode is dropped -/
def BytesT.unmarshalText (old text : Bytes) : Bytes × Option Err :=
  match hexDecode text with
  | (data, none) => (data, none)
  | (_, some _) => (old, none)

/-- blob.go:14-16 `Blob.Base64`, blob.go:46-48 `Blob.MarshalText` -/
def Blob.marshalText (b : Bytes) : Bytes := b64Encode b

/-- blob.go:54-59: the padding appended to text of length n -/
def blobPad (n : Nat) : Bytes :=
  if n % 4 = 2 then [61, 61] else if n % 4 = 3 then [61] else []

/-- blob.go:52-63 `Blob.UnmarshalText`: the destination is overwritten even on error. For the effect on the caller's buffer see
`Blob.unmarshalTextBuf`. -/
def Blob.unmarshalText (text : Bytes) : Bytes × Option Err := b64Decode (text ++ blobPad text.length)

/-- A Go slice seen with its backing array: `arr` is the array from the start of the slice to its capacity. -/
structure Buf where
  arr : Bytes
  len : Nat
  ok : len ≤ arr.length

/-- What len and indexing show of the slice -/
def Buf.content (b : Buf) : Bytes := b.arr.take b.len

/-- stdlib `append(b, xs...)`: in place when the capacity suffices, otherwise in a fresh array. Returns the content of the result and the
caller's backing array afterwards. -/
def Buf.append (b : Buf) (xs : Bytes) : Bytes × Bytes :=
  if b.len + xs.length ≤ b.arr.length then
    let arr := b.arr.take b.len ++ xs ++ b.arr.drop (b.len + xs.length)
    (arr.take (b.len + xs.length), arr)
  else (b.content ++ xs, b.arr)

/-- blob.go:52-63 `Blob.UnmarshalText` with the caller's buffer: result, error and the backing array afterwards. `string(text)` copies. -/
def Blob.unmarshalTextBuf (text : Buf) : (Bytes × Option Err) × Bytes :=
  let n := text.len
  let (t, arr) :=
    if n % 4 = 2 then text.append [61, 61]
    else if n % 4 = 3 then text.append [61]
    else (text.content, text.arr)
  (b64Decode t, arr)

/-- checksum.go:65-75 `Checksum160/256/512.MarshalABI`; a checksum is a list of 20, 32 or 64 bytes -/
def Checksum.marshal (c : Bytes) : Enc (Option Err) := writeBytes c

/-- checksum.go:79-101 `Checksum160/256/512.UnmarshalABI`, n = 20, 32, 64. `data[:n]` cannot fail as `ReadBytes` returns n bytes. -/
def Checksum.unmarshal (n : Nat) (old : Bytes) : Dec (Bytes × Option Err) := do
  let (_, data, err) ← readBytes n
  match err with
  | some e => pure (old, some e)
  | none => pure (data.take n, none)

/-- checksum.go:51-61 `String`, checksum.go:105-115 `MarshalText` -/
def Checksum.marshalText (c : Bytes) : Bytes := hexEncode c

/-- checksum.go:119-144 `Checksum160/256/512.UnmarshalText`, n = 20, 32, 64: `data[:n]` panics when fewer than n bytes were allocated
(`len(text)/2`). -/
def Checksum.unmarshalText (n : Nat) (old text : Bytes) : Pan (Bytes × Option Err) :=
  match hexDecode text with
  | (_, some e) => .val (old, some e)
  | (data, none) => if text.length / 2 < n then .panic "slice bounds out of range" else .val (data.take n, none)

end Verif
