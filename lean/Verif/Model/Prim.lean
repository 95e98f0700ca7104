import Verif.Go.Binary
/-!
# pkg/abi/encode.go and pkg/abi/decode.go: the writing and reading methods

Go `int`/`uint` are 64-bit (linux/amd64). `float32`/`float64` values are represented by their bits; `math.Float32bits` etc.
are the identity on that representation.
-/
namespace Verif

/-! ## Writing methods -/

/-- pkg/abi/encode.go:159-162 `WriteBytes` -/
def writeBytes (b : Bytes) : Enc (Option Err) := .write b .ret

/-- pkg/abi/encode.go:164-167 `WriteByte` -/
def writeByte (b : UInt8) : Enc (Option Err) := .write [b] .ret

/-- pkg/abi/encode.go:168-173 `WriteBool` -/
def writeBool (v : Bool) : Enc (Option Err) := if v then writeByte 1 else writeByte 0

/-- pkg/abi/encode.go:175-177 `WriteUint8` -/
def writeUint8 (v : UInt8) : Enc (Option Err) := writeByte v

/-- pkg/abi/encode.go:179-183 `WriteUint16` -/
def writeUint16 (v : UInt16) : Enc (Option Err) := writeBytes (leBytes 2 v.toNat)

/-- pkg/abi/encode.go:185-189 `WriteUint32` -/
def writeUint32 (v : UInt32) : Enc (Option Err) := writeBytes (leBytes 4 v.toNat)

/-- pkg/abi/encode.go:191-195 `WriteUint64` -/
def writeUint64 (v : UInt64) : Enc (Option Err) := writeBytes (leBytes 8 v.toNat)

/-- pkg/abi/encode.go:197-199 `WriteInt8` -/
def writeInt8 (v : Int8) : Enc (Option Err) := writeByte v.toUInt8

/-- pkg/abi/encode.go:201-205 `WriteInt16` -/
def writeInt16 (v : Int16) : Enc (Option Err) := writeBytes (leBytes 2 v.toUInt16.toNat)

/-- pkg/abi/encode.go:207-211 `WriteInt32` -/
def writeInt32 (v : Int32) : Enc (Option Err) := writeBytes (leBytes 4 v.toUInt32.toNat)

/-- pkg/abi/encode.go:213-217 `WriteInt64` -/
def writeInt64 (v : Int64) : Enc (Option Err) := writeBytes (leBytes 8 v.toUInt64.toNat)

/-- pkg/abi/encode.go:219-223 `WriteVaruint`: the scratch buffer `b` has 4 bytes. -/
def writeVaruint (v : UInt64) : Enc (Option Err) :=
  match putUvarint 4 v with
  | some bs => writeBytes bs
  | none => .panic "index out of range"

/-- pkg/abi/encode.go:225-229 `WriteVarint`: the scratch buffer `b` has 4 bytes. -/
def writeVarint (v : Int64) : Enc (Option Err) :=
  match putVarint 4 v with
  | some bs => writeBytes bs
  | none => .panic "index out of range"

/-- pkg/abi/encode.go:231-237 `WriteString` -/
def writeString (v : Bytes) : Enc (Option Err) := do
  match ← writeVaruint v.length.toUInt64 with
  | some e => pure (some e)
  | none => writeBytes v

/-- pkg/abi/encode.go:239-241 `WriteFloat32` (argument: the bits) -/
def writeFloat32 (v : UInt32) : Enc (Option Err) := writeUint32 v

/-- pkg/abi/encode.go:243-245 `WriteFloat64` (argument: the bits) -/
def writeFloat64 (v : UInt64) : Enc (Option Err) := writeUint64 v

/-! ## Reading methods -/

/-- pkg/abi/decode.go:312-325 `ReadBytes`; `n` is the Go `int` argument. -/
def readBytes (n : Int) : Dec (Nat × Bytes × Option Err) :=
  if n < 0 then pure (0, [], some (.msg "abi: read with negative count"))
  else if n = 0 then pure (0, [], none)
  else if n.toNat > maxAlloc then .panic "makeslice: len out of range"
  else .read n.toNat (fun b an err =>
    match err with
    | some e => .ret (an, b, some e)
    | none => .ret (an, b, none))

/-- pkg/abi/decode.go:327-333 `ReadByte`; `b[0]` cannot fail since `len b = 1`. -/
def readByte : Dec (UInt8 × Option Err) := do
  let (_, b, err) ← readBytes 1
  match err with
  | some e => pure (0, some e)
  | none => pure (b.headD 0, none)

/-- pkg/abi/decode.go:335-341 `ReadUint64` -/
def readUint64 : Dec (UInt64 × Option Err) := do
  let (_, b, err) ← readBytes 8
  match err with
  | some e => pure (0, some e)
  | none => pure ((leNat b).toUInt64, none)

/-- pkg/abi/decode.go:343-349 `ReadUint32` -/
def readUint32 : Dec (UInt32 × Option Err) := do
  let (_, b, err) ← readBytes 4
  match err with
  | some e => pure (0, some e)
  | none => pure ((leNat b).toUInt32, none)

/-- pkg/abi/decode.go:351-357 `ReadUint16` -/
def readUint16 : Dec (UInt16 × Option Err) := do
  let (_, b, err) ← readBytes 2
  match err with
  | some e => pure (0, some e)
  | none => pure ((leNat b).toUInt16, none)

/-- pkg/abi/decode.go:359-365 `ReadUint8` -/
def readUint8 : Dec (UInt8 × Option Err) := do
  let (b, err) ← readByte
  match err with
  | some e => pure (0, some e)
  | none => pure (b, none)

/-- pkg/abi/decode.go:367-373 `ReadInt64` -/
def readInt64 : Dec (Int64 × Option Err) := do
  let (v, err) ← readUint64
  match err with
  | some e => pure (0, some e)
  | none => pure (v.toInt64, none)

/-- pkg/abi/decode.go:375-381 `ReadInt32` -/
def readInt32 : Dec (Int32 × Option Err) := do
  let (v, err) ← readUint32
  match err with
  | some e => pure (0, some e)
  | none => pure (v.toInt32, none)

/-- pkg/abi/decode.go:383-389 `ReadInt16` -/
def readInt16 : Dec (Int16 × Option Err) := do
  let (v, err) ← readUint16
  match err with
  | some e => pure (0, some e)
  | none => pure (v.toInt16, none)

/-- pkg/abi/decode.go:391-397 `ReadInt8` -/
def readInt8 : Dec (Int8 × Option Err) := do
  let (b, err) ← readByte
  match err with
  | some e => pure (0, some e)
  | none => pure (b.toInt8, none)

/-- pkg/abi/decode.go:416-422 `ReadVaruint` -/
def readVaruint : Dec (UInt64 × Option Err) := do
  let (v, err) ← readUvarint readByte
  match err with
  | some e => pure (0, some e)
  | none => pure (v, none)

/-- pkg/abi/decode.go:424-430 `ReadVarint` (`binary.ReadVarint` is given `dec` itself as `io.ByteReader`) -/
def readVarintD : Dec (Int64 × Option Err) := do
  let (v, err) ← readVarint readByte
  match err with
  | some e => pure (0, some e)
  | none => pure (v, none)

/-- pkg/abi/decode.go:399-409 `ReadString` -/
def readString : Dec (Bytes × Option Err) := do
  let (len, err) ← readVaruint
  match err with
  | some e => pure ([], some e)
  | none =>
    let (_, utf8, err) ← readBytes (goInt len)
    match err with
    | some e => pure ([], some e)
    | none => pure (utf8, none)

/-- pkg/abi/decode.go:411-414 `ReadBool` -/
def readBool : Dec (Bool × Option Err) := do
  let (b, err) ← readByte
  pure (b != 0, err)

/-- pkg/abi/decode.go:432-438 `ReadFloat32` (result: the bits) -/
def readFloat32 : Dec (UInt32 × Option Err) := do
  let (b, err) ← readUint32
  match err with
  | some e => pure (0, some e)
  | none => pure (b, none)

/-- pkg/abi/decode.go:440-446 `ReadFloat64` (result: the bits) -/
def readFloat64 : Dec (UInt64 × Option Err) := do
  let (b, err) ← readUint64
  match err with
  | some e => pure (0, some e)
  | none => pure (b, none)

end Verif
