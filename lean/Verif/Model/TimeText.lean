import Verif.Go.Time
import Verif.Model.Time
/-! # pkg/chain/time.go: conversions from and to `time.Time` and text -/
namespace Verif

/-- time.go:20 -/
def blockTimestampEpochMilli : Int64 := 946684800000

/-- time.go:22-24 `NewTimePoint` -/
def newTimePoint (t : GoTime) : Int64 := t.unixMicro

/-- time.go:26-28 `NewTimePointSec`: Go's conversion int64 to uint32 keeps the low 32 bits. -/
def newTimePointSec (t : GoTime) : UInt32 := t.unix.toUInt64.toUInt32

/-- time.go:30-33 `NewBlockTimestamp` -/
def newBlockTimestamp (t : GoTime) : UInt32 :=
  (((t.round 500000000).unixMilli - blockTimestampEpochMilli) / 500).toUInt64.toUInt32

/-- time.go:36-38, 47-49, 58-60: one trailing `Z` is dropped -/
def stripZ (s : Bytes) : Bytes := if s.getLast? = some 90 then s.dropLast else s

/-- the error of `time.Parse`; its text is not modelled -/
def errTime : Err := .msg "parsing time"

/-- time.go:35-44 `NewTimePointFromString` -/
def newTimePointFromString (s : Bytes) : Int64 × Option Err :=
  match timeParse true (stripZ s) with
  | none => (0, some errTime)
  | some t => (newTimePoint t, none)

/-- time.go:46-55 `NewTimePointSecFromString` -/
def newTimePointSecFromString (s : Bytes) : UInt32 × Option Err :=
  match timeParse false (stripZ s) with
  | none => (0, some errTime)
  | some t => (newTimePointSec t, none)

/-- time.go:57-66 `NewBlockTimestampFromString` -/
def newBlockTimestampFromString (s : Bytes) : UInt32 × Option Err :=
  match timeParse true (stripZ s) with
  | none => (0, some errTime)
  | some t => (newBlockTimestamp t, none)

/-- time.go:68-70 `TimePoint.Time` -/
def TimePoint.time (tp : Int64) : GoTime := timeUnixMicro tp.toInt

/-- time.go:72-74 `TimePointSec.Time` -/
def TimePointSec.time (t : UInt32) : GoTime := timeUnix t.toNat 0

/-- time.go:76-78 `BlockTimestamp.Time` -/
def BlockTimestamp.time (b : UInt32) : GoTime := timeUnixMilli (b.toUInt64.toInt64 * 500 + blockTimestampEpochMilli).toInt

/-- time.go:80-82 `TimePoint.String`, :134-136 `MarshalText` -/
def TimePoint.string (tp : Int64) : Bytes := (TimePoint.time tp).format true

/-- time.go:84-86 `TimePointSec.String`, :138-140 `MarshalText` -/
def TimePointSec.string (t : UInt32) : Bytes := (TimePointSec.time t).format false

/-- time.go:88-90 `BlockTimestamp.String`, :142-144 `MarshalText` -/
def BlockTimestamp.string (b : UInt32) : Bytes := (BlockTimestamp.time b).format true

/-- time.go:148-154 `TimePoint.UnmarshalText` -/
def TimePoint.unmarshalText (old : Int64) (text : Bytes) : Int64 × Option Err :=
  match newTimePointFromString text with
  | (v, none) => (v, none)
  | (_, some e) => (old, some e)

/-- time.go:156-162 `TimePointSec.UnmarshalText` -/
def TimePointSec.unmarshalText (old : UInt32) (text : Bytes) : UInt32 × Option Err :=
  match newTimePointSecFromString text with
  | (v, none) => (v, none)
  | (_, some e) => (old, some e)

/-- time.go:164-170 `BlockTimestamp.UnmarshalText` -/
def BlockTimestamp.unmarshalText (old : UInt32) (text : Bytes) : UInt32 × Option Err :=
  match newBlockTimestampFromString text with
  | (v, none) => (v, none)
  | (_, some e) => (old, some e)

end Verif
