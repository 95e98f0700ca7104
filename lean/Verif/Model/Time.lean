import Verif.Model.Prim
/-! # pkg/chain/time.go: binary forms (the rest of the file is in Model/TimeText.lean) -/
namespace Verif

/-- time.go:94-96 `TimePoint.MarshalABI`; a TimePoint is an int64 -/
def TimePoint.marshal (tp : Int64) : Enc (Option Err) := writeInt64 tp

/-- time.go:98-100 `TimePointSec.MarshalABI`, :102-104 `BlockTimestamp.MarshalABI`; both are uint32 -/
def TimePointSec.marshal (t : UInt32) : Enc (Option Err) := writeUint32 t

/-- time.go:108-114 `TimePoint.UnmarshalABI` -/
def TimePoint.unmarshal (old : Int64) : Dec (Int64 × Option Err) := do
  let (v, err) ← readInt64
  match err with
  | some e => pure (old, some e)
  | none => pure (v, none)

/-- time.go:116-122 `TimePointSec.UnmarshalABI`, :124-130 `BlockTimestamp.UnmarshalABI` -/
def TimePointSec.unmarshal (old : UInt32) : Dec (UInt32 × Option Err) := do
  let (v, err) ← readUint32
  match err with
  | some e => pure (old, some e)
  | none => pure (v, none)

end Verif
