import Verif.Go.Float
import Verif.Model.Symbol
/-! # Asset.FloatValue -/
namespace Verif

/-- asset.go:104-112 `Asset.FloatValue`. The part of the text before the first space has no letters, so that what `readFloat` leaves out does not occur (C75_text). -/
def Asset.floatValue (a : Asset) : Pan UInt64 := match a.string with
  | .panic w => .panic w
  | .val s => match parseFloat ((splitByte 32 s).headD []) with
    | some f => .val f
    | none => .panic "strconv.ParseFloat"

end Verif
