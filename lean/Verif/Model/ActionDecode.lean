import Verif.Model.Abi
import Verif.Model.Tx
import Verif.Model.Reflect
/-! # Action.Decode and Action.DecodeInto -/
namespace Verif

/-- action.go:22-24 `NewAction` -/
def newAction (account name : UInt64) (authorization : List PermissionLevel) (data : Bytes) : Action := ⟨account, name, authorization, data⟩

/-- action.go:33 -/
def errNotMap : Err := .msg "action data is not a map[string]interface{}"

/-- action.go:26-36 `Action.Decode`. The result includes the bytes of Data nobody has read; Go drops them with the reader. `fuel` is the stack, as in Abi.decode. -/
def Action.decode (x : Action) (a : Abi) (fuel : Nat) : Out (Option (List (Bytes × AV)) × Option Err) := match (a.decodeAction fuel x.name).run x.data with
  | .panic w => .panic w
  | .diverge => .diverge
  | .ok (_, some e) r => .ok (none, some e) r
  | .ok (.map m, none) r => .ok (some m, none) r
  | .ok (_, none) r => .ok (none, some errNotMap) r

/-- action.go:38-40 `Action.DecodeInto`, v being a pointer to a variable that holds `old` -/
def Action.decodeInto (x : Action) (t : Ty) (old : t.Val) : Out (t.Val × Option Err) := (Verif.decode t old).run x.data

end Verif
