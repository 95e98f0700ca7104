import Verif.Model.Reflect
/-! # benchmarks/types.go: plain structs of the shape of Transaction and its parts

They have no MarshalABI, so they are encoded and decoded by reflection. The embedded TransactionHeader is an exported field. -/
namespace Verif

/-- an exported field without tag -/
def benchField (t : Ty) (fs : Fields) : Fields := .cons .exported .none t fs

/-- benchmarks/types.go:22-25 `PermissionLevel` -/
def benchPerm : Ty := .struct <| benchField (.basic .u64) <| benchField (.basic .u64) .nil
/-- benchmarks/types.go:26-31 `Action` -/
def benchAction : Ty := .struct <| benchField (.basic .u64) <| benchField (.basic .u64) <| benchField (.slice benchPerm) <| benchField .bytes .nil
/-- benchmarks/types.go:4-11 `TransactionHeader` -/
def benchHeader : Ty := .struct <| benchField (.basic .u32) <| benchField (.basic .u16) <| benchField (.basic .u32) <| benchField (.basic .uint) <| benchField (.basic .u8) <| benchField (.basic .uint) .nil
/-- benchmarks/types.go:12-15 `TransactionExtension` -/
def benchExtension : Ty := .struct <| benchField (.basic .u16) <| benchField .bytes .nil
/-- benchmarks/types.go:16-21 `Transaction` -/
def benchTransaction : Ty := .struct <| benchField benchHeader <| benchField (.slice benchAction) <| benchField (.slice benchAction) <| benchField (.slice benchExtension) .nil

end Verif
