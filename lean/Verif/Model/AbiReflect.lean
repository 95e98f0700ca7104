import Verif.Model.Reflect
/-! # chain.Abi as a Go type for the reflection codec -/
namespace Verif

/-- An exported field without tag -/
abbrev plainField (t : Ty) (fs : Fields) : Fields := .cons .exported .none t fs

/-- abi.go:24-27 -/
def abiTypeTy : Ty := .struct <| plainField (.basic .string) <| plainField (.basic .string) .nil
/-- abi.go:29-32 -/
def abiVariantTy : Ty := .struct <| plainField (.basic .string) <| plainField (.slice (.basic .string)) .nil
/-- abi.go:40-43 -/
def abiFieldTy : Ty := .struct <| plainField (.basic .string) <| plainField (.basic .string) .nil
/-- abi.go:34-38 -/
def abiStructTy : Ty := .struct <| plainField (.basic .string) <| plainField (.basic .string) <| plainField (.slice abiFieldTy) .nil
/-- abi.go:45-49 -/
def abiActionTy : Ty := .struct <| plainField (.chain .name) <| plainField (.basic .string) <| plainField (.basic .string) .nil
/-- abi.go:51-57 -/
def abiTableTy : Ty := .struct <| plainField (.chain .name) <| plainField (.basic .string) <| plainField (.slice (.basic .string)) <| plainField (.slice (.basic .string)) <|
  plainField (.basic .string) .nil
/-- abi.go:59-62 -/
def abiClauseTy : Ty := .struct <| plainField (.basic .string) <| plainField (.basic .string) .nil
/-- abi.go:64-67 -/
def abiExtensionTy : Ty := .struct <| plainField (.basic .u16) <| plainField (.chain .bytes) .nil
/-- abi.go:69-72 -/
def abiErrorMessageTy : Ty := .struct <| plainField (.chain .uint64) <| plainField (.basic .string) .nil

/-- abi.go:12-22. chain.Abi has no MarshalABI and no UnmarshalABI of its own and is not listed in encoding.go, so that it is encoded and decoded as a struct. -/
def abiTy : Ty := .struct <| plainField (.basic .string) <| plainField (.slice abiTypeTy) <| plainField (.slice abiStructTy) <| plainField (.slice abiActionTy) <|
  plainField (.slice abiTableTy) <| plainField (.slice abiClauseTy) <| plainField (.slice abiErrorMessageTy) <| plainField (.slice (.ptr abiExtensionTy)) <|
  .cons .exported .extension (.slice abiVariantTy) .nil

end Verif
