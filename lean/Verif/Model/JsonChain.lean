import Verif.Model.Json
import Verif.Model.Abi
/-! # The structs of pkg/chain as JSON types, and the other model's view of their values

`ofJson` forgets the difference between nil and empty slices. -/
namespace Verif

/-- A slice as the list of its elements; nil is the empty list -/
def listOf {α β : Type} (f : α → β) (v : Option (List α)) : List β := (v.getD []).map f
/-- Type string -/
def JTy.string : JTy := .basic .string
/-- Type Name (name.go:9) -/
def JTy.name : JTy := .text .name

/-- action.go:10-13 -/
def permissionLevelTy : JTy := .struct (.cons (asc "actor") false .name (.cons (asc "permission") false .name .nil))
/-- action.go:15-20 -/
def actionTy : JTy := .struct (.cons (asc "account") false .name (.cons (asc "name") false .name
  (.cons (asc "authorization") false (.slice permissionLevelTy) (.cons (asc "data") false (.text .bytes) .nil))))
/-- transaction.go:14-17 -/
def txExtensionTy : JTy := .struct (.cons (asc "type") false (.basic .u16) (.cons (asc "data") false (.text .bytes) .nil))
/-- transaction.go:19-24, with the fields of the embedded header (transaction.go:5-12) -/
def transactionTy : JTy := .struct (.cons (asc "expiration") false (.text .timePointSec) (.cons (asc "ref_block_num") false (.basic .u16)
  (.cons (asc "ref_block_prefix") false (.basic .u32) (.cons (asc "max_net_usage_words") false (.basic .uint) (.cons (asc "max_cpu_usage_ms") false (.basic .u8)
  (.cons (asc "delay_sec") false (.basic .uint) (.cons (asc "context_free_actions") false (.slice actionTy) (.cons (asc "actions") false (.slice actionTy)
  (.cons (asc "transaction_extensions") false (.slice txExtensionTy) .nil)))))))))
/-- asset.go:19-22 -/
def extendedAssetTy : JTy := .struct (.cons (asc "quantity") false (.text .asset) (.cons (asc "contract") false .name .nil))

/-- The value of action.go:10-13 -/
def PermissionLevel.ofJson (v : permissionLevelTy.Val) : PermissionLevel :=
  let (a, p, _) : UInt64 × UInt64 × Unit := v
  ⟨a, p⟩
/-- The value of action.go:15-20 -/
def Action.ofJson (v : actionTy.Val) : Action :=
  let (a, n, au, d, _) : UInt64 × UInt64 × Option (List permissionLevelTy.Val) × Option Bytes × Unit := v
  ⟨a, n, listOf PermissionLevel.ofJson au, d.getD []⟩
/-- The value of transaction.go:14-17 -/
def TxExtension.ofJson (v : txExtensionTy.Val) : TxExtension :=
  let (t, d, _) : UInt16 × Option Bytes × Unit := v
  ⟨t, d.getD []⟩
/-- The value of transaction.go:19-24 -/
def Transaction.ofJson (v : transactionTy.Val) : Transaction :=
  let (e, n, p, w, c, d, cf, ac, ex, _) : UInt32 × UInt16 × UInt32 × UInt64 × UInt8 × UInt64 × Option (List actionTy.Val) × Option (List actionTy.Val) ×
    Option (List txExtensionTy.Val) × Unit := v
  ⟨⟨e, n, p, w, c, d⟩, listOf Action.ofJson cf, listOf Action.ofJson ac, listOf TxExtension.ofJson ex⟩

/-- abi.go:24-27 -/
def abiTypeJTy : JTy := .struct (.cons (asc "new_type_name") false .string (.cons (asc "type") false .string .nil))
/-- abi.go:29-32 -/
def abiVariantJTy : JTy := .struct (.cons (asc "name") false .string (.cons (asc "types") false (.slice .string) .nil))
/-- abi.go:40-43 -/
def abiFieldJTy : JTy := .struct (.cons (asc "name") false .string (.cons (asc "type") false .string .nil))
/-- abi.go:34-38 -/
def abiStructJTy : JTy := .struct (.cons (asc "name") false .string (.cons (asc "base") false .string (.cons (asc "fields") false (.slice abiFieldJTy) .nil)))
/-- abi.go:45-49 -/
def abiActionJTy : JTy := .struct (.cons (asc "name") false .name (.cons (asc "type") false .string (.cons (asc "ricardian_contract") false .string .nil)))
/-- abi.go:51-57 -/
def abiTableJTy : JTy := .struct (.cons (asc "name") false .name (.cons (asc "index_type") false .string (.cons (asc "key_names") false (.slice .string)
  (.cons (asc "key_types") false (.slice .string) (.cons (asc "type") false .string .nil)))))
/-- abi.go:59-62 -/
def abiClauseJTy : JTy := .struct (.cons (asc "id") false .string (.cons (asc "body") false .string .nil))
/-- abi.go:64-67 -/
def abiExtensionJTy : JTy := .struct (.cons (asc "type") false (.basic .u16) (.cons (asc "data") false (.text .bytes) .nil))
/-- abi.go:69-72 -/
def abiErrorMessageJTy : JTy := .struct (.cons (asc "error_code") false .uint64 (.cons (asc "error_msg") false .string .nil))
/-- abi.go:12-22 -/
def abiJTy : JTy := .struct (.cons (asc "version") false .string (.cons (asc "types") false (.slice abiTypeJTy) (.cons (asc "structs") false (.slice abiStructJTy)
  (.cons (asc "actions") false (.slice abiActionJTy) (.cons (asc "tables") false (.slice abiTableJTy) (.cons (asc "ricardian_clauses") false (.slice abiClauseJTy)
  (.cons (asc "error_messages") true (.slice abiErrorMessageJTy) (.cons (asc "abi_extensions") true (.slice (.ptr abiExtensionJTy))
  (.cons (asc "variants") true (.slice abiVariantJTy) .nil)))))))))

/-- The value of abi.go:24-27 -/
def AbiType.ofJson (v : abiTypeJTy.Val) : AbiType :=
  let (n, t, _) : Bytes × Bytes × Unit := v
  ⟨n, t⟩
/-- The value of abi.go:29-32 -/
def AbiVariant.ofJson (v : abiVariantJTy.Val) : AbiVariant :=
  let (n, ts, _) : Bytes × Option (List Bytes) × Unit := v
  ⟨n, listOf id ts⟩
/-- The value of abi.go:40-43 -/
def AbiField.ofJson (v : abiFieldJTy.Val) : AbiField :=
  let (n, t, _) : Bytes × Bytes × Unit := v
  ⟨n, t⟩
/-- The value of abi.go:34-38 -/
def AbiStruct.ofJson (v : abiStructJTy.Val) : AbiStruct :=
  let (n, b, fs, _) : Bytes × Bytes × Option (List abiFieldJTy.Val) × Unit := v
  ⟨n, b, listOf AbiField.ofJson fs⟩
/-- The value of abi.go:45-49 -/
def AbiAction.ofJson (v : abiActionJTy.Val) : AbiAction :=
  let (n, t, r, _) : UInt64 × Bytes × Bytes × Unit := v
  ⟨n, t, r⟩
/-- The value of abi.go:51-57 -/
def AbiTable.ofJson (v : abiTableJTy.Val) : AbiTable :=
  let (n, i, kn, kt, t, _) : UInt64 × Bytes × Option (List Bytes) × Option (List Bytes) × Bytes × Unit := v
  ⟨n, i, listOf id kn, listOf id kt, t⟩
/-- The value of abi.go:59-62 -/
def AbiClause.ofJson (v : abiClauseJTy.Val) : AbiClause :=
  let (i, b, _) : Bytes × Bytes × Unit := v
  ⟨i, b⟩
/-- The value of abi.go:64-67 -/
def AbiExtension.ofJson (v : abiExtensionJTy.Val) : AbiExtension :=
  let (t, d, _) : UInt16 × Option Bytes × Unit := v
  ⟨t, d.getD []⟩
/-- The value of abi.go:69-72 -/
def AbiErrorMessage.ofJson (v : abiErrorMessageJTy.Val) : AbiErrorMessage :=
  let (c, m, _) : UInt64 × Bytes × Unit := v
  ⟨c, m⟩
/-- Nil entries of `Extensions` are left out, as `Abi` has none. -/
def Abi.ofJson (v : abiJTy.Val) : Abi :=
  let (ve, ts, ss, as, tbs, cs, es, xs, vs, _) : Bytes × Option (List abiTypeJTy.Val) × Option (List abiStructJTy.Val) × Option (List abiActionJTy.Val) ×
    Option (List abiTableJTy.Val) × Option (List abiClauseJTy.Val) × Option (List abiErrorMessageJTy.Val) × Option (List (Option abiExtensionJTy.Val)) ×
    Option (List abiVariantJTy.Val) × Unit := v
  { version := ve, types := listOf AbiType.ofJson ts, structs := listOf AbiStruct.ofJson ss, actions := listOf AbiAction.ofJson as,
    tables := listOf AbiTable.ofJson tbs, ricardianClauses := listOf AbiClause.ofJson cs, errorMessages := listOf AbiErrorMessage.ofJson es,
    extensions := ((xs.getD []).filterMap id).map AbiExtension.ofJson, variants := listOf AbiVariant.ofJson vs }

end Verif
