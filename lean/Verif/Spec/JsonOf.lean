import Verif.Go.Json
import Verif.Model.Abi
import Verif.Spec.Json
/-! # Actions, transactions and ABI definitions written in JSON -/
namespace Verif

def PermissionLevel.json (p : PermissionLevel) : JVal := .obj [(asc "actor", .str (Name.string p.actor)), (asc "permission", .str (Name.string p.permission))]
def Action.json (a : Action) : JVal := .obj [(asc "account", .str (Name.string a.account)), (asc "name", .str (Name.string a.name)),
  (asc "authorization", .arr (a.authorization.map PermissionLevel.json)), (asc "data", .str (hexEncode a.data))]
def TxExtension.json (x : TxExtension) : JVal := .obj [(asc "type", .num (fmtNat x.type.toNat)), (asc "data", .str (hexEncode x.data))]
/-- The text of the expiration is given. -/
def Transaction.json (expiration : Bytes) (t : Transaction) : JVal := .obj [(asc "expiration", .str expiration), (asc "ref_block_num", .num (fmtNat t.header.refBlockNum.toNat)),
  (asc "ref_block_prefix", .num (fmtNat t.header.refBlockPrefix.toNat)), (asc "max_net_usage_words", .num (fmtNat t.header.maxNetUsageWords.toNat)),
  (asc "max_cpu_usage_ms", .num (fmtNat t.header.maxCpuUsageMs.toNat)), (asc "delay_sec", .num (fmtNat t.header.delaySec.toNat)),
  (asc "context_free_actions", .arr (t.contextFreeActions.map Action.json)), (asc "actions", .arr (t.actions.map Action.json)),
  (asc "transaction_extensions", .arr (t.extensions.map TxExtension.json))]

/-- A string, escaped -/
def jsonText (s : Bytes) : JVal := .str (escapeStr s)
def AbiType.json (t : AbiType) : JVal := .obj [(asc "new_type_name", jsonText t.newTypeName), (asc "type", jsonText t.type)]
def AbiField.json (f : AbiField) : JVal := .obj [(asc "name", jsonText f.name), (asc "type", jsonText f.type)]
def AbiStruct.json (s : AbiStruct) : JVal := .obj [(asc "name", jsonText s.name), (asc "base", jsonText s.base), (asc "fields", .arr (s.fields.map AbiField.json))]
def AbiAction.json (a : AbiAction) : JVal := .obj [(asc "name", .str (Name.string a.name)), (asc "type", jsonText a.type), (asc "ricardian_contract", jsonText a.ricardianContract)]
def AbiTable.json (t : AbiTable) : JVal := .obj [(asc "name", .str (Name.string t.name)), (asc "index_type", jsonText t.indexType), (asc "key_names", .arr (t.keyNames.map jsonText)),
  (asc "key_types", .arr (t.keyTypes.map jsonText)), (asc "type", jsonText t.type)]
def AbiClause.json (c : AbiClause) : JVal := .obj [(asc "id", jsonText c.id), (asc "body", jsonText c.body)]
/-- Codes above 2^32-1 are quoted. -/
def AbiErrorMessage.json (m : AbiErrorMessage) : JVal :=
  .obj [(asc "error_code", if m.code.toNat > 2 ^ 32 - 1 then .str (fmtNat m.code.toNat) else .num (fmtNat m.code.toNat)), (asc "error_msg", jsonText m.message)]
def AbiExtension.json (x : AbiExtension) : JVal := .obj [(asc "type", .num (fmtNat x.type.toNat)), (asc "data", .str (hexEncode x.data))]
def AbiVariant.json (v : AbiVariant) : JVal := .obj [(asc "name", jsonText v.name), (asc "types", .arr (v.types.map jsonText))]
/-- A member that is left out if there are no elements -/
def unlessEmpty {α : Type} (key : Bytes) (f : α → JVal) (xs : List α) : List (Bytes × JVal) := if xs.isEmpty then [] else [(key, .arr (xs.map f))]
def Abi.json (a : Abi) : JVal := .obj ([(asc "version", jsonText a.version), (asc "types", .arr (a.types.map AbiType.json)), (asc "structs", .arr (a.structs.map AbiStruct.json)),
  (asc "actions", .arr (a.actions.map AbiAction.json)), (asc "tables", .arr (a.tables.map AbiTable.json)), (asc "ricardian_clauses", .arr (a.ricardianClauses.map AbiClause.json))] ++
  unlessEmpty (asc "error_messages") AbiErrorMessage.json a.errorMessages ++ unlessEmpty (asc "abi_extensions") AbiExtension.json a.extensions ++
  unlessEmpty (asc "variants") AbiVariant.json a.variants)

/-- All strings of the definition -/
def Abi.texts (a : Abi) : List Bytes :=
  a.version :: (a.types.flatMap fun t => [t.newTypeName, t.type]) ++ (a.structs.flatMap fun s => s.name :: s.base :: s.fields.flatMap fun f => [f.name, f.type]) ++
  (a.actions.flatMap fun x => [x.type, x.ricardianContract]) ++ (a.tables.flatMap fun t => t.indexType :: t.type :: (t.keyNames ++ t.keyTypes)) ++
  (a.ricardianClauses.flatMap fun c => [c.id, c.body]) ++ (a.errorMessages.map fun m => m.message) ++ (a.variants.flatMap fun v => v.name :: v.types)

end Verif
