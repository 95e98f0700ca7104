import Verif.Model.Reflect
/-! # pkg/chain/abi.go

Go strings are byte lists. The json tags are in Model/JsonChain. The arguments of error messages are left out. -/
namespace Verif

/-! ## abi.go:12-72: the ABI definition -/

/-- abi.go:24-27 -/
structure AbiType where
  newTypeName : Bytes
  type : Bytes
deriving DecidableEq

/-- abi.go:29-32 -/
structure AbiVariant where
  name : Bytes
  types : List Bytes
deriving DecidableEq

/-- abi.go:40-43 -/
structure AbiField where
  name : Bytes
  type : Bytes
deriving DecidableEq

/-- abi.go:34-38 -/
structure AbiStruct where
  name : Bytes
  base : Bytes
  fields : List AbiField
deriving DecidableEq

/-- abi.go:45-49 -/
structure AbiAction where
  name : UInt64
  type : Bytes
  ricardianContract : Bytes
deriving DecidableEq

/-- abi.go:51-57 -/
structure AbiTable where
  name : UInt64
  indexType : Bytes
  keyNames : List Bytes
  keyTypes : List Bytes
  type : Bytes
deriving DecidableEq

/-- abi.go:59-62 -/
structure AbiClause where
  id : Bytes
  body : Bytes
deriving DecidableEq

/-- abi.go:64-67 -/
structure AbiExtension where
  type : UInt16
  data : Bytes
deriving DecidableEq

/-- abi.go:69-72 -/
structure AbiErrorMessage where
  code : UInt64
  message : Bytes
deriving DecidableEq

/-- abi.go:12-22. The entries of `Extensions` are pointers; nil entries are not represented. -/
structure Abi where
  version : Bytes := []
  types : List AbiType := []
  structs : List AbiStruct := []
  actions : List AbiAction := []
  tables : List AbiTable := []
  ricardianClauses : List AbiClause := []
  errorMessages : List AbiErrorMessage := []
  extensions : List AbiExtension := []
  variants : List AbiVariant := []
deriving DecidableEq

/-- abi.go:74-81 `GetTable` -/
def Abi.getTable (a : Abi) (name : UInt64) : Option AbiTable := a.tables.find? fun t => t.name = name
/-- abi.go:83-90 `GetAction` -/
def Abi.getAction (a : Abi) (name : UInt64) : Option AbiAction := a.actions.find? fun t => t.name = name
/-- abi.go:92-99 `GetStruct` -/
def Abi.getStruct (a : Abi) (name : Bytes) : Option AbiStruct := a.structs.find? fun t => t.name = name
/-- abi.go:101-108 `GetType` -/
def Abi.getType (a : Abi) (name : Bytes) : Option AbiType := a.types.find? fun t => t.newTypeName = name
/-- abi.go:110-117 `GetVariant` -/
def Abi.getVariant (a : Abi) (name : Bytes) : Option AbiVariant := a.variants.find? fun t => t.name = name

/-! ## abi.go:577-642: resolving type names -/

/-- abi.go:644-656 `resolvedType`. Pointers to other resolved types are represented by the name under which the resolver keeps them: there is one
resolvedType for each name. `String` (:660-662), which nothing calls, is left out. -/
structure Resolved where
  name : Bytes
  baseName : Bytes
  isArray : Bool
  isOptional : Bool
  isExtension : Bool
  base : Option Bytes := none
  fields : Option (List (Bytes × Bytes)) := none
  variant : Option (List Bytes) := none
  ref : Option Bytes := none
deriving DecidableEq

/-- abi.go:588-603: base name, array, optional, extension; `none` where an index is out of range: `name[len(name)-1]`, `baseName[len(baseName)-1]`,
`baseName[len(baseName)-2]`. -/
def parseTypeName (name : Bytes) : Option (Bytes × Bool × Bool × Bool) := do
  let c ← name.getLast?
  let (isOptional, baseName) := if c = 63 then (true, name.dropLast) else (false, name)
  let c ← baseName.getLast?
  let (isExtension, baseName) := if c = 36 then (true, baseName.dropLast) else (false, baseName)
  if baseName.length < 2 then none
  else
    let (isArray, baseName) :=
      if baseName[baseName.length - 2]? = some 91 ∧ baseName[baseName.length - 1]? = some 93 then (true, baseName.take (baseName.length - 2)) else (false, baseName)
    some (baseName, isArray, isOptional, isExtension)

/-- abi.go:605-641 without the recursive calls: the resolvedType of a name; `none` for a panic -/
def Abi.describe (a : Abi) (name : Bytes) : Option Resolved :=
  match parseTypeName name with
  | none => none
  | some (baseName, isArray, isOptional, isExtension) =>
    let t : Resolved := { name, baseName, isArray, isOptional, isExtension }
    match a.getStruct baseName with
    | some s => some { t with base := if s.base ≠ [] then some s.base else none, fields := some (s.fields.map fun f => (f.name, f.type)) }
    | none =>
      match a.getVariant baseName with
      | some v => some { t with variant := some v.types }
      | none =>
        match a.getType baseName with
        | some ty => some { t with ref := some ty.type }
        | none => some t

/-- The arguments of the recursive calls of resolve for one type, in order. -/
def Resolved.refs (t : Resolved) : List Bytes := t.base.toList ++ (t.fields.getD []).map Prod.snd ++ t.variant.getD [] ++ t.ref.toList

/-- abi.go:579-582: the map `types` of the resolver -/
abbrev Types := List (Bytes × Resolved)

/-- Look up in the map of resolved types (abi.go:585-586) -/
def Types.get (ts : Types) (name : Bytes) : Option Resolved := (ts.find? fun e => e.1 = name).map Prod.snd

/-- The outcome of resolve: the map `types` after it, or a panic, or out of fuel. -/
inductive Res where
  | val (ts : Types)
  | panic
  | diverge
deriving DecidableEq

/-- Go on after a resolution that neither diverged nor failed -/
def Res.bind : Res → (Types → Res) → Res
  | .val ts, f => f ts
  | .panic, _ => .panic
  | .diverge, _ => .diverge

/-- One call of `r` after the other -/
def resolveEach (r : Types → Bytes → Res) : Types → List Bytes → Res
  | ts, [] => .val ts
  | ts, n :: ns => (r ts n).bind fun ts => resolveEach r ts ns

/-- abi.go:584-642 `resolve`. The type is entered into the map before its references are resolved, as in the code; that its fields are filled in at that
moment and not one by one cannot be observed, as resolve only looks at whether an entry exists. `fuel` bounds the depth of the recursion. -/
def resolveF (a : Abi) : (fuel : Nat) → Types → Bytes → Res
  | 0, _, _ => .diverge
  | fuel + 1, ts, name =>
    if (ts.get name).isSome then .val ts
    else
      match a.describe name with
      | none => .panic
      | some t => resolveEach (resolveF a fuel) ((name, t) :: ts) t.refs

/-- Every type name in the ABI -/
def Abi.names (a : Abi) : List Bytes :=
  (a.structs.flatMap fun s => s.base :: s.fields.map AbiField.type) ++ a.variants.flatMap AbiVariant.types ++ a.types.map AbiType.type

/-- abi.go:136-137, :145-146: `res.resolve(name)` with an empty map. By C46_terminates this much fuel is always enough. -/
def resolve (a : Abi) (name : Bytes) : Res := resolveF a (a.names.length + 2) [] name

/-- abi.go:664-704 `allFields`: the loop, at `cur` with the fields `rv` collected so far. The result is empty where the code returns nil; `fuel` is at most
the number of different types (C48_fuel). -/
def allFieldsLoop (ts : Types) : (fuel : Nat) → (seen : List Bytes) → (cur : Resolved) → (rv : List (Bytes × Bytes)) → List (Bytes × Bytes)
  | 0, _, _, _ => []
  | fuel + 1, seen, cur, rv =>
    match cur.fields with
    | none => []
    | some fs =>
      if cur.name ∈ seen then []
      else
        match cur.base with
        | none => fs ++ rv
        | some b =>
          match ts.get b with
          | none => []
          | some base => allFieldsLoop ts fuel (cur.name :: seen) base (fs ++ rv)

/-- abi.go:664-704 `allFields` -/
def Resolved.allFields (ts : Types) (t : Resolved) : List (Bytes × Bytes) := allFieldsLoop ts (ts.length + 1) [] t []

/-! ## Values -/

/-- Values of type `interface{}`. `nil` is the nil interface, `byteSlice` a `[]byte`, `slice` a `[]interface{}`, `map` a `map[string]interface{}` (its entries),
`other` a value of any other type. Nil and empty slices are not distinguished, except for chain.Bytes. -/
inductive AV where
  | nil
  | basic (b : Basic) (v : b.Val)
  | byteSlice (v : Bytes)
  | chain (c : ChainTy) (v : c.Val)
  | slice (xs : List AV)
  | map (m : List (Bytes × AV))
  | other

/-- `v.(T)` for a basic type T -/
def AV.asBasic (b : Basic) : AV → Option b.Val
  | .basic b' v => if h : b' = b then some (h ▸ v) else none
  | _ => none
/-- `v.(T)` for a chain type T -/
def AV.asChain (c : ChainTy) : AV → Option c.Val
  | .chain c' v => if h : c' = c then some (h ▸ v) else none
  | _ => none
/-- `v.([]byte)` -/
def AV.asBytes : AV → Option Bytes
  | .byteSlice v => some v
  | _ => none
/-- `v == nil` (abi.go:153) -/
def AV.isNil : AV → Bool
  | .nil => true
  | _ => false

/-- `m[k]` -/
def mapGet (m : List (Bytes × AV)) (k : Bytes) : AV :=
  match m.find? fun e => e.1 = k with
  | some e => e.2
  | none => .nil

/-- `m[k] = v` -/
def mapPut (m : List (Bytes × AV)) (k : Bytes) (v : AV) : List (Bytes × AV) :=
  match m with
  | [] => [(k, v)]
  | (k', v') :: m => if k' = k then (k, v) :: m else (k', v') :: mapPut m k v

/-! ## Encoding -/

/-- abi.go:160 -/
def errFoundNil : Err := .msg "found nil for non optional"
/-- abi.go:165, abi.go:200 -/
def errExpectedSlice : Err := .msg "expected slice"
/-- abi.go:190 -/
def errExpectedMap : Err := .msg "expected map"
/-- abi.go:203 -/
def errExpectedTwo : Err := .msg "expected two elements"
/-- abi.go:207 -/
def errVariantName : Err := .msg "expected string variant name"
/-- abi.go:220 -/
def errUnknownVariant : Err := .msg "unknown variant"
/-- abi.go:396 -/
def errExpectedType : Err := .msg "expected type"
/-- abi.go:571 -/
def errUnknownType : Err := .msg "unknown type"
/-- abi.go:458 -/
def errAbiVariantIndex : Err := .msg "invalid variant index"
/-- abi.go:122, abi.go:130 -/
def errUnknownAction : Err := .msg "unknown action"

/-- One case of the switch in abi.go:228-393 with a predeclared type: the assertion, then the write -/
def encBasic (b : Basic) (w : b.Val → Enc (Option Err)) (v : AV) : Option (Enc (Option Err)) := (v.asBasic b).map w
/-- One case of the switch in abi.go:228-393 with a type of package chain: the assertion, then MarshalABI -/
def encChain (c : ChainTy) (v : AV) : Option (Enc (Option Err)) := (v.asChain c).map c.marshal

/-- abi.go:228-394: the cases of the switch; `none` where the type assertion fails -/
def encCases : List (Bytes × (AV → Option (Enc (Option Err)))) := [
  (asc "bool", encBasic .bool writeBool),
  (asc "string", encBasic .string writeString),
  (asc "uint8", encBasic .u8 writeUint8),
  (asc "uint16", encBasic .u16 writeUint16),
  (asc "uint32", encBasic .u32 writeUint32),
  (asc "uint64", fun v =>
    match v.asBasic .u64 with
    | some x => some (writeUint64 x)
    | none => (v.asChain .uint64).map fun x => writeInt64 (UInt64.toInt64 x)),
  (asc "uint128", encChain .uint128),
  (asc "int8", encBasic .i8 writeInt8),
  (asc "int16", encBasic .i16 writeInt16),
  (asc "int32", encBasic .i32 writeInt32),
  (asc "int64", encBasic .i64 writeInt64),
  (asc "int128", encChain .int128),
  (asc "float32", encBasic .f32 writeFloat32),
  (asc "float64", encBasic .f64 writeFloat64),
  (asc "float128", encChain .float128),
  (asc "varuint32", encBasic .uint writeVaruint),
  (asc "varint32", encBasic .int writeVarint),
  (asc "bytes", fun v => v.asBytes.map writeBytes),
  (asc "asset", encChain .asset),
  (asc "block_timestamp_type", encChain .blockTimestamp),
  (asc "checksum160", encChain .checksum160),
  (asc "checksum256", encChain .checksum256),
  (asc "checksum512", encChain .checksum512),
  (asc "eosio::name", encChain .name),
  (asc "extended_asset", encChain .extendedAsset),
  (asc "name", encChain .name),
  (asc "public_key", encChain .publicKey),
  (asc "signature", encChain .signature),
  (asc "symbol_code", encChain .symbolCode),
  (asc "symbol", encChain .symbol),
  (asc "time_point_sec", encChain .timePointSec),
  (asc "time_point", encChain .timePoint)]

/-- abi.go:226-398 -/
def encodeBuiltin (baseName : Bytes) (v : AV) : Enc (Option Err) :=
  match encCases.find? fun c => c.1 = baseName with
  | none => pure (some errExpectedType)
  | some c =>
    match c.2 v with
    | none => pure (some errExpectedType)
    | some p => p

/-- abi.go:209-216: the first type of the variant with the given name, and its index -/
def findVariant (vn : Bytes) : (i : Nat) → List Bytes → Option (Nat × Bytes)
  | _, [] => none
  | i, t :: ts => if t = vn then some (i, t) else findVariant vn (i + 1) ts

/-- abi.go:183-401 `encodeInner`; `rec` is encodeType on the type with the given name -/
def encodeInner (ts : Types) (rec : Bytes → AV → Enc (Option Err)) (t : Resolved) (v : AV) : Enc (Option Err) :=
  match t.ref with
  | some ref => rec ref v
  | none =>
    let fields := t.allFields ts
    if fields ≠ [] then
      match v with
      | .map m => encEach (fun f : Bytes × Bytes => rec f.2 (mapGet m f.1)) (pure none) fields
      | _ => pure (some errExpectedMap)
    else
      match t.variant with
      | some types =>
        match v with
        | .slice va =>
          match va with
          | [v0, v1] =>
            match v0.asBasic .string with
            | none => pure (some errVariantName)
            | some vn =>
              match findVariant vn 0 types with
              | none => pure (some errUnknownVariant)
              | some (i, tv) => do
                match ← writeVaruint i.toUInt64 with
                | some e => pure (some e)
                | none => rec tv v1
          | _ => pure (some errExpectedTwo)
        | _ => pure (some errExpectedSlice)
      | none => encodeBuiltin t.baseName v

/-- abi.go:162-180: encodeType after the check for nil -/
def encodeBody (ts : Types) (rec : Bytes → AV → Enc (Option Err)) (t : Resolved) (v : AV) : Enc (Option Err) :=
  if t.isArray then
    match v with
    | .slice va => do
      match ← writeVaruint va.length.toUInt64 with
      | some e => pure (some e)
      | none => encEach (encodeInner ts rec t) (pure none) va
    | _ => pure (some errExpectedSlice)
  else encodeInner ts rec t v

/-- abi.go:151-181 `encodeType`, of the type with the given name; an error of WriteBool ends the encoding without an error. `fuel` bounds the depth of the
recursion: running out of it is divergence. -/
def encodeTypeF (ts : Types) : (fuel : Nat) → (name : Bytes) → AV → Enc (Option Err)
  | 0, _, _ => .diverge
  | fuel + 1, name, v =>
    match ts.get name with
    | none => .panic "nil pointer dereference"
    | some t =>
      if t.isOptional then do
        let err ← writeBool (!v.isNil)
        if v.isNil || err.isSome then pure none else encodeBody ts (encodeTypeF ts fuel) t v
      else if v.isNil then pure (some errFoundNil)
      else encodeBody ts (encodeTypeF ts fuel) t v

/-- abi.go:144-149 `Abi.Encode` -/
def Abi.encode (a : Abi) (fuel : Nat) (name : Bytes) (v : AV) : Enc (Option Err) :=
  match resolve a name with
  | .val ts => encodeTypeF ts fuel name v
  | .panic => .panic "index out of range"
  | .diverge => .diverge

/-- abi.go:127-133 `EncodeAction` -/
def Abi.encodeAction (a : Abi) (fuel : Nat) (name : UInt64) (v : AV) : Enc (Option Err) :=
  match a.getAction name with
  | none => pure (some errUnknownAction)
  | some act => a.encode fuel act.type v

/-! ## Decoding -/

/-- One case of the switch in abi.go:471-571 that reads a predeclared type -/
def decBasic (b : Basic) (r : Dec (b.Val × Option Err)) : Dec (AV × Option Err) := do
  let (v, err) ← r
  pure (.basic b v, err)
/-- One case of the switch in abi.go:471-571 that declares a variable of a type of package chain and calls UnmarshalABI on it -/
def decChain (c : ChainTy) : Dec (AV × Option Err) := do
  let (v, err) ← c.unmarshal c.zero
  pure (.chain c v, err)

/-- abi.go:471-571: the cases of the switch. The destination is set also on error. -/
def decCases : List (Bytes × Dec (AV × Option Err)) := [
  (asc "string", decBasic .string readString),
  (asc "bool", decBasic .bool readBool),
  (asc "int8", decBasic .i8 readInt8),
  (asc "uint8", decBasic .u8 readUint8),
  (asc "int16", decBasic .i16 readInt16),
  (asc "uint16", decBasic .u16 readUint16),
  (asc "int32", decBasic .i32 readInt32),
  (asc "uint32", decBasic .u32 readUint32),
  (asc "int64", decBasic .i64 readInt64),
  (asc "uint64", do
    let (v, err) ← readUint64
    pure (.chain .uint64 v, err)),
  (asc "int128", decChain .int128),
  (asc "uint128", decChain .uint128),
  (asc "float32", decBasic .f32 readFloat32),
  (asc "float64", decBasic .f64 readFloat64),
  (asc "float128", decChain .float128),
  (asc "varint32", decBasic .int readVarintD),
  (asc "varuint32", decBasic .uint readVaruint),
  (asc "asset", decChain .asset),
  (asc "block_timestamp_type", decChain .blockTimestamp),
  (asc "bytes", decChain .bytes),
  (asc "checksum160", decChain .checksum160),
  (asc "checksum256", decChain .checksum256),
  (asc "checksum512", decChain .checksum512),
  (asc "extended_asset", decChain .extendedAsset),
  (asc "name", decChain .name),
  (asc "public_key", decChain .publicKey),
  (asc "signature", decChain .signature),
  (asc "symbol_code", decChain .symbolCode),
  (asc "symbol", decChain .symbol),
  (asc "time_point_sec", decChain .timePointSec),
  (asc "time_point", decChain .timePoint)]

/-- abi.go:469-572 -/
def decodeBuiltin (baseName : Bytes) : Dec (AV × Option Err) :=
  match decCases.find? fun c => c.1 = baseName with
  | none => pure (.nil, some errUnknownType)
  | some c => c.2

/-- abi.go:440-448: the loop over the fields, with the map `vs` -/
def decodeStruct (rec : Bytes → Dec (AV × Option Err)) : List (Bytes × Bytes) → (vs : List (Bytes × AV)) → Dec (AV × Option Err)
  | [], vs => pure (.map vs, none)
  | f :: fs, vs => do
    let (fv, err) ← rec f.2
    match err with
    | some e => pure (.nil, some e)
    | none => decodeStruct rec fs (mapPut vs f.1 fv)

/-- abi.go:434-575 `decodeInner`: the content of `*v`, which is nil before, and the error; `rec` is decodeType on the type with the given name -/
def decodeInner (ts : Types) (rec : Bytes → Dec (AV × Option Err)) (t : Resolved) : Dec (AV × Option Err) :=
  match t.ref with
  | some ref => rec ref
  | none =>
    let fields := t.allFields ts
    if fields ≠ [] then decodeStruct rec fields []
    else
      match t.variant with
      | some types => do
        let (idx, err) ← readVaruint
        match err with
        | some e => pure (.nil, some e)
        | none =>
          if goInt idx ≥ types.length then pure (.nil, some errAbiVariantIndex)
          else
            match types[idx.toNat]? with
            | none => .panic "index out of range"
            | some tv =>
              let (v, err) ← rec tv
              match err with
              | some e => pure (.nil, some e)
              | none => pure (.slice [.basic .string tv, v], none)
      | none => decodeBuiltin t.baseName

/-- abi.go:412-431: decodeType after the presence byte. An error in an element returns at once; otherwise io.EOF is no error for an extension. -/
def decodeBody (ts : Types) (rec : Bytes → Dec (AV × Option Err)) (t : Resolved) : Dec (AV × Option Err) :=
  let finish (v : AV) (err : Option Err) : Dec (AV × Option Err) := pure (v, if err = some .eof ∧ t.isExtension then none else err)
  if t.isArray then do
    let (l, err) ← readVaruint
    match err with
    | some e => finish .nil (some e)
    | none => makeSlice AV.nil 16 l fun va => do
      let (va, err) ← decEach (fun _ => decodeInner ts rec t) va
      match err with
      | some e => pure (.nil, some e)
      | none => finish (.slice va) none
  else do
    let (v, err) ← decodeInner ts rec t
    finish v err

/-- abi.go:403-432 `decodeType` into a nil interface. `fuel` as in `encodeTypeF`. -/
def decodeTypeF (ts : Types) : (fuel : Nat) → (name : Bytes) → Dec (AV × Option Err)
  | 0, _ => .diverge
  | fuel + 1, name =>
    match ts.get name with
    | none => .panic "nil pointer dereference"
    | some t =>
      if t.isOptional then do
        let (present, err) ← readBool
        match err with
        | some e => pure (.nil, some e)
        | none => if present then decodeBody ts (decodeTypeF ts fuel) t else pure (.nil, none)
      else decodeBody ts (decodeTypeF ts fuel) t

/-- abi.go:135-142 `Abi.Decode` -/
def Abi.decode (a : Abi) (fuel : Nat) (name : Bytes) : Dec (AV × Option Err) :=
  match resolve a name with
  | .val ts => decodeTypeF ts fuel name
  | .panic => .panic "index out of range"
  | .diverge => .diverge

/-- abi.go:119-125 `DecodeAction` -/
def Abi.decodeAction (a : Abi) (fuel : Nat) (name : UInt64) : Dec (AV × Option Err) :=
  match a.getAction name with
  | none => pure (.nil, some errUnknownAction)
  | some act => a.decode fuel act.type

end Verif
