import Verif.Model.Reflect
import Verif.Go.Strconv
/-! # pkg/codegen/codegen.go: GenUnmarshalFn

The generator turns a struct type into the text of two Go functions. The templates are modelled as syntax trees (`WStmt`, `RStmt`) instead of text; white space,
names and the import list are left out here and are in Model/CodegenText (C91 connects the two). `typed` and `compiles` say what the Go compiler demands of the trees, `run` is what the functions do.
The functions are assumed to be in the package of the struct, `main`, to which every declared type (`Ty.named`, `Ty.struct`, declared []byte types) belongs;
package chain is imported. -/
namespace Verif

/-! ## Reading the type -/

/-- stdlib reflect.Type.String of the predeclared types (codegen.go:188) -/
def Basic.goName : Basic → Bytes
  | .bool => asc "bool"
  | .string => asc "string"
  | .u8 => asc "uint8"
  | .u16 => asc "uint16"
  | .u32 => asc "uint32"
  | .u64 => asc "uint64"
  | .i8 => asc "int8"
  | .i16 => asc "int16"
  | .i32 => asc "int32"
  | .i64 => asc "int64"
  | .f32 => asc "float32"
  | .f64 => asc "float64"
  | .int => asc "int"
  | .uint => asc "uint"

/-- reflect.Type.String of the types of package chain -/
def ChainTy.goName : ChainTy → Bytes
  | .action => asc "chain.Action"
  | .asset => asc "chain.Asset"
  | .blob => asc "chain.Blob"
  | .blockNum => asc "chain.BlockNum"
  | .blockTimestamp => asc "chain.BlockTimestamp"
  | .bytes => asc "chain.Bytes"
  | .checksum160 => asc "chain.Checksum160"
  | .checksum256 => asc "chain.Checksum256"
  | .checksum512 => asc "chain.Checksum512"
  | .float128 => asc "chain.Float128"
  | .int128 => asc "chain.Int128"
  | .name => asc "chain.Name"
  | .permissionLevel => asc "chain.PermissionLevel"
  | .publicKey => asc "chain.PublicKey"
  | .signature => asc "chain.Signature"
  | .symbol => asc "chain.Symbol"
  | .symbolCode => asc "chain.SymbolCode"
  | .timePoint => asc "chain.TimePoint"
  | .timePointSec => asc "chain.TimePointSec"
  | .transaction => asc "chain.Transaction"
  | .transactionExtension => asc "chain.TransactionExtension"
  | .transactionHeader => asc "chain.TransactionHeader"
  | .uint128 => asc "chain.Uint128"
  | .uint64 => asc "chain.Uint64"
  | .extendedAsset => asc "chain.ExtendedAsset"

/-- stdlib `reflect.Type.String`. Simplified: every declared type of package main is called `main.T`. -/
def Ty.goString : Ty → Bytes
  | .basic b => b.goName
  | .named _ | .ref _ _ _ => asc "main.T"
  | .unsupported => asc "complex128"
  | .bytes => asc "[]uint8"
  | .chain c => c.goName
  | .ptr t => 42 :: t.goString
  | .slice (.basic .u8) => asc "main.T"
  | .slice t => asc "[]" ++ t.goString
  | .array n t => 91 :: (fmtNat n ++ 93 :: t.goString)
  | .map k v => asc "map[" ++ k.goString ++ 93 :: v.goString
  | .struct _ => asc "main.T"

/-- codegen.go:221-252: suffix of the methods WriteX and ReadX -/
inductive Method where
  | basic (b : Basic)
  | bytes
deriving DecidableEq

/-- codegen.go:221-252; `none` is the empty `Method` -/
def methodOf (s : Bytes) : Option Method :=
  if s = asc "string" then some (.basic .string)
  else if s = asc "uint64" then some (.basic .u64)
  else if s = asc "uint32" then some (.basic .u32)
  else if s = asc "uint16" then some (.basic .u16)
  else if s = asc "uint8" then some (.basic .u8)
  else if s = asc "int64" then some (.basic .i64)
  else if s = asc "int32" then some (.basic .i32)
  else if s = asc "int16" then some (.basic .i16)
  else if s = asc "int8" then some (.basic .i8)
  else if s = asc "bool" then some (.basic .bool)
  else if s = asc "[]uint8" ∨ s = asc "[]byte" then some .bytes
  else if s = asc "int" then some (.basic .int)
  else if s = asc "uint" then some (.basic .uint)
  else if s = asc "float32" then some (.basic .f32)
  else if s = asc "float64" then some (.basic .f64)
  else none

/-- codegen.go:164-174 -/
structure CgField where
  type : Bytes
  isPtr : Bool
  isOptional : Bool
  isSlice : Bool
  isArray : Bool
  arrayLen : Int

/-- codegen.go:202-208: at the first `]` -/
def cutArray : Bytes → Bytes → Option (Bytes × Bytes)
  | _, [] => none
  | acc, c :: s => if c = 93 then some (acc.reverse, s) else cutArray (c :: acc) s

/-- codegen.go:186-217: flags of a field whose type prints as `s`; `none` is the panic of :213. The error of Atoi is dropped. -/
def cgField (s : Bytes) (tag : Tag) : Option CgField :=
  let (isPtr, s) := match s with
    | 42 :: s => (true, s)
    | s => (false, s)
  let isOptional := tag = .optional
  if isOptional ∧ ¬ isPtr then none
  else some <|
    match s with
    | 91 :: 93 :: s => { type := s, isPtr, isOptional, isSlice := true, isArray := false, arrayLen := 0 }
    | 91 :: s =>
      match cutArray [] s with
      | some (n, s) => { type := s, isPtr, isOptional, isSlice := false, isArray := true, arrayLen := (parseInt 64 n).1 }
      | none => { type := 91 :: s, isPtr, isOptional, isSlice := false, isArray := true, arrayLen := 0 }
    | s => { type := s, isPtr, isOptional, isSlice := false, isArray := false, arrayLen := 0 }

/-! ## The templates -/

/-- `v.Name`, with `(*…)` if deref, with `[i]` if index -/
structure Ref where
  deref : Bool
  index : Bool

/-- Statements of MarshalABI -/
inductive WStmt where
  /-- codegen.go:43-52 -/
  | write (m : Method) (r : Ref)
  /-- codegen.go:70-78 -/
  | marshal (r : Ref)
  /-- codegen.go:90-98 -/
  | slice (deref : Bool) (body : WStmt)
  /-- codegen.go:110-114 -/
  | array (n : Int) (body : WStmt)
  /-- codegen.go:122-136 -/
  | optional (isOptional : Bool) (body : WStmt)

/-- Statements of UnmarshalABI -/
inductive RStmt where
  /-- codegen.go:54-68 -/
  | read (m : Method) (isPtr : Bool) (index : Bool)
  /-- codegen.go:80-88 -/
  | unmarshal (r : Ref)
  /-- codegen.go:100-108; the element type as text -/
  | slice (type : Bytes) (body : RStmt)
  /-- codegen.go:116-120 -/
  | array (n : Int) (body : RStmt)
  /-- codegen.go:138-145 -/
  | optional (body : RStmt)

/-- codegen.go:257-278 -/
def genWrite (f : CgField) : WStmt :=
  let isList := f.isSlice || f.isArray
  let code := match methodOf f.type with
    | some m => .write m ⟨f.isPtr, isList⟩
    | none => .marshal ⟨f.isPtr && isList, isList⟩
  let code := if f.isSlice then .slice f.isPtr code else code
  let code := if f.isArray then .array f.arrayLen code else code
  if f.isOptional || f.isPtr then .optional f.isOptional code else code

/-- codegen.go:287-307 -/
def genRead (f : CgField) : RStmt :=
  let isList := f.isSlice || f.isArray
  let code := match methodOf f.type with
    | some m => .read m f.isPtr isList
    | none => .unmarshal ⟨f.isPtr && isList, isList⟩
  let code := if f.isSlice then .slice f.type code else code
  let code := if f.isArray then .array f.arrayLen code else code
  if f.isOptional then .optional code else code

/-- codegen.go:157-162: what the function templates (:11-41) declare -/
structure FnDecls where
  usesExists : Bool
  usesLength : Bool

/-- codegen.go:263-277: arrays, too, set UsesLength -/
def writeDecls (fs : List CgField) : FnDecls := ⟨fs.any fun f => f.isOptional || f.isPtr, fs.any fun f => f.isSlice || f.isArray⟩
/-- codegen.go:284-306 -/
def readDecls (fs : List CgField) : FnDecls := ⟨fs.any fun f => f.isOptional, fs.any fun f => f.isSlice⟩

/-- The fields of a struct as the generator sees them; `none` is a panic. -/
def Fields.cgFields : Fields → Option (List CgField)
  | .nil => some []
  | .cons _ tag t fs => do
    let f ← cgField t.goString tag
    let l ← fs.cgFields
    pure (f :: l)

/-! ## What the compiler demands -/

/-- The types that have MarshalABI and UnmarshalABI (on a pointer or a value), and what these methods do. -/
structure Methods where
  marshal : (t : Ty) → Option (t.Val → Enc (Option Err))
  unmarshal : (t : Ty) → Option (t.Val → Dec (t.Val × Option Err))

/-- Go spec, "Index expressions": also through a pointer to an array -/
def Ty.indexed : Ty → Option Ty
  | .slice t => some t
  | .bytes => some (.basic .u8)
  | .array _ t => some t
  | .ptr (.array _ t) => some t
  | _ => none

/-- Type of the expression `v.X`, `(*v.X)`, `v.X[i]`, `(*v.X)[i]` (codegen.go:45-48,71-74), v.X having type t -/
def Ref.type (r : Ref) (t : Ty) : Option Ty := do
  let t ← if r.deref then (match t with | .ptr t => some t | _ => none) else some t
  if r.index then t.indexed else some t

/-- `e.WriteM(x)` compiles with x of the type (codegen.go:44): the parameter types of pkg/abi/encode.go -/
def Method.takes : Method → Ty → Bool
  | .basic b, .basic b' => b = b'
  | .bytes, .bytes => true
  | _, _ => false

/-- Go spec, "Calls": the methods of T can be called on addressable T and on *T. -/
def callable (has : Ty → Bool) : Ty → Bool
  | .ptr t => has t
  | t => has t

/-- A pointer type that is not a declared one -/
def Ty.isPtr : Ty → Bool
  | .ptr _ => true
  | _ => false
/-- A slice, possibly behind a pointer -/
def Ty.isSlice (deref : Bool) : Ty → Bool
  | .slice _ | .bytes => !deref
  | .ptr (.slice _) | .ptr .bytes => deref
  | _ => false

/-- Names in the text of a type: `main.T` means nothing inside package main. -/
def Ty.resolves : Ty → Bool
  | .basic _ | .unsupported | .bytes | .chain _ => true
  | .named _ | .struct _ | .ref _ _ _ => false
  | .ptr t => t.resolves
  | .slice (.basic .u8) => false
  | .slice t => t.resolves
  | .array _ t => t.resolves
  | .map k v => k.resolves && v.resolves

/-- The statement in MarshalABI compiles, v.X having type t (codegen.go:43-52,70-78,90-98,110-114,122-136) -/
def WStmt.typed (has : Ty → Bool) (t : Ty) : WStmt → Bool
  | .write m r => match r.type t with
    | some u => m.takes u
    | none => false
  | .marshal r => match r.type t with
    | some u => callable has u
    | none => false
  | .slice deref body => t.isSlice deref && body.typed has t
  | .array _ body => body.typed has t
  | .optional _ body => t.isPtr && body.typed has t

/-- ReadBytes has a parameter, which the template does not supply, and three results. -/
def RStmt.typed (has : Ty → Bool) (t : Ty) : RStmt → Bool
  | .read .bytes _ _ => false
  | .read (.basic b) isPtr index => match Ref.type ⟨false, index⟩ t with
    | some (.ptr (.basic b')) => isPtr && b = b'
    | some (.basic b') => !isPtr && b = b'
    | _ => false
  | .unmarshal r => match r.type t with
    | some u => callable has u
    | none => false
  | .slice type body => t.goString = asc "[]" ++ type && t.resolves && body.typed has t
  | .array _ body => body.typed has t
  | .optional body => body.typed has t

/-- Uses the variable `exists` (codegen.go:122-136) -/
def WStmt.usesExists : WStmt → Bool
  | .optional _ _ => true
  | _ => false
/-- Uses the variable `length` (codegen.go:90-98) -/
def WStmt.usesLength : WStmt → Bool
  | .slice _ _ => true
  | .array _ body => body.usesLength
  | .optional _ body => body.usesLength
  | _ => false
/-- Uses the variable `exists` (codegen.go:138-145) -/
def RStmt.usesExists : RStmt → Bool
  | .optional _ => true
  | _ => false
/-- Uses the variable `length` (codegen.go:100-108) -/
def RStmt.usesLength : RStmt → Bool
  | .slice _ _ => true
  | .array _ body => body.usesLength
  | .optional body => body.usesLength
  | _ => false
/-- Declares `tmp` in the block of the function -/
def RStmt.declaresTmp : RStmt → Bool
  | .read _ isPtr _ => isPtr
  | _ => false

/-- codegen.go:257-278 for one field: what it renders compiles -/
def writeTyped (has : Ty → Bool) (tag : Tag) (t : Ty) : Bool :=
  match cgField t.goString tag with
  | none => false
  | some f => (genWrite f).typed has t
/-- codegen.go:287-307 for one field: what it renders compiles -/
def readTyped (has : Ty → Bool) (tag : Tag) (t : Ty) : Bool :=
  match cgField t.goString tag with
  | none => false
  | some f => (genRead f).typed has t

/-- Names and types of all fields. `_` is not a field that can be selected. -/
def Fields.typed (ok : Tag → Ty → Bool) : Fields → Bool
  | .nil => true
  | .cons vis tag t fs => vis ≠ .blank && ok tag t && fs.typed ok

/-- No variable is declared and not used, or used and not declared. -/
def FnDecls.fit (d : FnDecls) (usesExists usesLength : Bool) : Bool := d.usesExists = usesExists && d.usesLength = usesLength

/-- The generator returns and its MarshalABI compiles. -/
def Fields.marshalCompiles (has : Ty → Bool) (fs : Fields) : Bool :=
  match fs.cgFields with
  | none => false
  | some l =>
    fs.typed (writeTyped has) &&
    (writeDecls l).fit (l.any fun f => (genWrite f).usesExists) (l.any fun f => (genWrite f).usesLength)

/-- The generator returns and its UnmarshalABI compiles. -/
def Fields.unmarshalCompiles (has : Ty → Bool) (fs : Fields) : Bool :=
  match fs.cgFields with
  | none => false
  | some l =>
    fs.typed (readTyped has) &&
    (readDecls l).fit (l.any fun f => (genRead f).usesExists) (l.any fun f => (genRead f).usesLength) &&
    l.countP (fun f => (genRead f).declaresTmp) ≤ 1

/-! ## What the functions do -/

/-- A variable of some type inside a variable of type α: its content and how to change it -/
inductive Place (α : Type) where
  | ill
  | panic (why : String)
  | at (t : Ty) (val : t.Val) (put : t.Val → α)

/-- Go spec, "Index expressions": the element, or a panic -/
def Place.elem {α : Type} (t : Ty) (i : Nat) (xs : List t.Val) (put : List t.Val → α) : Place α :=
  match xs[i]? with
  | some x => .at t x fun y => put (xs.set i y)
  | none => .panic "index out of range"

/-- Go spec, "Index expressions": `x[i]` -/
def Place.index {α : Type} (i : Nat) : (t : Ty) → t.Val → (t.Val → α) → Place α
  | .slice t, v, put => Place.elem t i (Option.getD (α := List t.Val) v []) fun xs => put (some xs : Option (List t.Val))
  | .bytes, v, put => Place.elem (.basic .u8) i (Option.getD (α := Bytes) v []) fun xs => put (some xs : Option Bytes)
  | .array _ t, v, put => Place.elem t i v fun xs => put xs
  | .ptr (.array _ t), v, put =>
    match (v : Option (List t.Val)) with
    | some xs => Place.elem t i xs fun xs => put (some xs : Option (List t.Val))
    | none => .panic "nil pointer dereference"
  | _, _, _ => .ill

/-- The variable that the expression stands for (codegen.go:45-48,71-74) -/
def Ref.place (r : Ref) (i : Nat) (t : Ty) (v : t.Val) : Place t.Val :=
  if r.deref then
    match t, v with
    | .ptr t, v =>
      match (v : Option t.Val) with
      | some x => if r.index then Place.index i t x (fun y => (some y : Option t.Val)) else .at t x fun y => (some y : Option t.Val)
      | none => .panic "nil pointer dereference"
    | _, _ => .ill
  else if r.index then Place.index i t v id else .at t v id

/-- Stands for code that the compiler rejects -/
def illTyped : String := "does not compile"

/-- `e.WriteM(x)` (codegen.go:44) -/
def Method.write : Method → (t : Ty) → t.Val → Enc (Option Err)
  | .basic b, .basic b', v => if b = b' then b'.write v else .panic illTyped
  | .bytes, .bytes, v => writeBytes (Option.getD (α := Bytes) v [])
  | _, _, _ => .panic illTyped

/-- Simplified: the methods with a value receiver, which panic on a nil pointer, and those with a pointer receiver, all of which use the receiver, are not
distinguished. -/
def Methods.callMarshal (M : Methods) (t : Ty) (v : t.Val) : Enc (Option Err) :=
  match t, v with
  | .ptr t, v =>
    match M.marshal t, (v : Option t.Val) with
    | none, _ => .panic illTyped
    | some _, none => .panic "nil pointer dereference"
    | some m, some x => m x
  | t, v =>
    match M.marshal t with
    | none => .panic illTyped
    | some m => m v

/-- Simplified: on a nil pointer some methods read before they use the receiver and return an error if that fails. -/
def Methods.callUnmarshal (M : Methods) (t : Ty) (v : t.Val) : Dec (t.Val × Option Err) :=
  match t, v with
  | .ptr t, v =>
    match M.unmarshal t, (v : Option t.Val) with
    | none, _ => .panic illTyped
    | some _, none => .panic "nil pointer dereference"
    | some m, some x => do
      let (y, err) ← m x
      pure ((some y : Option t.Val), err)
  | t, v =>
    match M.unmarshal t with
    | none => .panic illTyped
    | some m => m v

/-- `for i := 0; i < n; i++ { … }`, k iterations left -/
def writeLoop (body : Nat → Enc (Option Err)) : (k i : Nat) → Enc (Option Err)
  | 0, _ => pure none
  | k + 1, i => do
    match ← body i with
    | some e => pure (some e)
    | none => writeLoop body k (i + 1)

/-- The loops of codegen.go:105-107 and 117-119, k iterations left -/
def readLoop {α : Type} (body : Nat → α → Dec (α × Option Err)) : (k i : Nat) → α → Dec (α × Option Err)
  | 0, _, v => pure (v, none)
  | k + 1, i, v => do
    let (v, err) ← body i v
    match err with
    | some e => pure (v, some e)
    | none => readLoop body k (i + 1) v

/-- `len(v.X)` or `len(*v.X)` -/
def sliceLen (deref : Bool) : (t : Ty) → t.Val → Option Nat
  | .slice t, v => if deref then none else some (Option.getD (α := List t.Val) v []).length
  | .bytes, v => if deref then none else some (Option.getD (α := Bytes) v []).length
  | .ptr (.slice t), v => if deref then some (Option.getD (α := List t.Val) (Option.getD (α := Option (List t.Val)) v none) []).length else none
  | .ptr .bytes, v => if deref then some (Option.getD (α := Bytes) (Option.getD (α := Option Bytes) v none) []).length else none
  | _, _ => none

/-- `v.X != nil` -/
def Ty.notNil : (t : Ty) → t.Val → Bool
  | .ptr t, v => Option.isSome (α := t.Val) v
  | _, _ => false

/-- codegen.go:133; the name of the field is left out -/
def errNilField : Err := .msg "encountered nil for non-optional field"

/-- One statement on the field v of type t; i is the loop variable. Slices behind a pointer are only reached when the pointer is not nil. -/
def WStmt.run (M : Methods) : WStmt → (i : Nat) → (t : Ty) → t.Val → Enc (Option Err)
  | .write m r, i, t, v =>
    match r.place i t v with
    | .ill => .panic illTyped
    | .panic w => .panic w
    | .at u x _ => m.write u x
  | .marshal r, i, t, v =>
    match r.place i t v with
    | .ill => .panic illTyped
    | .panic w => .panic w
    | .at u x _ => M.callMarshal u x
  | .slice deref body, _, t, v =>
    match sliceLen deref t v with
    | none => .panic illTyped
    | some n => do
      match ← writeVaruint n.toUInt64 with
      | some e => pure (some e)
      | none => writeLoop (fun i => body.run M i t v) n 0
  | .array n body, _, t, v => writeLoop (fun i => body.run M i t v) n.toNat 0
  | .optional isOptional body, i, t, v =>
    let some' : Enc (Option Err) := if t.notNil v then body.run M i t v else if isOptional then pure none else pure (some errNilField)
    if isOptional then do
      match ← writeBool (t.notNil v) with
      | some e => pure (some e)
      | none => some'
    else some'

/-- `x, err = d.ReadX()` and, behind a pointer, `var tmp T; tmp, err = d.ReadX(); …; x = &tmp`. Without the pointer the variable is assigned also on error. -/
def readInto {α : Type} (b : Basic) (isPtr : Bool) (old : α) : Place α → Dec (α × Option Err)
  | .ill => .panic illTyped
  | .panic w => .panic w
  | .at (.basic b') _ put =>
    if b = b' ∧ ¬ isPtr then do
      let (x, err) ← b'.read
      pure (put x, err)
    else .panic illTyped
  | .at (.ptr (.basic b')) _ put =>
    if b = b' ∧ isPtr then do
      let (x, err) ← b'.read
      match err with
      | some e => pure (old, some e)
      | none => pure (put (some x : Option b'.Val), none)
    else .panic illTyped
  | .at _ _ _ => .panic illTyped

/-- `v.X = make([]T, length)` and the loop -/
def makeThen (l : UInt64) : (t : Ty) → (t.Val → Dec (t.Val × Option Err)) → Dec (t.Val × Option Err)
  | .slice t, k => makeSlice t.zero t.size l fun xs => k (some xs : Option (List t.Val))
  | .bytes, k => makeSlice 0 1 l fun xs => k (some xs : Option Bytes)
  | _, _ => .panic illTyped

/-- The statement in UnmarshalABI (codegen.go:54-68,80-88,100-108,116-120,138-145) -/
def RStmt.run (M : Methods) : RStmt → (i : Nat) → (t : Ty) → t.Val → Dec (t.Val × Option Err)
  | .read (.basic b) isPtr index, i, t, old => readInto b isPtr old (Ref.place ⟨false, index⟩ i t old)
  | .read .bytes _ _, _, _, _ => .panic illTyped
  | .unmarshal r, i, t, old =>
    match r.place i t old with
    | .ill => .panic illTyped
    | .panic w => .panic w
    | .at u x put => do
      let (y, err) ← M.callUnmarshal u x
      pure (put y, err)
  | .slice _ body, _, t, old => do
    let (l, err) ← readVaruint
    match err with
    | some e => pure (old, some e)
    | none => makeThen l t fun v => readLoop (fun i v => body.run M i t v) (goInt l).toNat 0 v
  | .array n body, _, t, old => readLoop (fun i v => body.run M i t v) n.toNat 0 old
  | .optional body, i, t, old => do
    let (present, err) ← readBool
    match err with
    | some e => pure (old, some e)
    | none => if present then body.run M i t old else pure (old, none)

/-- codegen.go:11-25 -/
def runMarshal (M : Methods) : (fs : Fields) → fs.Val → Enc (Option Err)
  | .nil, _ => pure none
  | .cons _ tag t fs, v => do
    let (x, xs) : t.Val × fs.Val := v
    match cgField t.goString tag with
    | none => .panic "cant generate code for non-pointer optionals"
    | some f =>
      match ← (genWrite f).run M 0 t x with
      | some e => pure (some e)
      | none => runMarshal M fs xs

/-- codegen.go:27-41 -/
def runUnmarshal (M : Methods) : (fs : Fields) → fs.Val → Dec (fs.Val × Option Err)
  | .nil, old => pure (old, none)
  | .cons _ tag t fs, old => do
    let (x, xs) : t.Val × fs.Val := old
    match cgField t.goString tag with
    | none => .panic "cant generate code for non-pointer optionals"
    | some f =>
      let (y, err) ← (genRead f).run M 0 t x
      match err with
      | some e => pure ((y, xs), some e)
      | none =>
        let (ys, err) ← runUnmarshal M fs xs
        pure ((y, ys), err)

/-- The methods of a program in which the types of pkg/chain have their methods and code has been generated for structs, n levels deep. -/
def generated : Nat → Methods
  | 0 => ⟨chainMarshal, chainUnmarshal⟩
  | n + 1 => {
    marshal := fun t => match t with
      | .struct fs => some (runMarshal (generated n) fs)
      | t => chainMarshal t
    unmarshal := fun t => match t with
      | .struct fs => some (runUnmarshal (generated n) fs)
      | t => chainUnmarshal t }
where
  chainMarshal : (t : Ty) → Option (t.Val → Enc (Option Err))
    | .chain c => some c.marshal
    | _ => none
  chainUnmarshal : (t : Ty) → Option (t.Val → Dec (t.Val × Option Err))
    | .chain c => some c.unmarshal
    | _ => none

end Verif
