import Verif.Spec.AbiTakes
/-! # Go types and ABI types that describe the same data

`TwinBody a b arr t`: the Go type t is a declaration of the type called b, or b[], in the ABI a. Of the model only the data types are used.

Left out: fields that are optional but no pointers (a zero value is written as absent, C98_optional_violated), variants (C98_variant_violated), extension fields, []byte for
"uint8[]". -/
namespace Verif

section
variable (a : Abi)

mutual
/-- The type with base name b -/
inductive TwinInner : Bytes → Ty → Type
  | alias {b b' : Bytes} {arr ext : Bool} {ty : AbiType} {t : Ty} : IsAlias a b ty → Spelled ty.type b' arr ext false → TwinBody b' arr t → TwinInner b t
  | struct {b : Bytes} {f : AbiField} {fs : List AbiField} {gs : Fields} : FieldsOf a b (f :: fs) → ((f :: fs).map AbiField.name).Nodup → TwinMembers (f :: fs) gs →
    TwinInner b (.struct gs)
  | basic {b : Bytes} {ty : Basic} : NotDefined a b → (b, ty) ∈ abiBasics → TwinInner b (.basic ty)
  | chain {b : Bytes} {c : ChainTy} : NotDefined a b → (b, c) ∈ abiChains → TwinInner b (.chain c)
  /-- Go's own uint64 -/
  | uint64 : NotDefined a (asc "uint64") → TwinInner (asc "uint64") (.basic .u64)
  | bytes : NotDefined a (asc "bytes") → TwinInner (asc "bytes") .bytes
  | chainBytes : NotDefined a (asc "bytes") → TwinInner (asc "bytes") (.chain .bytes)
/-- Arrays are slices, of elements or of pointers to them. -/
inductive TwinBody : Bytes → Bool → Ty → Type
  | one {b : Bytes} {t : Ty} : TwinInner b t → TwinBody b false t
  | many {b : Bytes} {t : Ty} : TwinInner b t → TwinBody b true (.slice t)
  | pointers {b : Bytes} {t : Ty} : TwinInner b t → TwinBody b true (.slice (.ptr t))
/-- Optional fields are pointers with the tag; other fields may be pointers. The names of the fields do not matter, their order does. A struct inside, which may be an
embedded one, can stand for several fields, such as those of the base. -/
inductive TwinMembers : List AbiField → Fields → Type
  | nil : TwinMembers [] .nil
  | plain {f : AbiField} {fs : List AbiField} {b : Bytes} {arr ext : Bool} {t : Ty} {gs : Fields} : Spelled f.type b arr ext false → TwinBody b arr t → TwinMembers fs gs →
    TwinMembers (f :: fs) (.cons .exported .none t gs)
  | pointer {f : AbiField} {fs : List AbiField} {b : Bytes} {arr ext : Bool} {t : Ty} {gs : Fields} : Spelled f.type b arr ext false → TwinBody b arr t → TwinMembers fs gs →
    TwinMembers (f :: fs) (.cons .exported .none (.ptr t) gs)
  | optional {f : AbiField} {fs : List AbiField} {b : Bytes} {arr ext : Bool} {t : Ty} {gs : Fields} : Spelled f.type b arr ext true → TwinBody b arr t → TwinMembers fs gs →
    TwinMembers (f :: fs) (.cons .exported .optional (.ptr t) gs)
  | within {es fs : List AbiField} {hs gs : Fields} : TwinMembers es hs → TwinMembers fs gs → TwinMembers (es ++ fs) (.cons .exported .none (.struct hs) gs)
end
end

section
variable {a : Abi}

mutual
/-- The value v of the Go type as Abi.Decode yields it: structs as maps, with the names of the ABI -/
def TwinInner.av : {b : Bytes} → {t : Ty} → TwinInner a b t → t.Val → AV
  | _, _, .alias _ _ w, v => w.av v
  | _, _, .struct _ _ w, v => .map (w.entries v)
  | _, _, .basic (ty := ty) _ _, v => .basic ty v
  | _, _, .chain (c := c) _ _, v => .chain c v
  | _, _, .uint64 _, v => .chain .uint64 v
  | _, _, .bytes _, v => .chain .bytes (some (Option.getD (α := Bytes) v []))
  | _, _, .chainBytes _, v => .chain .bytes (some (Option.getD (α := Bytes) v []))
def TwinBody.av : {b : Bytes} → {arr : Bool} → {t : Ty} → TwinBody a b arr t → t.Val → AV
  | _, _, _, .one w, v => w.av v
  | _, _, _, .many (t := t) w, v => .slice ((Option.getD (α := List t.Val) v []).map fun x => w.av x)
  | _, _, _, .pointers (t := t) w, v => .slice ((Option.getD (α := List (Option t.Val)) v []).map fun x => match x with
    | none => .nil
    | some x => w.av x)
def TwinMembers.entries : {fs : List AbiField} → {gs : Fields} → TwinMembers a fs gs → gs.Val → List (Bytes × AV)
  | _, _, .nil, _ => []
  | _, _, .plain (f := f) (t := t) (gs := gs) _ w ws, v => (f.name, w.av (show t.Val × gs.Val from v).1) :: ws.entries (show t.Val × gs.Val from v).2
  | _, _, .pointer (f := f) (t := t) (gs := gs) _ w ws, v => (f.name, match (show Option t.Val × gs.Val from v).1 with
    | none => .nil
    | some x => w.av x) :: ws.entries (show Option t.Val × gs.Val from v).2
  | _, _, .optional (f := f) (t := t) (gs := gs) _ w ws, v => (f.name, match (show Option t.Val × gs.Val from v).1 with
    | none => .nil
    | some x => w.av x) :: ws.entries (show Option t.Val × gs.Val from v).2
  | _, _, .within (hs := hs) (gs := gs) w ws, v => w.entries (show hs.Val × gs.Val from v).1 ++ ws.entries (show hs.Val × gs.Val from v).2
end

mutual
/-- "bytes" is nowhere in the type. -/
def TwinInner.NoBytes : {b : Bytes} → {t : Ty} → TwinInner a b t → Prop
  | _, _, .alias _ _ w => w.NoBytes
  | _, _, .struct _ _ w => w.NoBytes
  | _, _, .bytes _ => False
  | _, _, .chainBytes _ => False
  | _, _, _ => True
def TwinBody.NoBytes : {b : Bytes} → {arr : Bool} → {t : Ty} → TwinBody a b arr t → Prop
  | _, _, _, .one w => w.NoBytes
  | _, _, _, .many w => w.NoBytes
  | _, _, _, .pointers w => w.NoBytes
def TwinMembers.NoBytes : {fs : List AbiField} → {gs : Fields} → TwinMembers a fs gs → Prop
  | _, _, .nil => True
  | _, _, .plain _ w ws => w.NoBytes ∧ ws.NoBytes
  | _, _, .pointer _ w ws => w.NoBytes ∧ ws.NoBytes
  | _, _, .optional _ w ws => w.NoBytes ∧ ws.NoBytes
  | _, _, .within w ws => w.NoBytes ∧ ws.NoBytes
end
end

mutual
/-- The size of the largest element of a slice in the type -/
def Ty.widest : Ty → Nat
  | .slice t => max t.size t.widest
  | .ptr t => t.widest
  | .array _ t => t.widest
  | .map k e => max k.widest e.widest
  | .struct fs => fs.widest
  | _ => 0
def Fields.widest : Fields → Nat
  | .nil => 0
  | .cons _ _ t fs => max t.widest fs.widest
end

end Verif
