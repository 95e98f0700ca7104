import Verif.Spec.TwinVariant
/-! # Go types with variants and ABI types that describe the same data

`TwinBody` of Spec/Twin with a further kind of field: a struct of pointers with the tag variant. Of the model only the data types are used. Left out: variants with more than
128 types (C111_above_violated), and what Spec/Twin leaves out. -/
namespace Verif

section
variable (a : Abi)

mutual
/-- The type with base name b -/
inductive KinInner : Bytes → Ty → Type
  | leaf {b : Bytes} {t : Ty} : TwinInner a b t → KinInner b t
  | alias {b b' : Bytes} {arr ext : Bool} {ty : AbiType} {t : Ty} : IsAlias a b ty → Spelled ty.type b' arr ext false → KinBody b' arr t → KinInner b t
  | struct {b : Bytes} {f : AbiField} {fs : List AbiField} {gs : Fields} : FieldsOf a b (f :: fs) → ((f :: fs).map AbiField.name).Nodup → KinMembers (f :: fs) gs →
    KinInner b (.struct gs)
/-- Arrays are slices, of elements or of pointers to them. -/
inductive KinBody : Bytes → Bool → Ty → Type
  | one {b : Bytes} {t : Ty} : KinInner b t → KinBody b false t
  | many {b : Bytes} {t : Ty} : KinInner b t → KinBody b true (.slice t)
  | pointers {b : Bytes} {t : Ty} : KinInner b t → KinBody b true (.slice (.ptr t))
inductive KinMembers : List AbiField → Fields → Type
  | nil : KinMembers [] .nil
  | plain {f : AbiField} {fs : List AbiField} {b : Bytes} {arr ext : Bool} {t : Ty} {gs : Fields} : Spelled f.type b arr ext false → KinBody b arr t → KinMembers fs gs →
    KinMembers (f :: fs) (.cons .exported .none t gs)
  | pointer {f : AbiField} {fs : List AbiField} {b : Bytes} {arr ext : Bool} {t : Ty} {gs : Fields} : Spelled f.type b arr ext false → KinBody b arr t → KinMembers fs gs →
    KinMembers (f :: fs) (.cons .exported .none (.ptr t) gs)
  | optional {f : AbiField} {fs : List AbiField} {b : Bytes} {arr ext : Bool} {t : Ty} {gs : Fields} : Spelled f.type b arr ext true → KinBody b arr t → KinMembers fs gs →
    KinMembers (f :: fs) (.cons .exported .optional (.ptr t) gs)
  | within {es fs : List AbiField} {hs gs : Fields} : KinMembers es hs → KinMembers fs gs → KinMembers (es ++ fs) (.cons .exported .none (.struct hs) gs)
  /-- A field with the tag variant -/
  | variant {f : AbiField} {fs : List AbiField} {b : Bytes} {ext : Bool} {hs gs : Fields} : Spelled f.type b false ext false → KinChoice b hs → KinMembers fs gs →
    KinMembers (f :: fs) (.cons .exported .variant (.struct hs) gs)
/-- A variant or an alias of one -/
inductive KinChoice : Bytes → Fields → Type
  | alias {b b' : Bytes} {ext : Bool} {ty : AbiType} {hs : Fields} : IsAlias a b ty → Spelled ty.type b' false ext false → KinChoice b' hs → KinChoice b hs
  | variant {b : Bytes} {k : AbiVariant} {hs : Fields} : IsVariant a b k → k.types.length ≤ 128 → KinAlts k.types hs → KinChoice b hs
/-- Pointers to declarations of the types of the variant, in their order -/
inductive KinAlts : List Bytes → Fields → Type
  | nil : KinAlts [] .nil
  | cons {n b : Bytes} {arr ext : Bool} {t : Ty} {tag : Tag} {ns : List Bytes} {hs : Fields} : Spelled n b arr ext false → KinBody b arr t → tag ≠ .extension → KinAlts ns hs →
    KinAlts (n :: ns) (.cons .exported tag (.ptr t) hs)
end
end

section
variable {a : Abi}

mutual
/-- The value v of the Go type as Abi.Decode yields it: structs as maps, with the names of the ABI; a variant as the name and the value of the first member that is not nil -/
def KinInner.av : {b : Bytes} → {t : Ty} → KinInner a b t → t.Val → AV
  | _, _, .leaf w, v => w.av v
  | _, _, .alias _ _ w, v => w.av v
  | _, _, .struct _ _ w, v => .map (w.entries v)
def KinBody.av : {b : Bytes} → {arr : Bool} → {t : Ty} → KinBody a b arr t → t.Val → AV
  | _, _, _, .one w, v => w.av v
  | _, _, _, .many (t := t) w, v => .slice ((Option.getD (α := List t.Val) v []).map fun x => w.av x)
  | _, _, _, .pointers (t := t) w, v => .slice ((Option.getD (α := List (Option t.Val)) v []).map fun x => match x with
    | none => .nil
    | some x => w.av x)
def KinMembers.entries : {fs : List AbiField} → {gs : Fields} → KinMembers a fs gs → gs.Val → List (Bytes × AV)
  | _, _, .nil, _ => []
  | _, _, .plain (f := f) (t := t) (gs := gs) _ w ws, v => (f.name, w.av (show t.Val × gs.Val from v).1) :: ws.entries (show t.Val × gs.Val from v).2
  | _, _, .pointer (f := f) (t := t) (gs := gs) _ w ws, v => (f.name, match (show Option t.Val × gs.Val from v).1 with
    | none => .nil
    | some x => w.av x) :: ws.entries (show Option t.Val × gs.Val from v).2
  | _, _, .optional (f := f) (t := t) (gs := gs) _ w ws, v => (f.name, match (show Option t.Val × gs.Val from v).1 with
    | none => .nil
    | some x => w.av x) :: ws.entries (show Option t.Val × gs.Val from v).2
  | _, _, .within (hs := hs) (gs := gs) w ws, v => w.entries (show hs.Val × gs.Val from v).1 ++ ws.entries (show hs.Val × gs.Val from v).2
  | _, _, .variant (f := f) (hs := hs) (gs := gs) _ w ws, v => (f.name, w.av (show hs.Val × gs.Val from v).1) :: ws.entries (show hs.Val × gs.Val from v).2
def KinChoice.av : {b : Bytes} → {hs : Fields} → KinChoice a b hs → hs.Val → AV
  | _, _, .alias _ _ w, v => w.av v
  | _, _, .variant _ _ w, v => w.av v
def KinAlts.av : {ns : List Bytes} → {hs : Fields} → KinAlts a ns hs → hs.Val → AV
  | _, _, .nil, _ => .nil
  | _, _, .cons (n := n) (t := t) (hs := hs) _ w _ ws, v => match (show Option t.Val × hs.Val from v).1 with
    | none => ws.av (show Option t.Val × hs.Val from v).2
    | some x => .slice [.basic .string n, w.av x]
end
end

end Verif
