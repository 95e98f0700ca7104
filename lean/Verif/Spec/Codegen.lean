import Verif.Spec.Reflect
/-! # Which structs the generator is for -/
namespace Verif

def Fields.All (P : Vis → Tag → Ty → Prop) : Fields → Prop
  | .nil => True
  | .cons vis tag t fs => P vis tag t ∧ fs.All P

/-- Written one by one: basic types, types with methods, and pointers to these. -/
def WriteElem (code : Ty → Prop) : Ty → Prop
  | .basic _ => True
  | .ptr t => code t
  | t => code t

/-- What can be written: such elements, lists of them, and pointers to such elements and lists, optional or not. -/
def WriteOk (code : Ty → Prop) (vis : Vis) (tag : Tag) (t : Ty) : Prop :=
  vis = .exported ∧ match tag, t with
    | .none, .bytes => True
    | .none, .slice u => u ≠ .basic .u8 ∧ WriteElem code u
    | .none, .array n u => n < 2 ^ 63 ∧ WriteElem code u
    | .none, .ptr (.basic _) => True
    | .none, .ptr .bytes => True
    | .none, .ptr (.slice u) => u ≠ .basic .u8 ∧ WriteElem code u
    | .none, .ptr (.array n u) => n < 2 ^ 63 ∧ WriteElem code u
    | .none, t => WriteElem code t
    | .optional, .ptr (.basic _) => True
    | .optional, .ptr .bytes => True
    | .optional, .ptr (.slice u) => u ≠ .basic .u8 ∧ WriteElem code u
    | .optional, .ptr (.array n u) => n < 2 ^ 63 ∧ WriteElem code u
    | .optional, .ptr t => code t
    | _, _ => False

/-- Read one by one: basic types and types with methods. -/
def ReadElem (code : Ty → Prop) : Ty → Prop
  | .basic _ => True
  | t => code t

/-- What can be read: such elements and arrays of them; slices of basic types and of types of pkg/chain; pointers to basic types, optional or not. -/
def ReadOk (code : Ty → Prop) (vis : Vis) (tag : Tag) (t : Ty) : Prop :=
  vis = .exported ∧ match tag, t with
    | .none, .bytes => True
    | .none, .slice (.basic b) => b ≠ .u8
    | .none, .slice (.chain _) => True
    | .none, .array n u => n < 2 ^ 63 ∧ ReadElem code u
    | .none, .ptr (.basic _) => True
    | .none, t => ReadElem code t
    | .optional, .ptr (.basic _) => True
    | _, _ => False

/-- Types with methods: those of pkg/chain, and the structs for which code has been generated, nested n levels deep. -/
def HasCode (ok : (Ty → Prop) → Vis → Tag → Ty → Prop) : Nat → Ty → Prop
  | _, .chain _ => True
  | n + 1, .struct fs => fs.All (ok (HasCode ok n))
  | _, _ => False

mutual
/-- Arrays have the length of their type. -/
def Ty.Fits : (t : Ty) → t.Val → Prop
  | .ptr t, v => ∀ x : t.Val, (show Option t.Val from v) = some x → t.Fits x
  | .slice t, v => ∀ x ∈ Option.getD (α := List t.Val) v [], t.Fits x
  | .array n t, v => List.length (α := t.Val) v = n ∧ ∀ x ∈ (show List t.Val from v), t.Fits x
  | .map k e, v => ∀ x ∈ Option.getD (α := List (k.Val × e.Val)) v [], k.Fits x.1 ∧ e.Fits x.2
  | .struct fs, v => fs.Fits v
  | _, _ => True
def Fields.Fits : (fs : Fields) → fs.Val → Prop
  | .nil, _ => True
  | .cons _ _ t fs, v => t.Fits (show t.Val × fs.Val from v).1 ∧ fs.Fits (show t.Val × fs.Val from v).2
end

def Fields.Any (P : Vis → Tag → Ty → Prop) : Fields → Prop
  | .nil => False
  | .cons vis tag t fs => P vis tag t ∨ fs.Any P

/-- A slice or a pointer to one -/
def SliceField (_ : Vis) (_ : Tag) : Ty → Prop
  | .bytes | .slice _ | .ptr .bytes | .ptr (.slice _) => True
  | _ => False
/-- An array or a pointer to one -/
def ArrayField (_ : Vis) (_ : Tag) : Ty → Prop
  | .array _ _ | .ptr (.array _ _) => True
  | _ => False
/-- A pointer that is not optional -/
def PtrField (_ : Vis) : Tag → Ty → Prop
  | .none, .ptr _ => True
  | _, _ => False
/-- No two fields with P -/
def Fields.AtMostOne (P : Vis → Tag → Ty → Prop) : Fields → Prop
  | .nil => True
  | .cons vis tag t fs => fs.AtMostOne P ∧ (P vis tag t → ¬ fs.Any P)

end Verif
