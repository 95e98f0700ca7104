import Verif.Spec.Reflect
import Verif.Model.Methods
/-! # Specification: wire form of types with methods

Of the model only the types, their values and the kind of receiver of a method are used. -/
namespace Verif

/-- The wire form a type of the user chooses: for which values there is one, and what it is. -/
structure Format (α : Type) where
  ok : α → Prop
  form : α → Bytes → Prop

/-- The formats of the declared types; none: the type has no methods, it is written as its underlying type. -/
abbrev Formats := (i : Nat) → (t : MTy) → Option (Format t.bare.Val)

section
variable (W : Formats)

mutual
/-- `bs` is the wire form of v: wherever a declared type with a format occurs, the part is in that format. -/
def MTy.Layout : (t : MTy) → t.bare.Val → Bytes → Prop
  | .plain t, v, bs => t.Layout v bs
  | .own i t, v, bs =>
    match W i t with
    | some f => f.form v bs
    | none => t.Layout v bs
  | .ptr t, v, bs => ∃ x : t.bare.Val, (show Option t.bare.Val from v) = some x ∧ t.Layout x bs
  | .slice t, v, bs => Counted t.Layout (Option.getD (α := List t.bare.Val) v []) bs
  | .array _ t, v, bs => Each t.Layout (show List t.bare.Val from v) bs
  | .map k t, v, bs => Counted (fun x bs => ∃ b1 b2, k.Layout x.1 b1 ∧ t.Layout x.2 b2 ∧ bs = b1 ++ b2) (Option.getD (α := List (k.Val × t.bare.Val)) v []) bs
  | .struct fs, v, bs => fs.Layout v bs
def MFields.Layout : (fs : MFields) → fs.bare.Val → Bytes → Prop
  | .nil, _, bs => bs = []
  | .cons tag t fs, v, bs => ∃ b1 b2, fs.Layout (show t.bare.Val × fs.bare.Val from v).2 b2 ∧ bs = b1 ++ b2 ∧
    (if tag = .optional then
      ((show t.bare.Val × fs.bare.Val from v).1 = t.bare.zero ∧ b1 = [0]) ∨
      ((show t.bare.Val × fs.bare.Val from v).1 ≠ t.bare.zero ∧ ∃ b, t.Layout (show t.bare.Val × fs.bare.Val from v).1 b ∧ b1 = 1 :: b)
    else t.Layout (show t.bare.Val × fs.bare.Val from v).1 b1)
end

mutual
/-- Pointers are not nil, lengths within bounds, parts with a format are values it has a form for. -/
def MTy.Wf : (t : MTy) → t.bare.Val → Prop
  | .plain t, v => t.Wf v
  | .own i t, v =>
    match W i t with
    | some f => f.ok v
    | none => t.Wf v
  | .ptr t, v => ∃ x : t.bare.Val, (show Option t.bare.Val from v) = some x ∧ t.Wf x
  | .slice t, v => (Option.getD (α := List t.bare.Val) v []).length < 2 ^ 28 ∧ (Option.getD (α := List t.bare.Val) v []).length * t.bare.size ≤ maxAlloc ∧
    ∀ x ∈ Option.getD (α := List t.bare.Val) v [], t.Wf x
  | .array n t, v => List.length (α := t.bare.Val) v = n ∧ ∀ x ∈ (show List t.bare.Val from v), t.Wf x
  | .map k t, v => (Option.getD (α := List (k.Val × t.bare.Val)) v []).length < 2 ^ 28 ∧ ((Option.getD (α := List (k.Val × t.bare.Val)) v []).map Prod.fst).Nodup ∧
    ∀ x ∈ Option.getD (α := List (k.Val × t.bare.Val)) v [], k.Wf x.1 ∧ t.Wf x.2
  | .struct fs, v => fs.Wf v
def MFields.Wf : (fs : MFields) → fs.bare.Val → Prop
  | .nil, _ => True
  | .cons tag t fs, v => ((tag = .optional ∧ (show t.bare.Val × fs.bare.Val from v).1 = t.bare.zero) ∨ t.Wf (show t.bare.Val × fs.bare.Val from v).1) ∧
    fs.Wf (show t.bare.Val × fs.bare.Val from v).2
end

mutual
/-- Where the types with a format may occur: anywhere if MarshalABI is defined on the value, directly behind a pointer if it is defined on the pointer. -/
def MTy.Sound (receiver : Nat → MTy → Receiver) : MTy → Mode → (behind : Bool) → Prop
  | .plain t, m, _ => t.Encodable ∧ t.Decodable m
  | .own i t, m, behind =>
    match W i t with
    | some _ => receiver i t = .value ∨ (receiver i t = .pointer ∧ behind = true)
    | none => t.Sound receiver m false
  | .ptr t, m, _ => t.Sound receiver (if m = .elem then .decode else .value) true
  | .slice t, _, _ => t.Sound receiver .elem false
  | .array _ t, _, _ => t.Sound receiver .elem false
  | .map k t, _, _ => k.Encodable ∧ k.KeyType ∧ k.Decodable .decode ∧ t.Sound receiver .decode false
  | .struct fs, _, _ => fs.Sound receiver
def MFields.Sound (receiver : Nat → MTy → Receiver) : MFields → Prop
  | .nil => True
  | .cons _ t fs => t.Sound receiver .elem false ∧ fs.Sound receiver
end
end

/-- The methods write and read the format: into any destination, with any data behind. -/
def TypeMethods.Keeps {t : MTy} (m : TypeMethods t.bare.Val) (f : Format t.bare.Val) : Prop :=
  (∀ v, f.ok v → ∃ bs, f.form v bs ∧ (m.marshal v).Writes bs) ∧
  ∃ u, m.unmarshal = some u ∧ ∀ v old bs, f.ok v → t.bare.Clean old → f.form v bs → ∃ w, t.bare.Same v w ∧ (u old).Reads bs w

/-- Each type with a format keeps it; the others have no methods. -/
def Program.Keeps (M : Program) (W : Formats) : Prop := ∀ i t,
  match W i t with
  | some f => (M i t).Keeps f
  | none => (M i t).receiver = .none ∧ (M i t).unmarshal = none

mutual
/-- No type whose MarshalABI is defined on the pointer occurs directly behind a pointer, and none has it on the value. -/
def MTy.Unseen (receiver : Nat → MTy → Receiver) : MTy → (behind : Bool) → Prop
  | .plain _, _ => True
  | .own i t, behind => receiver i t ≠ .value ∧ (receiver i t = .pointer → behind = false) ∧ t.Unseen receiver false
  | .ptr t, _ => t.Unseen receiver true
  | .slice t, _ => t.Unseen receiver false
  | .array _ t, _ => t.Unseen receiver false
  | .map _ t, _ => t.Unseen receiver false
  | .struct fs, _ => fs.Unseen receiver
def MFields.Unseen (receiver : Nat → MTy → Receiver) : MFields → Prop
  | .nil => True
  | .cons _ t fs => t.Unseen receiver false ∧ fs.Unseen receiver
end

/-- The embedded fields with methods are equal; nothing about the others. -/
def Fields.EmbeddedEq : (fs : Fields) → (emb : List Bool) → fs.Val → fs.Val → Prop
  | .nil, _, _, _ => True
  | .cons _ _ _ _, [], _, _ => True
  | .cons _ _ t fs, e :: emb, v, w => (e = true → t.hasMethods = true → (show t.Val × fs.Val from v).1 = (show t.Val × fs.Val from w).1) ∧
    fs.EmbeddedEq emb (show t.Val × fs.Val from v).2 (show t.Val × fs.Val from w).2

mutual
/-- Equal but for fields of structs that embed one type of package chain with its methods on the value: of these only the embedded field counts. -/
def MTy.EqualBut (emb : Nat → List Bool) : (t : MTy) → t.bare.Val → t.bare.Val → Prop
  | .plain _, v, w => v = w
  | .own i (.struct fs), v, w => if fs.bare.promoters (emb i) = 1 ∧ fs.bare.valueMarshaler (emb i) = true then fs.bare.EmbeddedEq (emb i) v w else v = w
  | .own _ _, v, w => v = w
  | .ptr t, v, w => v = w ∨ ∃ x y : t.bare.Val, (show Option t.bare.Val from v) = some x ∧ (show Option t.bare.Val from w) = some y ∧ t.EqualBut emb x y
  | .slice t, v, w => Forall2 (t.EqualBut emb) (Option.getD (α := List t.bare.Val) v []) (Option.getD (α := List t.bare.Val) w [])
  | .array _ t, v, w => Forall2 (t.EqualBut emb) (show List t.bare.Val from v) (show List t.bare.Val from w)
  | .map k t, v, w => Forall2 (fun x y => x.1 = y.1 ∧ t.EqualBut emb x.2 y.2) (Option.getD (α := List (k.Val × t.bare.Val)) v []) (Option.getD (α := List (k.Val × t.bare.Val)) w [])
  | .struct fs, v, w => fs.EqualBut emb v w
def MFields.EqualBut (emb : Nat → List Bool) : (fs : MFields) → fs.bare.Val → fs.bare.Val → Prop
  | .nil, _, _ => True
  | .cons tag t fs, v, w => t.EqualBut emb (show t.bare.Val × fs.bare.Val from v).1 (show t.bare.Val × fs.bare.Val from w).1 ∧
    (tag = .optional → ((show t.bare.Val × fs.bare.Val from v).1 = t.bare.zero ↔ (show t.bare.Val × fs.bare.Val from w).1 = t.bare.zero)) ∧
    fs.EqualBut emb (show t.bare.Val × fs.bare.Val from v).2 (show t.bare.Val × fs.bare.Val from w).2
end

end Verif
