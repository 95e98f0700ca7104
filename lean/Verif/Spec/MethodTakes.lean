import Verif.Spec.Takes
import Verif.Spec.Methods
import Verif.Spec.MethodVariants
/-! # The bytes that a type with methods accepts -/
namespace Verif

/-- The byte strings that UnmarshalABI of a declared type reads and the values it makes of them; none: the type has no such method -/
abbrev Accepted := (i : Nat) → (t : MTy) → Option (t.bare.Val → Bytes → Prop)

/-- In a new variable, UnmarshalABI reads exactly these -/
def Program.Exact (M : Program) (A : Accepted) : Prop := ∀ i t,
  match A i t with
  | some R => ∃ u, (M i t).unmarshal = some u ∧ (u t.bare.zero).Exactly R
  | none => (M i t).unmarshal = none

section
variable (A : Accepted)

mutual
/-- w is accepted as v by a new variable of type t reached as `Mode` says: as in Spec/Takes, but where a part has UnmarshalABI. -/
def MTy.Takes : (t : MTy) → Mode → t.bare.Val → Bytes → Prop
  | .plain t, m, v, w => Ty.Takes t m v w
  | .own i t, m, v, w =>
    match A i t with
    | some R => R v w
    | none => t.Takes m v w
  | .ptr t, m, v, w => ∃ x : t.bare.Val, (show Option t.bare.Val from v) = some x ∧ t.Takes (if m = .elem then .decode else .value) x w
  | .slice t, _, v, w => (show Option (List t.bare.Val) from v) ≠ some [] ∧ SizedEach t.bare.size (t.Takes .elem) (Option.getD (α := List t.bare.Val) v []) w
  | .array n t, _, v, w => List.length (α := t.bare.Val) v = n ∧ Each (t.Takes .elem) (show List t.bare.Val from v) w
  | .map k t, _, v, w => ∃ (ys xs : List (k.Val × t.bare.Val)) (lb es : Bytes),
      (show Option (List (k.Val × t.bare.Val)) from v) = some xs ∧ Gathers ys xs ∧ AnyCount lb ys.length ∧
      Each (fun y bs => ∃ b1 b2, Ty.Takes k .decode y.1 b1 ∧ t.Takes .decode y.2 b2 ∧ bs = b1 ++ b2) ys es ∧ w = lb ++ es
  | .struct fs, _, v, w => fs.Takes v w
/-- An optional field is absent if the presence byte is 0. -/
def MFields.Takes : (fs : MFields) → fs.bare.Val → Bytes → Prop
  | .nil, _, w => w = []
  | .cons tag t fs, v, w => ∃ b1 b2, fs.Takes (show t.bare.Val × fs.bare.Val from v).2 b2 ∧ w = b1 ++ b2 ∧
    if tag = .optional then
      ((show t.bare.Val × fs.bare.Val from v).1 = t.bare.zero ∧ b1 = [0]) ∨ ∃ p b, p ≠ 0 ∧ t.Takes .elem (show t.bare.Val × fs.bare.Val from v).1 b ∧ b1 = p :: b
    else t.Takes .elem (show t.bare.Val × fs.bare.Val from v).1 b1
end
end

mutual
/-- No field is an extension, no map has keys with pointers or floats, and no declared type is a pointer (those have no methods in Go). -/
def MTy.Strait : MTy → Prop
  | .plain t => Ty.Strait t
  | .own _ t => (∀ u, t.bare ≠ .ptr u) ∧ t.Strait
  | .ptr t => t.Strait
  | .slice t => t.Strait
  | .array _ t => t.Strait
  | .map k t => k.KeyType ∧ Ty.Strait k ∧ t.Strait
  | .struct fs => fs.Strait
def MFields.Strait : MFields → Prop
  | .nil => True
  | .cons tag t fs => tag ≠ .extension ∧ t.Strait ∧ fs.Strait
end

end Verif
