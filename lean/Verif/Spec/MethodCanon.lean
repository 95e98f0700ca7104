import Verif.Spec.MethodTakes
import Verif.Spec.MethodFault
/-! # Methods that write what they read -/
namespace Verif

/-- Declared types have both methods or none, and MarshalABI is defined on the value. It returns no error for a value that UnmarshalABI made: it panics, or writes bytes, always the same, that
UnmarshalABI reads as that value, not more of them than were read. -/
def Matched (A : Accepted) (C : Conducts) : Prop := ∀ i t,
  match A i t with
  | some R => (C i t).receiver = .value ∧ (∀ v a b, (C i t).form v a → (C i t).form v b → a = b) ∧
    ∀ v w, R v w → t.bare.Real v ∧ ((C i t).fault v = some .panics ∨ (C i t).fault v = none ∧ ∃ out, (C i t).form v out ∧ R v out ∧ out.length ≤ w.length)
  | none => (C i t).receiver = .none

section
variable (A : Accepted)

mutual
/-- As `Decodable` in Spec/Reflect, where there is no UnmarshalABI -/
def MTy.Decodable : MTy → Mode → Prop
  | .plain t, m => Ty.Decodable t m
  | .own i t, m => A i t = none → t.Decodable m
  | .ptr t, m => t.Decodable (if m = .elem then .decode else .value)
  | .slice t, _ => t.Decodable .elem
  | .array _ t, _ => t.Decodable .elem
  | .map k t, _ => Ty.Decodable k .decode ∧ t.Decodable .decode
  | .struct fs, _ => fs.Decodable
def MFields.Decodable : MFields → Prop
  | .nil => True
  | .cons _ t fs => t.Decodable .elem ∧ fs.Decodable
end
end

end Verif
