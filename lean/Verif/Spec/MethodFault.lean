import Verif.Spec.Fault
import Verif.Spec.Methods
/-! # Which values Encode writes if there are types with methods -/
namespace Verif

/-- How an encoder ends: it writes bytes as given and returns nil, or returns an error, or panics -/
def Enc.Outcome (p : Enc (Option Err)) (f : Option Fault) (R : Bytes → Prop) : Prop := match f with
  | none => ∃ bs, R bs ∧ p.Writes bs
  | some (.error e) => ∃ out, p.run = .ok (some e) out
  | some .panics => ∃ w, p.run = .panic w

/-- What MarshalABI of a declared type does -/
structure Conduct (α : Type) where
  receiver : Receiver
  /-- how it fails -/
  fault : α → Option Fault
  /-- what it writes otherwise -/
  form : α → Bytes → Prop
  /-- the same for the nil pointer, if it is defined on the pointer -/
  nilFault : Option Fault
  nilForm : Bytes → Prop

abbrev Conducts := (i : Nat) → (t : MTy) → Conduct t.bare.Val

def Program.Follows (M : Program) (C : Conducts) : Prop := ∀ i t, (M i t).receiver = (C i t).receiver ∧
  ((C i t).receiver ≠ .none → ∀ v, ((M i t).marshal v).Outcome ((C i t).fault v) ((C i t).form v)) ∧
  ((C i t).receiver = .pointer → (M i t).marshalNil.Outcome (C i t).nilFault (C i t).nilForm)

section
variable (C : Conducts)

mutual
/-- The first thing in a value, in the order of the wire, that cannot be written. MarshalABI defined on the pointer counts only behind a pointer; a nil pointer is an error unless there is
a method: on the value, calling it panics. -/
def MTy.fault : (t : MTy) → t.bare.Val → Option Fault
  | .plain t, v => Ty.fault t v
  | .own i t, v => if (C i t).receiver = .value then (C i t).fault v else t.fault v
  | .ptr t, v =>
    match t, v with
    | .plain t, v => Ty.fault (.ptr t) v
    | .own i t, v =>
      match (show Option t.bare.Val from v), (C i t).receiver with
      | some x, .none => t.fault x
      | some x, _ => (C i t).fault x
      | none, .none => some t.bare.nilFault
      | none, .value => some .panics
      | none, .pointer => (C i t).nilFault
    | t, v =>
      match (show Option t.bare.Val from v) with
      | some x => t.fault x
      | none => some (.error errNilPtr)
  | .slice t, v => (lengthFault (Option.getD (α := List t.bare.Val) v []).length).or ((Option.getD (α := List t.bare.Val) v []).findSome? t.fault)
  | .array _ t, v => (show List t.bare.Val from v).findSome? t.fault
  | .map k t, v => (lengthFault (Option.getD (α := List (k.Val × t.bare.Val)) v []).length).or
    ((Option.getD (α := List (k.Val × t.bare.Val)) v []).findSome? fun x => (Ty.fault k x.1).or (t.fault x.2))
  | .struct fs, v => fs.fault v
/-- An optional field with its zero value is not looked at. -/
def MFields.fault : (fs : MFields) → fs.bare.Val → Option Fault
  | .nil, _ => none
  | .cons tag t fs, v =>
    (if tag = .optional ∧ (show t.bare.Val × fs.bare.Val from v).1 = t.bare.zero then none
      else t.fault (show t.bare.Val × fs.bare.Val from v).1).or (fs.fault (show t.bare.Val × fs.bare.Val from v).2)
end

mutual
/-- What is written for a value without a fault -/
def MTy.Wire : (t : MTy) → t.bare.Val → Bytes → Prop
  | .plain t, v, bs => Ty.Layout t v bs
  | .own i t, v, bs => if (C i t).receiver = .value then (C i t).form v bs else t.Wire v bs
  | .ptr t, v, bs =>
    match t, v with
    | .plain t, v => Ty.Layout (.ptr t) v bs
    | .own i t, v =>
      match (show Option t.bare.Val from v) with
      | some x => if (C i t).receiver = .none then t.Wire x bs else (C i t).form x bs
      | none => (C i t).receiver = .pointer ∧ (C i t).nilForm bs
    | t, v =>
      match (show Option t.bare.Val from v) with
      | some x => t.Wire x bs
      | none => False
  | .slice t, v, bs => Counted t.Wire (Option.getD (α := List t.bare.Val) v []) bs
  | .array _ t, v, bs => Each t.Wire (show List t.bare.Val from v) bs
  | .map k t, v, bs => Counted (fun (x : k.Val × t.bare.Val) bs => ∃ b1 b2, Ty.Layout k x.1 b1 ∧ t.Wire x.2 b2 ∧ bs = b1 ++ b2) (Option.getD (α := List (k.Val × t.bare.Val)) v []) bs
  | .struct fs, v, bs => fs.Wire v bs
def MFields.Wire : (fs : MFields) → fs.bare.Val → Bytes → Prop
  | .nil, _, bs => bs = []
  | .cons tag t fs, v, bs => ∃ b1 b2, fs.Wire (show t.bare.Val × fs.bare.Val from v).2 b2 ∧ bs = b1 ++ b2 ∧
    if tag = .optional then
      ((show t.bare.Val × fs.bare.Val from v).1 = t.bare.zero ∧ b1 = [0]) ∨
      ((show t.bare.Val × fs.bare.Val from v).1 ≠ t.bare.zero ∧ ∃ b, t.Wire (show t.bare.Val × fs.bare.Val from v).1 b ∧ b1 = 1 :: b)
    else t.Wire (show t.bare.Val × fs.bare.Val from v).1 b1
end
end

end Verif
