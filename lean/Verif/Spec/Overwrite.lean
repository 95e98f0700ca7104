import Verif.Spec.Codec
/-! # Decoding into a variable that already holds something -/
namespace Verif

/-- Two runs end the same way: both return, with results related by P and the same bytes left, or both panic with the same message, or both
recurse without bound. -/
def SameRun {α β : Type} (P : Bytes → α → β → Prop) : Out α → Out β → Prop
  | .ok a r, .ok b r' => r = r' ∧ P r a b
  | .panic w, .panic w' => w = w'
  | .diverge, .diverge => True
  | _, _ => False

/-- The previous content of the destination (among those satisfying `ok`) has no influence: for any two previous contents and any stream the error is the same, the bytes
left are the same, and if there is no error the decoded value is the same. -/
def OverwritesIf {α : Type} (ok : α → Prop) (u : α → Dec (α × Option Err)) : Prop :=
  ∀ (old old' : α) (fin : Err) (bs : Bytes), ok old → ok old' →
    SameRun (fun _ x y => x.2 = y.2 ∧ (x.2 = none → x.1 = y.1)) ((u old).runE fin bs) ((u old').runE fin bs)

def Overwrites {α : Type} (u : α → Dec (α × Option Err)) : Prop := OverwritesIf (fun _ => True) u

end Verif
