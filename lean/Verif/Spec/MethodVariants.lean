import Verif.Spec.Methods
import Verif.Model.MethodVariants
/-! # What a variable of a variant type holds -/
namespace Verif

/-- The struct type of a variant: a pointer for every alternative -/
def variantFields : List MTy → MFields
  | [] => .nil
  | t :: ts => .cons .none (.ptr t) (variantFields ts)

/-- All pointers are nil -/
def noneChosen : (ts : List MTy) → (variantFields ts).bare.Val
  | [] => ()
  | t :: ts => ((none : Option t.bare.Val), noneChosen ts)

/-- Of the pointers, number n leads to a value w of the type t, and the others are nil -/
inductive Chosen (t : MTy) (w : t.bare.Val) : (ts : List MTy) → Nat → (variantFields ts).bare.Val → Prop
  | here (ts : List MTy) : Chosen t w (t :: ts) 0 ((some w : Option t.bare.Val), noneChosen ts)
  | there (u : MTy) (ts : List MTy) (n : Nat) (xs : (variantFields ts).bare.Val) : Chosen t w ts n xs → Chosen t w (u :: ts) (n + 1) ((none : Option u.bare.Val), xs)

end Verif
