import Verif.Spec.Twin
/-! # Variants in an ABI and structs of pointers in Go

Of the model only the data types are used. -/
namespace Verif

/-- The exported fields are pointers to declarations of the types of the variant, in their order. Left out: alternatives that are optional. -/
inductive TwinAlts (a : Abi) : List Bytes → Fields → Type
  | nil : TwinAlts a [] .nil
  | cons {n b : Bytes} {arr ext : Bool} {t : Ty} {tag : Tag} {ns : List Bytes} {fs : Fields} : Spelled n b arr ext false → TwinBody a b arr t → tag ≠ .extension → TwinAlts a ns fs →
    TwinAlts a (n :: ns) (.cons .exported tag (.ptr t) fs)

section
variable {a : Abi}

/-- Only the field number i is not nil, and what it points to is x as a value of the type m of the variant. -/
def TwinAlts.Holds : {ns : List Bytes} → {fs : Fields} → TwinAlts a ns fs → fs.Val → (i : Nat) → (m : Bytes) → (x : AV) → Prop
  | _, _, .nil, _, _, _, _ => False
  | _, _, .cons (n := n) (t := t) (fs := fs) _ w _ _, v, 0, m, x =>
    m = n ∧ (show Option t.Val × fs.Val from v).2 = fs.zero ∧ ∃ y, (show Option t.Val × fs.Val from v).1 = some y ∧ w.av y = x
  | _, _, .cons (t := t) (fs := fs) _ _ _ ws, v, i + 1, m, x => (show Option t.Val × fs.Val from v).1 = none ∧ ws.Holds (show Option t.Val × fs.Val from v).2 i m x
end

end Verif
