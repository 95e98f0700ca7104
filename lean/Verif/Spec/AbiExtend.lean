import Verif.Spec.AbiGrow
/-! # Structs that get a further field

Of the model only the data types are used. -/
namespace Verif

/-- The struct n has the fields fs in a and one more after them in a'. What the fields fs mention means the same in both ABIs; in particular they do not mention n. -/
structure Abi.Extends (a a' : Abi) (n : Bytes) (fs : List AbiField) (f : AbiField) : Prop where
  name : Spelled n n false false false
  some : fs ≠ []
  old : FieldsOf a n fs
  new : FieldsOf a' n (fs ++ [f])
  fresh : ∀ g ∈ fs, g.name ≠ f.name
  same : ∀ g ∈ fs, a.Agrees a' g.type

end Verif
