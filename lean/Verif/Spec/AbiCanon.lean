import Verif.Spec.AbiTakes
import Verif.Spec.AbiSends
/-! # Conditions under which a decoded ABI value can be encoded

Of the model only the data types are used. -/
namespace Verif

mutual
/-- The bounds of the varuint writer (C03): no string, list or varuint32 of 2^28 or more, no varint32 beyond 2^27. -/
def AV.Small : AV → Prop
  | .basic b x => b.Wf x
  | .slice xs => xs.length < 2 ^ 28 ∧ smallAll xs
  | .map m => smallEntries m
  | _ => True
def smallAll : List AV → Prop
  | [] => True
  | x :: xs => x.Small ∧ smallAll xs
def smallEntries : List (Bytes × AV) → Prop
  | [] => True
  | (_, x) :: m => x.Small ∧ smallEntries m
end

/-- No type in the definition of n, direct or indirect, is the builtin type "bytes" or an array of it. -/
def Abi.NoBytes (a : Abi) (n : Bytes) : Prop := ∀ m b arr ext opt, Reach a n m → Spelled m b arr ext opt → b ≠ asc "bytes"
/-- No alias in the definition of n, direct or indirect, stands for an optional type. -/
def Abi.NoOptionalAlias (a : Abi) (n : Bytes) : Prop :=
  ∀ m b arr ext opt t, Reach a n m → Spelled m b arr ext opt → IsAlias a b t → ∀ b' arr' ext', ¬ Spelled t.type b' arr' ext' true
/-- No variant has more than 2^28 types. -/
def Abi.FewTypes (a : Abi) : Prop := ∀ v ∈ a.variants, v.types.length ≤ 2 ^ 28

/-- Lengths of strings are ints. -/
def Abi.RealNames (a : Abi) : Prop := ∀ v ∈ a.variants, ∀ t ∈ v.types, t.length < 2 ^ 63

end Verif
