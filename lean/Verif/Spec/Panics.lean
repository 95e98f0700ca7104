import Verif.Spec.Stream
/-! # Inputs and types with which decoding does not panic

Of the model only the data types are used. -/
namespace Verif

/-- The input contains no run of five bytes with the high bit set: the beginning of a number of 2^35 or more in LEB128, whether or not it is meant as one. -/
def Tame (bs : Bytes) : Prop := ∀ pre c post : Bytes, bs = pre ++ c ++ post → c.length = 5 → ∃ x ∈ c, x.toNat < 128

/-- Values of the type can be nil. -/
def Ty.Nilable : Ty → Prop
  | .ptr _ | .slice _ | .map _ _ | .bytes | .chain .bytes | .chain .blob => True
  | _ => False
/-- Exported and nilable, as DecodeVariant needs them -/
def Fields.Members : Fields → Prop
  | .nil => True
  | .cons vis _ t fs => vis = .exported ∧ t.Nilable ∧ fs.Members
/-- Not a struct whose fields DecodeVariant would panic on -/
def Ty.VariantOk : Ty → Prop
  | .ptr t => t.VariantOk
  | .struct fs => fs.Members
  | _ => True

mutual
/-- The type is written out in full, no field is unexported, the members of variants are exported and nilable, and elements of slices have at most 8 KB. -/
def Ty.Steady : Ty → Prop
  | .ptr t => t.Steady
  | .slice t => t.Steady ∧ t.size ≤ 2 ^ 13
  | .array _ t => t.Steady
  | .map k e => k.Steady ∧ e.Steady
  | .struct fs => fs.Steady
  | .ref _ _ _ => False
  | _ => True
def Fields.Steady : Fields → Prop
  | .nil => True
  | .cons vis tag t fs => vis ≠ .unexported ∧ (tag = .variant → t.VariantOk) ∧ t.Steady ∧ fs.Steady
end

mutual
/-- No part of a value has a length on the wire. -/
def Ty.Sized : Ty → Prop
  | .basic b => b ≠ .string
  | .named _ => True
  | .unsupported => True
  | .bytes => False
  | .chain c => c ∉ [.action, .blob, .bytes, .publicKey, .signature, .transaction, .transactionExtension]
  | .ptr t => t.Sized
  | .slice _ => False
  | .array _ t => t.Sized
  | .map _ _ => False
  | .struct fs => fs.Sized
  | .ref _ _ _ => True
def Fields.Sized : Fields → Prop
  | .nil => True
  | .cons _ _ t fs => t.Sized ∧ fs.Sized
end

end Verif
