import Verif.Spec.Takes
import Verif.Spec.AbiWire
/-! # Which bytes Abi.Decode accepts, and as what

`Wire` of Spec/AbiWire is what is written; this is what is read, for types that are no extensions. Of the model only the data types are used. -/
namespace Verif

/-- The builtin types -/
inductive TakenAs : Bytes → AV → Bytes → Prop
  | basic {b : Bytes} {ty : Basic} {x : ty.Val} {bs : Bytes} : (b, ty) ∈ abiBasics → ty.Takes x bs → TakenAs b (.basic ty x) bs
  | chain {b : Bytes} {c : ChainTy} {x : c.Val} {bs : Bytes} : (b, c) ∈ abiChains → c.Takes x bs → TakenAs b (.chain c x) bs
  | bytes {x bs : Bytes} : Sized bs x → TakenAs (asc "bytes") (.chain .bytes (some x)) bs

section
variable (a : Abi)

mutual
/-- Any presence byte but 0 stands for a value. -/
inductive Accepts : (n : Bytes) → AV → Bytes → Prop
  | absent {n b : Bytes} {arr ext : Bool} : Spelled n b arr ext true → Accepts n .nil [0]
  | present {n b : Bytes} {arr ext : Bool} {p : UInt8} {v : AV} {bs : Bytes} : Spelled n b arr ext true → p ≠ 0 → AcceptsBody b arr v bs → Accepts n v (p :: bs)
  | plain {n b : Bytes} {arr ext : Bool} {v : AV} {bs : Bytes} : Spelled n b arr ext false → AcceptsBody b arr v bs → Accepts n v bs
/-- The elements of an array take 16 bytes each in memory. -/
inductive AcceptsBody : (b : Bytes) → (arr : Bool) → AV → Bytes → Prop
  | one {b : Bytes} {v : AV} {bs : Bytes} : AcceptsInner b v bs → AcceptsBody b false v bs
  | many {b : Bytes} {xs : List AV} {p bs : Bytes} : AnyLeb p xs.length → xs.length < 2 ^ 63 → xs.length * 16 ≤ maxAlloc → AcceptsItems b xs bs → AcceptsBody b true (.slice xs) (p ++ bs)
inductive AcceptsItems : (b : Bytes) → List AV → Bytes → Prop
  | nil {b : Bytes} : AcceptsItems b [] []
  | cons {b : Bytes} {x : AV} {xs : List AV} {b1 b2 : Bytes} : AcceptsInner b x b1 → AcceptsItems b xs b2 → AcceptsItems b (x :: xs) (b1 ++ b2)
/-- The map of a struct has one entry for each name, with the value of the last field so named. -/
inductive AcceptsInner : (b : Bytes) → AV → Bytes → Prop
  | alias {b : Bytes} {t : AbiType} {v : AV} {bs : Bytes} : IsAlias a b t → Accepts t.type v bs → AcceptsInner b v bs
  | struct {b : Bytes} {f : AbiField} {fs : List AbiField} {xs m : List (Bytes × AV)} {bs : Bytes} : FieldsOf a b (f :: fs) → AcceptsMembers (f :: fs) xs bs → Gathers xs m →
    AcceptsInner b (.map m) bs
  | variant {b : Bytes} {v : AbiVariant} {i : Nat} {t : Bytes} {x : AV} {p bs : Bytes} : IsVariant a b v → v.types[i]? = some t → AnyLeb p i → Accepts t x bs →
    AcceptsInner b (.slice [.basic .string t, x]) (p ++ bs)
  | builtin {b : Bytes} {v : AV} {bs : Bytes} : NotDefined a b → TakenAs b v bs → AcceptsInner b v bs
  | hollow {b : Bytes} {s : AbiStruct} {v : AV} {bs : Bytes} : IsStruct a b s → (∀ fs, FieldsOf a b fs → fs = []) → TakenAs b v bs → AcceptsInner b v bs
/-- The fields one after the other -/
inductive AcceptsMembers : List AbiField → List (Bytes × AV) → Bytes → Prop
  | nil : AcceptsMembers [] [] []
  | cons {f : AbiField} {fs : List AbiField} {xs : List (Bytes × AV)} {x : AV} {b1 b2 : Bytes} : Accepts f.type x b1 → AcceptsMembers fs xs b2 →
    AcceptsMembers (f :: fs) ((f.name, x) :: xs) (b1 ++ b2)
end
end

/-- No type name in the definition of n, direct or indirect, is that of an extension. -/
def Abi.NoExtension (a : Abi) (n : Bytes) : Prop := ∀ m b arr opt, Reach a n m → ¬ Spelled m b arr true opt

end Verif
