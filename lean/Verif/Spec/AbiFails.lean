import Verif.Spec.AbiEnds
import Verif.Spec.Fails
/-! # How Abi.Decode refuses an input

What comes before the place of the failure is read as `Gives` of Spec/AbiEnds says; how single values fail says Spec/Fails. Of the model only the data types are used, and the texts of the
errors. -/
namespace Verif

/-- A type that is not defined in the ABI: as the builtin type of this name fails; every other name is refused. -/
inductive FailsAs (fin : Err) : (b s : Bytes) → Failure → Prop
  | basic {b : Bytes} {ty : Basic} {s : Bytes} {x : Failure} : (b, ty) ∈ abiBasics → ty.Failure fin s x → FailsAs fin b s x
  | chain {b : Bytes} {c : ChainTy} {s : Bytes} {x : Failure} : (b, c) ∈ abiChains → c.Failure fin s x → FailsAs fin b s x
  | bytes {s : Bytes} {x : Failure} : SizedFault fin s x → FailsAs fin (asc "bytes") s x
  | unknown {b s : Bytes} : (∀ ty, (b, ty) ∉ abiBasics) → (∀ c, (b, c) ∉ abiChains) → b ≠ asc "bytes" → FailsAs fin b s (.err errUnknownType)

/-- io.EOF, which is no failure of an extension -/
def Excused (ext : Bool) (x : Failure) : Prop := ext = true ∧ x = .err .eof

/-- The messages of `Abi.Decode`. -/
def abiDecodeMessages : List String := ["binary: varint overflows a 64-bit integer", "abi: read with negative count", "unknown key type", "unknown type", "invalid variant index"]

/-- The error of the reader, where io.EOF may be replaced, or one of the messages above, or a panic. -/
def Failure.Told (fin : Err) : Failure → Prop
  | .err e => e = fin ∨ fin = .eof ∧ e = .unexpectedEOF ∨ ∃ msg ∈ abiDecodeMessages, e = .msg msg
  | .panic => True
  | .endless => False

section
variable (a : Abi) (fin : Err)

mutual
/-- The type n refuses the input s, which ends with the error fin. -/
inductive FailsIn : (n s : Bytes) → Failure → Prop
  | mark {n b : Bytes} {arr ext : Bool} {s : Bytes} {x : Failure} : Spelled n b arr ext true → Torn 1 fin s x → FailsIn n s x
  | present {n b : Bytes} {arr ext : Bool} {p : UInt8} {s : Bytes} {x : Failure} : Spelled n b arr ext true → p ≠ 0 → FailsBody b arr ext s x → FailsIn n (p :: s) x
  | plain {n b : Bytes} {arr ext : Bool} {s : Bytes} {x : Failure} : Spelled n b arr ext false → FailsBody b arr ext s x → FailsIn n s x
/-- The elements of an array are interfaces of 16 bytes each. -/
inductive FailsBody : (b : Bytes) → (arr ext : Bool) → (s : Bytes) → Failure → Prop
  | one {b : Bytes} {ext : Bool} {s : Bytes} {x : Failure} : FailsInner b s x → ¬ Excused ext x → FailsBody b false ext s x
  | count {b : Bytes} {ext : Bool} {s : Bytes} {x : Failure} : LebFault fin s x → ¬ Excused ext x → FailsBody b true ext s x
  | large {b : Bytes} {ext : Bool} {n : Nat} {p s : Bytes} : AnyLeb p n → (2 ^ 63 ≤ n ∨ maxAlloc < n * 16) → FailsBody b true ext (p ++ s) .panic
  | element {b : Bytes} {ext : Bool} {n : Nat} {p s : Bytes} {x : Failure} : AnyLeb p n → n < 2 ^ 63 → n * 16 ≤ maxAlloc → FailsItems b n s x → FailsBody b true ext (p ++ s) x
/-- One of n elements -/
inductive FailsItems : (b : Bytes) → (n : Nat) → (s : Bytes) → Failure → Prop
  | here {b : Bytes} {n : Nat} {s : Bytes} {x : Failure} : FailsInner b s x → FailsItems b (n + 1) s x
  | later {b : Bytes} {n : Nat} {s m : Bytes} {v : AV} {x : Failure} : GivesInner a fin b s v m → FailsItems b n m x → FailsItems b (n + 1) s x
/-- The number of a member of a variant is compared as an int: negative ones are not refused but panic. -/
inductive FailsInner : (b s : Bytes) → Failure → Prop
  | alias {b : Bytes} {t : AbiType} {s : Bytes} {x : Failure} : IsAlias a b t → FailsIn t.type s x → FailsInner b s x
  | struct {b : Bytes} {f : AbiField} {fs : List AbiField} {s : Bytes} {x : Failure} : FieldsOf a b (f :: fs) → FailsMembers (f :: fs) s x → FailsInner b s x
  | index {b : Bytes} {v : AbiVariant} {s : Bytes} {x : Failure} : IsVariant a b v → LebFault fin s x → FailsInner b s x
  | noMember {b : Bytes} {v : AbiVariant} {i : Nat} {p s : Bytes} : IsVariant a b v → AnyLeb p i → v.types.length ≤ i → i < 2 ^ 63 → FailsInner b (p ++ s) (.err errAbiVariantIndex)
  | negative {b : Bytes} {v : AbiVariant} {i : Nat} {p s : Bytes} : IsVariant a b v → AnyLeb p i → v.types.length ≤ i → 2 ^ 63 ≤ i → FailsInner b (p ++ s) .panic
  | chosen {b : Bytes} {v : AbiVariant} {i : Nat} {t : Bytes} {p s : Bytes} {x : Failure} : IsVariant a b v → v.types[i]? = some t → AnyLeb p i → FailsIn t s x → FailsInner b (p ++ s) x
  | builtin {b s : Bytes} {x : Failure} : NotDefined a b → FailsAs fin b s x → FailsInner b s x
  | hollow {b : Bytes} {d : AbiStruct} {s : Bytes} {x : Failure} : IsStruct a b d → (∀ fs, FieldsOf a b fs → fs = []) → FailsAs fin b s x → FailsInner b s x
/-- One of the fields -/
inductive FailsMembers : List AbiField → (s : Bytes) → Failure → Prop
  | here {f : AbiField} {fs : List AbiField} {s : Bytes} {x : Failure} : FailsIn f.type s x → FailsMembers (f :: fs) s x
  | later {f : AbiField} {fs : List AbiField} {v : AV} {s m : Bytes} {x : Failure} : Gives a fin f.type s v m → FailsMembers fs m x → FailsMembers (f :: fs) s x
end

/-! ## Recursion -/

/-- One of the fields is of type m and is read from q. -/
inductive CallsMember : List AbiField → (s m q : Bytes) → Prop
  | here {f : AbiField} {fs : List AbiField} {s : Bytes} : CallsMember (f :: fs) s f.type s
  | later {f : AbiField} {fs : List AbiField} {v : AV} {s s' m q : Bytes} : Gives a fin f.type s v s' → CallsMember fs s' m q → CallsMember (f :: fs) s m q
/-- A value of the type with base name b, read from s, contains one of the type m, read from q. -/
inductive CallsInner : (b s m q : Bytes) → Prop
  | alias {b : Bytes} {t : AbiType} {s : Bytes} : IsAlias a b t → CallsInner b s t.type s
  | struct {b : Bytes} {f : AbiField} {fs : List AbiField} {s m q : Bytes} : FieldsOf a b (f :: fs) → CallsMember a fin (f :: fs) s m q → CallsInner b s m q
  | variant {b : Bytes} {v : AbiVariant} {i : Nat} {t : Bytes} {p s : Bytes} : IsVariant a b v → v.types[i]? = some t → AnyLeb p i → CallsInner b (p ++ s) t s
/-- One of n elements does. -/
inductive CallsItem : (b : Bytes) → (n : Nat) → (s m q : Bytes) → Prop
  | here {b : Bytes} {n : Nat} {s m q : Bytes} : CallsInner a fin b s m q → CallsItem b (n + 1) s m q
  | later {b : Bytes} {n : Nat} {s s' m q : Bytes} {v : AV} : GivesInner a fin b s v s' → CallsItem b n s' m q → CallsItem b (n + 1) s m q
inductive CallsBody : (b : Bytes) → (arr : Bool) → (s m q : Bytes) → Prop
  | one {b s m q : Bytes} : CallsInner a fin b s m q → CallsBody b false s m q
  | many {b : Bytes} {n : Nat} {p s m q : Bytes} : AnyLeb p n → n < 2 ^ 63 → n * 16 ≤ maxAlloc → CallsItem a fin b n s m q → CallsBody b true (p ++ s) m q
/-- To read n from s, m is read from q. -/
inductive CallsIn : (n s m q : Bytes) → Prop
  | present {n b : Bytes} {arr ext : Bool} {p : UInt8} {s m q : Bytes} : Spelled n b arr ext true → p ≠ 0 → CallsBody a fin b arr s m q → CallsIn n (p :: s) m q
  | plain {n b : Bytes} {arr ext : Bool} {s m q : Bytes} : Spelled n b arr ext false → CallsBody a fin b arr s m q → CallsIn n s m q

/-- One call inside another, without end. -/
def Endless (n s : Bytes) : Prop := ∃ S : Bytes → Bytes → Prop, S n s ∧ ∀ m q, S m q → ∃ m' q', CallsIn a fin m q m' q' ∧ S m' q'
end

end Verif
