import Verif.Spec.AbiSends
/-! # How Abi.Encode refuses a value

Of the model only the data types are used, and the texts of the errors. -/
namespace Verif

/-- How Encode ends without success: an error after the bytes `out` were written, a panic, or endless recursion -/
inductive Break where
  | error (e : Err) (out : Bytes)
  | panics
  | endless

/-- The same after more bytes -/
def Break.after (p : Bytes) : Break → Break
  | .error e out => .error e (p ++ out)
  | .panics => .panics
  | .endless => .endless

/-- A builtin type refuses values of other Go types; and strings and numbers that the varuint writer does not take (C03) make it panic. -/
inductive BreaksBuiltin : Bytes → AV → Break → Prop
  | type {b : Bytes} {v : AV} : ¬ GoTyped b v → BreaksBuiltin b v (.error errExpectedType [])
  | range {b : Bytes} {ty : Basic} {x : ty.Val} : (b, ty) ∈ abiBasics → ¬ ty.Wf x → BreaksBuiltin b (.basic ty x) .panics

section
variable (a : Abi)

/-- n is an alias, of an alias, and so on without end. -/
def AliasCircle (n : Bytes) : Prop := ∃ S : Bytes → Prop, S n ∧ ∀ m, S m → ∃ b ext opt t, Spelled m b false ext opt ∧ IsAlias a b t ∧ S t.type

mutual
/-- The first thing, in the order of the wire, that Encode cannot write in the value v of the type with name n -/
inductive Breaks : (n : Bytes) → AV → Break → Prop
  | circle {n : Bytes} {v : AV} : AliasCircle a n → v ≠ .nil → Breaks n v .endless
  | missing {n b : Bytes} {arr ext : Bool} : Spelled n b arr ext false → Breaks n .nil (.error errFoundNil [])
  | present {n b : Bytes} {arr ext : Bool} {v : AV} {w : Break} : Spelled n b arr ext true → v ≠ .nil → BreaksBody b arr v w → Breaks n v (w.after [1])
  | plain {n b : Bytes} {arr ext : Bool} {v : AV} {w : Break} : Spelled n b arr ext false → v ≠ .nil → BreaksBody b arr v w → Breaks n v w
inductive BreaksBody : (b : Bytes) → (arr : Bool) → AV → Break → Prop
  | one {b : Bytes} {v : AV} {w : Break} : BreaksInner b v w → BreaksBody b false v w
  | notSlice {b : Bytes} {v : AV} : (∀ xs, v ≠ .slice xs) → BreaksBody b true v (.error errExpectedSlice [])
  | long {b : Bytes} {xs : List AV} : 2 ^ 28 ≤ xs.length → BreaksBody b true (.slice xs) .panics
  | many {b : Bytes} {xs : List AV} {p : Bytes} {w : Break} : Count p xs.length → BreaksItems b xs w → BreaksBody b true (.slice xs) (w.after p)
inductive BreaksItems : (b : Bytes) → List AV → Break → Prop
  | here {b : Bytes} {x : AV} {xs : List AV} {w : Break} : BreaksInner b x w → BreaksItems b (x :: xs) w
  | later {b : Bytes} {x : AV} {xs : List AV} {bs : Bytes} {w : Break} : Inner a SendsAs false b x bs → BreaksItems b xs w → BreaksItems b (x :: xs) (w.after bs)
/-- Elements of arrays come here, so that nil is not refused for what it is. -/
inductive BreaksInner : (b : Bytes) → AV → Break → Prop
  | alias {b : Bytes} {t : AbiType} {v : AV} {w : Break} : IsAlias a b t → Breaks t.type v w → BreaksInner b v w
  | notMap {b : Bytes} {f : AbiField} {fs : List AbiField} {v : AV} : FieldsOf a b (f :: fs) → (∀ m, v ≠ .map m) → BreaksInner b v (.error errExpectedMap [])
  | struct {b : Bytes} {f : AbiField} {fs : List AbiField} {m : List (Bytes × AV)} {w : Break} : FieldsOf a b (f :: fs) → BreaksMembers (f :: fs) m w → BreaksInner b (.map m) w
  | notPair {b : Bytes} {k : AbiVariant} {v : AV} : IsVariant a b k → (∀ xs, v ≠ .slice xs) → BreaksInner b v (.error errExpectedSlice [])
  | notTwo {b : Bytes} {k : AbiVariant} {xs : List AV} : IsVariant a b k → xs.length ≠ 2 → BreaksInner b (.slice xs) (.error errExpectedTwo [])
  | notName {b : Bytes} {k : AbiVariant} {x y : AV} : IsVariant a b k → (∀ s : Bytes, x ≠ .basic .string s) → BreaksInner b (.slice [x, y]) (.error errVariantName [])
  | notMember {b : Bytes} {k : AbiVariant} {s : Bytes} {y : AV} : IsVariant a b k → s ∉ k.types → BreaksInner b (.slice [.basic .string s, y]) (.error errUnknownVariant [])
  | farMember {b : Bytes} {k : AbiVariant} {pre post : List Bytes} {t : Bytes} {y : AV} : IsVariant a b k → k.types = pre ++ t :: post → t ∉ pre → 2 ^ 28 ≤ pre.length →
    BreaksInner b (.slice [.basic .string t, y]) .panics
  | variant {b : Bytes} {k : AbiVariant} {pre post : List Bytes} {t : Bytes} {y : AV} {p : Bytes} {w : Break} : IsVariant a b k → k.types = pre ++ t :: post → t ∉ pre →
    Count p pre.length → Breaks t y w → BreaksInner b (.slice [.basic .string t, y]) (w.after p)
  | builtin {b : Bytes} {v : AV} {w : Break} : NotDefined a b → BreaksBuiltin b v w → BreaksInner b v w
  | hollow {b : Bytes} {s : AbiStruct} {v : AV} {w : Break} : IsStruct a b s → (∀ fs, FieldsOf a b fs → fs = []) → BreaksBuiltin b v w → BreaksInner b v w
inductive BreaksMembers : List AbiField → (m : List (Bytes × AV)) → Break → Prop
  | here {f : AbiField} {fs : List AbiField} {m : List (Bytes × AV)} {x : AV} {w : Break} : Entry m f.name x → Breaks f.type x w → BreaksMembers (f :: fs) m w
  | later {f : AbiField} {fs : List AbiField} {m : List (Bytes × AV)} {x : AV} {bs : Bytes} {w : Break} : Entry m f.name x → Wire a SendsAs false f.type x bs →
    BreaksMembers fs m w → BreaksMembers (f :: fs) m (w.after bs)
end
end

end Verif
