import Verif.Spec.AbiTakes
import Verif.Go.Binary
/-! # What Abi.Decode makes of an input that ends early, with binary extensions

`Accepts` of Spec/AbiTakes says what complete byte strings are read as. Here the whole rest of the input is looked at: a type gives a value and leaves a rest, or stops for want of input
and leaves something in the destination nevertheless. Of the model only the data types and their zero values are used, and which Go release is in use. -/
namespace Verif

/-- The input ends where a LEB128 number should stand: before its first byte, and with older Go releases also after some bytes of it. -/
def CutLeb (s : Bytes) : Prop := s = [] ∨ goLegacyUvarint = true ∧ s.length < 10 ∧ ∀ b ∈ s, 128 ≤ b.toNat

/-- The input ends in a length, or after it and before the first byte of the data. -/
def CutSized (s : Bytes) : Prop := CutLeb s ∨ ∃ n, AnyLeb s n ∧ 0 < n ∧ n ≤ maxAlloc

def Basic.Cut : (b : Basic) → b.Val → Bytes → Prop
  | .string, v, s => v = ([] : Bytes) ∧ CutSized s
  | .int, v, s => v = (0 : Int64) ∧ CutLeb s
  | .uint, v, s => v = (0 : UInt64) ∧ CutLeb s
  | b, v, s => v = b.zero ∧ s = []

/-- After the amount an asset has its amount already. -/
def AssetCut (v : Asset) (s : Bytes) : Prop := v = ⟨0, 0⟩ ∧ s = [] ∨ LeFormI 8 v.value.toInt s ∧ v.symbol = 0

/-- The buffer of an ordinary key has been allocated already; a WebAuthn key has none. -/
def KeyCut (v : PubKey) (s : Bytes) : Prop :=
  v = ⟨0, []⟩ ∧ s = [] ∨ (v.type = 0 ∨ v.type = 1) ∧ v.data = List.replicate 33 0 ∧ s = [v.type] ∨
  v = ⟨2, []⟩ ∧ (s = [2] ∨ ∃ point s', point.length = 34 ∧ CutSized s' ∧ s = 2 :: (point ++ s'))

def SigCut (v : Sig) (s : Bytes) : Prop :=
  v = ⟨0, []⟩ ∧ s = [] ∨ (v.type = 0 ∨ v.type = 1) ∧ v.data = List.replicate 65 0 ∧ s = [v.type] ∨
  v = ⟨2, []⟩ ∧ (s = [2] ∨ ∃ sig s', sig.length = 65 ∧ s = 2 :: (sig ++ s') ∧ (CutSized s' ∨ ∃ ad ad' s'', Sized ad ad' ∧ CutSized s'' ∧ s' = ad ++ s''))

/-- For the types that have a name in the ABI. Numbers of 128 bits are read in two halves. -/
def ChainTy.Cut : (c : ChainTy) → c.Val → Bytes → Prop
  | .bytes, v, s => v = (none : Option Bytes) ∧ CutSized s
  | .int128, v, s => v = (⟨0, 0⟩ : U128) ∧ (s = [] ∨ s.length = 8)
  | .uint128, v, s => v = (⟨0, 0⟩ : U128) ∧ (s = [] ∨ s.length = 8)
  | .asset, v, s => AssetCut v s
  | .extendedAsset, v, s => ExtendedAsset.contract v = 0 ∧ (AssetCut (ExtendedAsset.quantity v) s ∨ AssetLayout (ExtendedAsset.quantity v) s)
  | .publicKey, v, s => KeyCut v s
  | .signature, v, s => SigCut v s
  | c, v, s => v = c.zero ∧ s = []

/-- The input s ends inside the builtin type b, at a place where io.EOF is reported; v is left in the destination. -/
inductive StopsAs : Bytes → AV → Bytes → Prop
  | basic {b : Bytes} {ty : Basic} {x : ty.Val} {s : Bytes} : (b, ty) ∈ abiBasics → ty.Cut x s → StopsAs b (.basic ty x) s
  | chain {b : Bytes} {c : ChainTy} {x : c.Val} {s : Bytes} : (b, c) ∈ abiChains → c.Cut x s → StopsAs b (.chain c x) s
  | bytes {s : Bytes} : CutSized s → StopsAs (asc "bytes") (.chain .bytes (none : Option Bytes)) s

section
variable (a : Abi) (fin : Err)

mutual
/-- From the input s, which ends with the error fin, the type n gives v and leaves r. -/
inductive Gives : (n : Bytes) → (s : Bytes) → AV → (r : Bytes) → Prop
  | absent {n b : Bytes} {arr ext : Bool} {r : Bytes} : Spelled n b arr ext true → Gives n (0 :: r) .nil r
  | present {n b : Bytes} {arr ext : Bool} {p : UInt8} {v : AV} {s r : Bytes} : Spelled n b arr ext true → p ≠ 0 → GivesBody b arr ext s v r → Gives n (p :: s) v r
  | plain {n b : Bytes} {arr ext : Bool} {v : AV} {s r : Bytes} : Spelled n b arr ext false → GivesBody b arr ext s v r → Gives n s v r
/-- An extension may stop; an extension that is an array only at the number of its elements. -/
inductive GivesBody : (b : Bytes) → (arr ext : Bool) → (s : Bytes) → AV → (r : Bytes) → Prop
  | one {b : Bytes} {ext : Bool} {v : AV} {s r : Bytes} : GivesInner b s v r → GivesBody b false ext s v r
  | many {b : Bytes} {ext : Bool} {xs : List AV} {p s r : Bytes} : AnyLeb p xs.length → xs.length < 2 ^ 63 → xs.length * 16 ≤ maxAlloc → GivesItems b s xs r →
    GivesBody b true ext (p ++ s) (.slice xs) r
  | goneOne {b : Bytes} {v : AV} {s : Bytes} : StopsInner b s v → GivesBody b false true s v []
  | goneMany {b : Bytes} {s : Bytes} : fin = .eof → CutLeb s → GivesBody b true true s .nil []
inductive GivesItems : (b : Bytes) → (s : Bytes) → List AV → (r : Bytes) → Prop
  | nil {b s : Bytes} : GivesItems b s [] s
  | cons {b : Bytes} {x : AV} {xs : List AV} {s m r : Bytes} : GivesInner b s x m → GivesItems b m xs r → GivesItems b s (x :: xs) r
inductive GivesInner : (b : Bytes) → (s : Bytes) → AV → (r : Bytes) → Prop
  | alias {b : Bytes} {t : AbiType} {v : AV} {s r : Bytes} : IsAlias a b t → Gives t.type s v r → GivesInner b s v r
  | struct {b : Bytes} {f : AbiField} {fs : List AbiField} {xs m : List (Bytes × AV)} {s r : Bytes} : FieldsOf a b (f :: fs) → GivesMembers (f :: fs) s xs r → Gathers xs m →
    GivesInner b s (.map m) r
  | variant {b : Bytes} {v : AbiVariant} {i : Nat} {t : Bytes} {x : AV} {p s r : Bytes} : IsVariant a b v → v.types[i]? = some t → AnyLeb p i → Gives t s x r →
    GivesInner b (p ++ s) (.slice [.basic .string t, x]) r
  | builtin {b : Bytes} {v : AV} {w r : Bytes} : NotDefined a b → TakenAs b v w → GivesInner b (w ++ r) v r
  | hollow {b : Bytes} {d : AbiStruct} {v : AV} {w r : Bytes} : IsStruct a b d → (∀ fs, FieldsOf a b fs → fs = []) → TakenAs b v w → GivesInner b (w ++ r) v r
inductive GivesMembers : List AbiField → (s : Bytes) → List (Bytes × AV) → (r : Bytes) → Prop
  | nil {s : Bytes} : GivesMembers [] s [] s
  | cons {f : AbiField} {fs : List AbiField} {xs : List (Bytes × AV)} {x : AV} {s m r : Bytes} : Gives f.type s x m → GivesMembers fs m xs r → GivesMembers (f :: fs) s ((f.name, x) :: xs) r
/-- The input s is used up by the type n, io.EOF is the result and v is left in the destination. A presence byte that is missing is no excuse for an extension. -/
inductive StopsIn : (n : Bytes) → (s : Bytes) → AV → Prop
  | mark {n b : Bytes} {arr ext : Bool} : fin = .eof → Spelled n b arr ext true → StopsIn n [] .nil
  | present {n b : Bytes} {arr ext : Bool} {p : UInt8} {v : AV} {s : Bytes} : Spelled n b arr ext true → p ≠ 0 → StopsBody b arr ext s v → StopsIn n (p :: s) v
  | plain {n b : Bytes} {arr ext : Bool} {v : AV} {s : Bytes} : Spelled n b arr ext false → StopsBody b arr ext s v → StopsIn n s v
inductive StopsBody : (b : Bytes) → (arr ext : Bool) → (s : Bytes) → AV → Prop
  | one {b : Bytes} {v : AV} {s : Bytes} : StopsInner b s v → StopsBody b false false s v
  | count {b : Bytes} {s : Bytes} : fin = .eof → CutLeb s → StopsBody b true false s .nil
  | element {b : Bytes} {ext : Bool} {n : Nat} {p s : Bytes} : AnyLeb p n → n < 2 ^ 63 → n * 16 ≤ maxAlloc → StopsItems b n s → StopsBody b true ext (p ++ s) .nil
/-- One of n elements -/
inductive StopsItems : (b : Bytes) → (n : Nat) → (s : Bytes) → Prop
  | here {b : Bytes} {n : Nat} {s : Bytes} {v : AV} : StopsInner b s v → StopsItems b (n + 1) s
  | later {b : Bytes} {n : Nat} {s m : Bytes} {x : AV} : GivesInner b s x m → StopsItems b n m → StopsItems b (n + 1) s
inductive StopsInner : (b : Bytes) → (s : Bytes) → AV → Prop
  | alias {b : Bytes} {t : AbiType} {v : AV} {s : Bytes} : IsAlias a b t → StopsIn t.type s v → StopsInner b s v
  | struct {b : Bytes} {f : AbiField} {fs : List AbiField} {s : Bytes} : FieldsOf a b (f :: fs) → StopsMembers (f :: fs) s → StopsInner b s .nil
  | index {b : Bytes} {v : AbiVariant} {s : Bytes} : fin = .eof → IsVariant a b v → CutLeb s → StopsInner b s .nil
  | chosen {b : Bytes} {v : AbiVariant} {i : Nat} {t : Bytes} {x : AV} {p s : Bytes} : IsVariant a b v → v.types[i]? = some t → AnyLeb p i → StopsIn t s x → StopsInner b (p ++ s) .nil
  | builtin {b : Bytes} {v : AV} {s : Bytes} : fin = .eof → NotDefined a b → StopsAs b v s → StopsInner b s v
  | hollow {b : Bytes} {d : AbiStruct} {v : AV} {s : Bytes} : fin = .eof → IsStruct a b d → (∀ fs, FieldsOf a b fs → fs = []) → StopsAs b v s → StopsInner b s v
/-- One of the fields -/
inductive StopsMembers : List AbiField → (s : Bytes) → Prop
  | here {f : AbiField} {fs : List AbiField} {v : AV} {s : Bytes} : StopsIn f.type s v → StopsMembers (f :: fs) s
  | later {f : AbiField} {fs : List AbiField} {x : AV} {s m : Bytes} : Gives f.type s x m → StopsMembers fs m → StopsMembers (f :: fs) s
end
end

end Verif
