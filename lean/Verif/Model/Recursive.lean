import Verif.Model.Reflect
/-! # Recursive struct types in pkg/abi/encode.go, pkg/abi/decode.go

`Encode` and `Decode` follow the type of the value as far as the value or the input asks for (encode.go:79-155, decode.go:143-308), so a type may mention
itself: `type T struct { A uint64; Next *T }`. Declared struct types are numbered, and a type mentions them by `Ty.ref`. `Ty.unfold` replaces the references,
n levels deep, by the declarations; what is still a reference then counts as `diverge` when it is looked into. The outcome of the code is the outcome at
any depth at which this does not happen (the outcomes agree, Props/Recursive); if it happens at every depth, the code recurses until the stack of the
goroutine is exhausted. Values are finite trees: values whose pointers share or form cycles are in Model/Graph. -/
namespace Verif

/-- The fields of the declared struct types -/
abbrev Decls := Nat → Fields

mutual
/-- Put `σ i size align` in the place of every reference. Keys of maps hold no pointers in this model, so no references. -/
def Ty.subst (σ : Nat → Nat → Nat → Ty) : Ty → Ty
  | .basic b => .basic b
  | .named b => .named b
  | .unsupported => .unsupported
  | .bytes => .bytes
  | .chain c => .chain c
  | .ptr t => .ptr (t.subst σ)
  | .slice t => .slice (t.subst σ)
  | .array n t => .array n (t.subst σ)
  | .map k e => .map k (e.subst σ)
  | .struct fs => .struct (fs.subst σ)
  | .ref i s a => σ i s a
/-- Replace the names in the types of the fields -/
def Fields.subst (σ : Nat → Nat → Nat → Ty) : Fields → Fields
  | .nil => .nil
  | .cons vis tag t fs => .cons vis tag (t.subst σ) (fs.subst σ)
end

/-- The declared type i, n levels deep -/
def Decls.level (D : Decls) : Nat → Nat → Nat → Nat → Ty
  | 0, i, s, a => .ref i s a
  | n + 1, i, _, _ => .struct ((D i).subst (D.level n))

/-- The type t with its references replaced, n levels deep -/
def Ty.unfold (D : Decls) (n : Nat) (t : Ty) : Ty := t.subst (D.level n)

mutual
/-- Change the parts of a value that are at the references of t. -/
def Ty.mapRefs {σ τ : Nat → Nat → Nat → Ty} (f : ∀ i s a, (σ i s a).Val → (τ i s a).Val) : (t : Ty) → (t.subst σ).Val → (t.subst τ).Val
  | .basic _, v => v
  | .named _, v => v
  | .unsupported, v => v
  | .bytes, v => v
  | .chain _, v => v
  | .ptr t, v => Option.map (Ty.mapRefs f t) (show Option (t.subst σ).Val from v)
  | .slice t, v => Option.map (List.map (Ty.mapRefs f t)) (show Option (List (t.subst σ).Val) from v)
  | .array _ t, v => List.map (Ty.mapRefs f t) (show List (t.subst σ).Val from v)
  | .map k e, v => Option.map (List.map fun x : k.Val × (e.subst σ).Val => (x.1, Ty.mapRefs f e x.2)) (show Option (List (k.Val × (e.subst σ).Val)) from v)
  | .struct fs, v => Fields.mapRefs f fs v
  | .ref i s a, v => f i s a v
/-- Map the parts of the values that lie at names -/
def Fields.mapRefs {σ τ : Nat → Nat → Nat → Ty} (f : ∀ i s a, (σ i s a).Val → (τ i s a).Val) : (fs : Fields) → (fs.subst σ).Val → (fs.subst τ).Val
  | .nil, v => v
  | .cons _ _ t fs, v => (Ty.mapRefs f t (show (t.subst σ).Val × (fs.subst σ).Val from v).1, Fields.mapRefs f fs (show (t.subst σ).Val × (fs.subst σ).Val from v).2)
end

/-- A value of a declared type as a value of the type unfolded once more; what was not looked into is the zero value. -/
def Decls.up (D : Decls) : (n i s a : Nat) → (D.level n i s a).Val → (D.level (n + 1) i s a).Val
  | 0, i, s, a, _ => (D.level 1 i s a).zero
  | n + 1, i, _, _, v => Fields.mapRefs (D.up n) (D i) v

/-- A value of t unfolded n levels deep as a value of t unfolded n + k levels deep. -/
def Ty.lift (D : Decls) (t : Ty) {n : Nat} : (k : Nat) → (t.unfold D n).Val → (t.unfold D (n + k)).Val
  | 0, v => v
  | k + 1, v => Ty.mapRefs (D.up (n + k)) t (Ty.lift D t k v)

end Verif
