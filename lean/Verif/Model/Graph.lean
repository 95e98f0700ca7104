import Verif.Model.Recursive
/-! # Values of recursive types whose pointers share or form cycles

In Go the declared structs of a value lie in memory, and any number of pointers, slices and maps may lead to the same one, also from inside it. Here such a
struct has an address, and a place of a declared type holds the address of a struct (a place that holds the struct itself, not a pointer to it, as well). Encode
follows the pointers (encode.go:79-155) and keeps no record of where it has been, so what it sees is the tree of all paths; `Ty.follow` is this tree n levels
deep, to be read as in Model/Recursive: a tree that is looked into beyond that is `diverge`.
Simplified: only the structs of declared types have addresses. That other pointers may share does not change what Encode does (C104); a cycle always passes through
a declared type, as other types are finite. -/
namespace Verif

/-- In the place of a declared type: an address -/
def addrTy : Nat → Nat → Nat → Ty := fun _ _ _ => .basic .u64

/-- The memory: the fields of the struct of the declared type i at an address, with addresses in the place of other structs -/
abbrev Graph (D : Decls) := (i : Nat) → UInt64 → ((D i).subst addrTy).Val

/-- The struct at an address as Encode (encode.go:79-155) sees it, n levels deep -/
def Graph.follow {D : Decls} (G : Graph D) : (n i s a : Nat) → (addrTy i s a).Val → (D.level n i s a).Val
  | 0, _, _, _, _ => ()
  | n + 1, i, _, _, p => Fields.mapRefs (G.follow n) (D i) (G i p)

/-- A value with addresses as Encode (encode.go:79-155) sees it, n levels deep -/
def Ty.follow {D : Decls} (t : Ty) (G : Graph D) (n : Nat) (v : (t.subst addrTy).Val) : (t.unfold D n).Val := t.mapRefs (G.follow n) v

end Verif
