import Verif.Lemmas.MemoryEncode
import Verif.Props.Memory
import Verif.Props.Reflect
/-! C104: Encode and shared memory; copies by way of Encode and Decode. -/
namespace Verif

/-- Encode of a variable writes, fails and panics as Encode of the value it holds, however much of its memory is reached in several ways. -/
theorem C104_encode (t : Ty) (p : Nat) (h : Heap) (x : t.Raw) (v : t.Val) (g : List Nat) (hp : h[p]? = some (.var t x)) (hh : t.Holds h x v g) : encodeAt h t p = encode t v := by
  unfold encodeAt
  rw [heap_load hp (asVar_self t x)]
  exact encodeMem_eq t x v g hh

/-- Memory that is not part of the variable has no influence. -/
theorem C104_local (t : Ty) (p : Nat) (h h' : Heap) (x : t.Raw) (v : t.Val) (g : List Nat) (hp : h[p]? = some (.var t x)) (hh : t.Holds h x v g) (hs : ∀ i ∈ p :: g, h'[i]? = h[i]?) :
    encodeAt h' t p = encodeAt h t p := by
  rw [C104_encode t p h x v g hp hh]
  exact C104_encode t p h' x v g ((hs p List.mem_cons_self).trans hp) ((isLocal_ty t).frame hh fun i hi => hs i (List.mem_cons_of_mem _ hi))

/-- Encode the variable at p, then Decode what was written into the zero variable at q: q holds a copy, in new memory only, without sharing; p still holds its value, in the same memory. -/
theorem C104_copy (t : Ty) (he : t.Encodable) (hd : t.Decodable .decode) (p q : Nat) (h : Heap) (x : t.Raw) (v : t.Val) (g : List Nat) (hp : h[p]? = some (.var t x)) (hh : t.Holds h x v g)
    (hv : t.Wf v) (hq : h[q]? = some (.var t t.rawZero)) (hne : q ∉ p :: g) (fin : Err) (r : Bytes) :
    ∃ bs h' v' g', (encodeAt h t p).Writes bs ∧ (decodeAt t q h).runE fin (bs ++ r) = .ok (none, h') r ∧ t.Same v v' ∧ h'.At t q v' g' ∧ (∀ i ∈ g', h.length ≤ i) ∧
      h'[p]? = some (.var t x) ∧ t.Holds h' x v g := by
  obtain ⟨bs, hl, hw⟩ := C40_layout t v he hv
  obtain ⟨v', hs, hr⟩ := C40_reads t v t.zero bs hd hv (clean_zero t) hl
  obtain ⟨h', g', h1, h2, h3, h4⟩ := C100_fresh t q h hq fin (bs ++ r) v' none r (hr fin r)
  have same : ∀ i ∈ p :: g, h'[i]? = h[i]? := fun i hi => by
    refine h3 i ?_ fun e => hne (e ▸ hi)
    rcases List.mem_cons.1 hi with rfl | hi
    · exact lt_of_get hp
    · exact (isLocal_ty t).bound hh i hi
  refine ⟨bs, h', v', g', ?_, h1, hs, h2, h4, (same p List.mem_cons_self).trans hp, (isLocal_ty t).frame hh fun i hi => same i (List.mem_cons_of_mem _ hi)⟩
  rw [C104_encode t p h x v g hp hh]
  exact hw

/-- Whatever is done to the copy afterwards by writing to its memory or to memory allocated later leaves the original as it is, and the other way round. -/
theorem C104_independent (t : Ty) (p q n : Nat) (h h' : Heap) (x y : t.Raw) (v w : t.Val) (g k : List Nat) (hp : h[p]? = some (.var t x)) (hh : t.Holds h x v g)
    (hq : h[q]? = some (.var t y)) (hk : t.Holds h y w k) (hn : ∀ i ∈ p :: g, i < n) (hq' : q ∉ p :: g) (hk' : ∀ i ∈ k, n ≤ i) :
    (h.Kept h' (q :: k) → h'[p]? = some (.var t x) ∧ t.Holds h' x v g) ∧ (h.Kept h' (p :: g) → h'[q]? = some (.var t y) ∧ t.Holds h' y w k) := by
  have bp : ∀ i ∈ p :: g, i < h.length := fun i hi => by
    rcases List.mem_cons.1 hi with rfl | hi
    · exact lt_of_get hp
    · exact (isLocal_ty t).bound hh i hi
  have bq : ∀ i ∈ q :: k, i < h.length := fun i hi => by
    rcases List.mem_cons.1 hi with rfl | hi
    · exact lt_of_get hq
    · exact (isLocal_ty t).bound hk i hi
  have apart : ∀ i ∈ p :: g, i ∉ q :: k := fun i hi hm => by
    rcases List.mem_cons.1 hm with rfl | hm
    · exact hq' hi
    · exact absurd (hn i hi) (Nat.not_lt.2 (hk' i hm))
  constructor
  · intro hK
    have same : ∀ i ∈ p :: g, h'[i]? = h[i]? := fun i hi => hK.2 i (bp i hi) (apart i hi)
    exact ⟨(same p List.mem_cons_self).trans hp, (isLocal_ty t).frame hh fun i hi => same i (List.mem_cons_of_mem _ hi)⟩
  · intro hK
    have same : ∀ i ∈ q :: k, h'[i]? = h[i]? := fun i hi => hK.2 i (bq i hi) fun hm => apart i hm hi
    exact ⟨(same q List.mem_cons_self).trans hq, (isLocal_ty t).frame hk fun i hi => same i (List.mem_cons_of_mem _ hi)⟩

/-! ## Examples -/

/-- struct { A *uint16; B []uint16 "optional"; C *uint16 } -/
private abbrev Shared : Ty := .struct (.cons .exported .none (.ptr (.basic .u16)) (.cons .exported .optional (.slice (.basic .u16)) (.cons .exported .none (.ptr (.basic .u16)) .nil)))
private abbrev sharedVar (a b c : Option Nat) : Cell := .var Shared ((a, (b, (c, ()))) : Option Nat × Option Nat × Option Nat × Unit)
/-- A and C are the same pointer -/
private abbrev sharedHeap : Heap := [sharedVar (some 2) (some 3) (some 2), sharedVar none none none, .var (.basic .u16) (7 : UInt16), .arr (.basic .u16) ([8, 9] : List UInt16)]

private theorem shared_holds : Shared.Holds sharedHeap ((some 2, (some 3, (some 2, ()))) : Option Nat × Option Nat × Option Nat × Unit)
    ((some 7, (some [8, 9], (some 7, ()))) : Option UInt16 × Option (List UInt16) × Option UInt16 × Unit) [2, 3, 2] :=
  ⟨[2], [3, 2], rfl, .inr ⟨2, (7 : UInt16), (7 : UInt16), [], rfl, rfl, rfl, ⟨rfl, rfl⟩, rfl⟩, [3], [2], rfl,
    .inr ⟨3, ([8, 9] : List UInt16), ([8, 9] : List UInt16), [], rfl, rfl, rfl, ⟨[], [], rfl, ⟨rfl, rfl⟩, [], [], rfl, ⟨rfl, rfl⟩, rfl⟩, rfl⟩,
    [2], [], rfl, .inr ⟨2, (7 : UInt16), (7 : UInt16), [], rfl, rfl, rfl, ⟨rfl, rfl⟩, rfl⟩, rfl⟩

/-- A copy need not have the sharing of the original: here two fields are the same pointer in the original and different ones in the copy. -/
theorem C104_sharing_violated : ∃ (bs : Bytes) (h' : Heap) (a b c : Nat), (encodeAt sharedHeap Shared 0).Writes bs ∧ (decodeAt Shared 1 sharedHeap).runE .eof bs = .ok (none, h') [] ∧
    sharedHeap[0]? = some (sharedVar (some 2) (some 3) (some 2)) ∧ h'[1]? = some (sharedVar (some a) (some b) (some c)) ∧ a ≠ c :=
  ⟨[7, 0, 1, 2, 8, 0, 9, 0, 7, 0], _, 4, 5, 6, rfl, rfl, rfl, rfl, by decide⟩

example : encodeAt sharedHeap Shared 0 = encode Shared ((some 7, (some [8, 9], (some 7, ()))) : Option UInt16 × Option (List UInt16) × Option UInt16 × Unit) :=
  C104_encode Shared 0 sharedHeap _ _ _ rfl shared_holds

/-- The hypotheses of C104_copy are met by this variable. -/
example := C104_copy Shared ⟨rfl, trivial, rfl, trivial, rfl, trivial, trivial⟩
  ⟨rfl, by decide, (fun h => nomatch h), rfl, by decide, (fun h => nomatch h), rfl, by decide, (fun h => nomatch h), trivial⟩ 0 1 sharedHeap _ _ _ rfl shared_holds
  ⟨.inr ⟨(7 : UInt16), rfl, trivial⟩, .inr ⟨by decide, by decide, fun _ _ => trivial⟩, .inr ⟨(7 : UInt16), rfl, trivial⟩, trivial⟩ rfl (by decide) .eof []

end Verif
