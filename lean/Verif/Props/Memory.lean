import Verif.Lemmas.Memory
/-! # C100: `Decode` and shared memory

pkg/abi/decode.go:30-308, :454-520, with pointers, slices and maps as addresses in memory. -/
namespace Verif

/-- Whatever the reader does: decoding into memory reads, panics and fails as decoding a value, and the variable then holds the decoded value. Nothing in it is
reached in two ways; memory changes only where the previous content was, and the new content lies there or in new memory. -/
theorem C100_reader (t : Ty) (p : Nat) (h : Heap) (v : t.Val) (g : List Nat) (ha : h.At t p v g) :
    (decode t v).Alike (fun w b => w.2 = b.1 ∧ ∃ g', b.2.At t p w.1 g' ∧ h.Kept b.2 (p :: g) ∧ h.Owned (p :: g) g') (decodeAt t p h) := by
  obtain ⟨y, hc, hy, hn⟩ := ha
  refine (follows_at (decodeMem_follows t .decode) hc hy hn).mono ?_
  rintro w b ⟨h1, h2, y', g', h3, h4, h5, h6⟩
  exact ⟨h1, g', ⟨y', h3, h4, h5⟩, h2, fun i hi => h6 i (List.mem_cons_of_mem _ hi)⟩

/-- The same for DecodeVariant. -/
theorem C100_variant (t : Ty) (p : Nat) (h : Heap) (v : t.Val) (g : List Nat) (ha : h.At t p v g) :
    (decodeVariant t v).Alike (fun w b => w.2 = b.1 ∧ ∃ g', b.2.At t p w.1 g' ∧ h.Kept b.2 (p :: g) ∧ h.Owned (p :: g) g') (decodeVariantAt t p h) := by
  unfold decodeVariant decodeVariantAt
  refine alike_of readByte ?_
  rintro ⟨i, o⟩
  cases o with
  | some e => exact .ret ⟨rfl, g, ha, kept_refl _ _, fun i hi => .inl (List.mem_cons_of_mem _ hi)⟩
  | none =>
    obtain ⟨y, hc, hy, hn⟩ := ha
    refine (follows_at (decodeMem_follows t (.variant i.toNat)) hc hy hn).mono ?_
    rintro w b ⟨h1, h2, y', g', h3, h4, h5, h6⟩
    exact ⟨h1, g', ⟨y', h3, h4, h5⟩, h2, fun i hi => h6 i (List.mem_cons_of_mem _ hi)⟩

/-- On any input. -/
theorem C100_decode (t : Ty) (p : Nat) (h : Heap) (v : t.Val) (g : List Nat) (ha : h.At t p v g) (fin : Err) (s : Bytes) :
    match (decode t v).runE fin s with
    | .ok (w, o) r => ∃ h' g', (decodeAt t p h).runE fin s = .ok (o, h') r ∧ h'.At t p w g' ∧ h.Kept h' (p :: g) ∧ h.Owned (p :: g) g'
    | .panic m => (decodeAt t p h).runE fin s = .panic m
    | .diverge => (decodeAt t p h).runE fin s = .diverge := by
  have := alike_runE (C100_reader t p h v g ha) fin s
  revert this
  cases (decode t v).runE fin s with
  | panic m => exact id
  | diverge => exact id
  | ok w r =>
    obtain ⟨w, o⟩ := w
    rintro ⟨⟨o', h'⟩, h1, h2, g', h3⟩
    cases (show o = o' from h2)
    exact ⟨h', g', h1, h3⟩

/-- Decoding into a variable leaves what occupies other memory as it is, and shares nothing with it afterwards. -/
theorem C100_apart (t u : Ty) (p q : Nat) (h : Heap) (v : t.Val) (x : u.Val) (g k : List Nat) (hp : h.At t p v g) (hq : h.At u q x k) (hd : ∀ i ∈ p :: g, i ∉ q :: k) (fin : Err) (s : Bytes) (w : t.Val)
    (o : Option Err) (r : Bytes) (hr : (decode t v).runE fin s = .ok (w, o) r) :
    ∃ h' g', (decodeAt t p h).runE fin s = .ok (o, h') r ∧ h'.At t p w g' ∧ h'.At u q x k ∧ ∀ i ∈ p :: g', i ∉ q :: k := by
  have := C100_decode t p h v g hp fin s
  rw [hr] at this
  obtain ⟨h', g', h1, h2, h3, h4⟩ := this
  obtain ⟨y, b1, b2, b3⟩ := hq
  have bound : ∀ i ∈ q :: k, i < h.length := fun i hi => by
    rcases List.mem_cons.1 hi with rfl | hi
    · exact lt_of_get b1
    · exact (isLocal_ty u).bound b2 i hi
  have same : ∀ i ∈ q :: k, h'[i]? = h[i]? := fun i hi => h3.2 i (bound i hi) fun hm => hd i hm hi
  refine ⟨h', g', h1, h2, ⟨y, (same q (List.mem_cons_self ..)).trans b1, (isLocal_ty u).frame b2 fun i hi => same i (List.mem_cons_of_mem _ hi), b3⟩, fun i hi hk => ?_⟩
  rcases List.mem_cons.1 hi with rfl | hi
  · exact hd i (List.mem_cons_self ..) hk
  · rcases h4 i hi with hi | hi
    · exact hd i hi hk
    · exact absurd (bound i hk) (by omega)

/-- Decoding into a zero variable: all memory but the variable is as it was, and everything the value refers to is new. -/
theorem C100_fresh (t : Ty) (p : Nat) (h : Heap) (hp : h[p]? = some (.var t t.rawZero)) (fin : Err) (s : Bytes) (w : t.Val) (o : Option Err) (r : Bytes)
    (hr : (decode t t.zero).runE fin s = .ok (w, o) r) :
    ∃ h' g', (decodeAt t p h).runE fin s = .ok (o, h') r ∧ h'.At t p w g' ∧ (∀ i < h.length, i ≠ p → h'[i]? = h[i]?) ∧ ∀ i ∈ g', h.length ≤ i := by
  have := C100_decode t p h t.zero [] ⟨_, hp, rawZero_holds h t, by simp⟩ fin s
  rw [hr] at this
  obtain ⟨h', g', h1, h2, h3, h4⟩ := this
  refine ⟨h', g', h1, h2, fun i hi hne => h3.2 i hi (by simpa using hne), fun i hi => ?_⟩
  rcases h4 i hi with hm | hm
  · cases List.mem_singleton.1 hm
    obtain ⟨_, _, _, hn⟩ := h2
    exact absurd hi (List.nodup_cons.1 hn).1
  · exact hm

/-- A slice: if the length is that of the array the destination refers to, the elements are decoded into this array, where other slices of it see them; otherwise the
destination refers to a new array, and all memory but the destination is as it was. -/
theorem C100_reuse (t : Ty) (p a : Nat) (h : Heap) (ys : List t.Raw) (v : Option (List t.Val)) (g : List Nat) (ha : h.At (.slice t) p v g) (hp : h[p]? = some (.var (.slice t) (some a : Option Nat)))
    (hy : h[a]? = some (.arr t ys)) (fin : Err) (s : Bytes) (l : UInt64) (m : Bytes) (hl : readVaruint.runE fin s = .ok (l, none) m) (o : Option Err) (h' : Heap) (r : Bytes)
    (hr : (decodeAt (.slice t) p h).runE fin s = .ok (o, h') r) :
    if goInt l = ys.length then h'[p]? = some (.var (.slice t) (some a : Option Nat))
    else h'[p]? = some (.var (.slice t) (some h.length : Option Nat)) ∧ ∀ i < h.length, i ≠ p → h'[i]? = h[i]? := by
  have hk := kept_of_run ha hr
  obtain ⟨y, h₁, h1, rfl⟩ := at_run hp hr
  have hp' : p < h₁.length := by have := hk.1; have := lt_of_get hp; rw [List.length_set] at *; omega
  have := sliceAt_run (decodeMem_follows t .elem) hy hl h1
  split
  · rename_i he
    rw [if_pos he] at this
    rw [List.getElem?_set_self hp']
    cases this; rfl
  · rename_i he
    rw [if_neg he] at this
    obtain ⟨rfl, this⟩ := this
    exact ⟨List.getElem?_set_self hp', fun i hi hne => by rw [List.getElem?_set_ne (fun e => hne e.symm)]; exact this i hi⟩

/-- A pointer that is not nil is kept: the variable it points to is decoded into, where other pointers to it see the value. -/
theorem C100_pointer (t : Ty) (p a : Nat) (h : Heap) (v : Option t.Val) (g : List Nat) (ha : h.At (.ptr t) p v g) (hp : h[p]? = some (.var (.ptr t) (some a : Option Nat))) (fin : Err) (s : Bytes)
    (o : Option Err) (h' : Heap) (r : Bytes) (hr : (decodeAt (.ptr t) p h).runE fin s = .ok (o, h') r) : h'[p]? = some (.var (.ptr t) (some a : Option Nat)) := by
  have hk := kept_of_run ha hr
  obtain ⟨y, h₁, h1, rfl⟩ := at_run hp hr
  have hp' : p < h₁.length := by have := hk.1; have := lt_of_get hp; rw [List.length_set] at *; omega
  obtain ⟨⟨e, h₂⟩, m, _, h3⟩ := Dec.runE_bind_ok (show (Mem.at t (decodeMem t .value) a h >>= fun q => (pure ((some a, q.1), q.2) : Dec ((Option Nat × Option Err) × Heap))).runE fin s = _ from h1)
  cases h3
  exact List.getElem?_set_self hp'

/-- A map: an empty one is filled; one with entries is replaced by a new one and stays as it was. -/
theorem C100_map (k e : Ty) (p a : Nat) (h : Heap) (ys : List (k.Val × e.Raw)) (v : Option (List (k.Val × e.Val))) (g : List Nat) (ha : h.At (.map k e) p v g)
    (hp : h[p]? = some (.var (.map k e) (some a : Option Nat))) (hy : h[a]? = some (.map k e ys)) (fin : Err) (s : Bytes) (l : UInt64) (m : Bytes) (hl : readVaruint.runE fin s = .ok (l, none) m)
    (o : Option Err) (h' : Heap) (r : Bytes) (hr : (decodeAt (.map k e) p h).runE fin s = .ok (o, h') r) :
    if ys = [] then h'[p]? = some (.var (.map k e) (some a : Option Nat))
    else h'[p]? = some (.var (.map k e) (some h.length : Option Nat)) ∧ ∀ i < h.length, i ≠ p → h'[i]? = h[i]? := by
  have hk := kept_of_run ha hr
  obtain ⟨y, h₁, h1, rfl⟩ := at_run hp hr
  have hp' : p < h₁.length := by have := hk.1; have := lt_of_get hp; rw [List.length_set] at *; omega
  have := mapAt_run (fun h => decodeMem_follows e .decode h e.rawZero e.zero [] (rawZero_holds h e) List.nodup_nil) hy hl h1
  split
  · rename_i he
    rw [if_pos he] at this
    rw [List.getElem?_set_self hp']
    cases this; rfl
  · rename_i he
    rw [if_neg he] at this
    obtain ⟨rfl, this⟩ := this
    exact ⟨List.getElem?_set_self hp', fun i hi hne => by rw [List.getElem?_set_ne (fun e => hne e.symm)]; exact this i hi⟩

/-- []uint16, the type of the examples -/
private abbrev Nums : Ty := .slice (.basic .u16)
/-- A variable with a slice of the array at a, and with nil -/
private abbrev numsVar (a : Option Nat) : Cell := .var Nums a
/-- An array of numbers -/
private abbrev numsArr (xs : List UInt16) : Cell := .arr (.basic .u16) xs

/-- `dec.Decode(&x); y := x; dec.Decode(&x)`: y has changed although it was never passed to Decode. Two lists of two numbers are decoded, and y, which held the first, holds the second. -/
theorem C100_loop_violated : ∃ (s : Bytes) (m : Bytes) (h h' : Heap),
    (decodeAt Nums 0 [numsVar none, numsVar none]).runE .eof s = .ok (none, h) m ∧ h[0]? = some (numsVar (some 2)) ∧
    Heap.At (h.set 1 (numsVar (some 2))) Nums 1 (some [1, 2] : Option (List UInt16)) [2] ∧
    (decodeAt Nums 0 (h.set 1 (numsVar (some 2)))).runE .eof m = .ok (none, h') [] ∧
    h'.At Nums 1 (some [3, 4] : Option (List UInt16)) [2] := by
  refine ⟨[2, 1, 0, 2, 0, 2, 3, 0, 4, 0], [2, 3, 0, 4, 0], [numsVar (some 2), numsVar none, numsArr [1, 2]], [numsVar (some 2), numsVar (some 2), numsArr [3, 4]], rfl, rfl, ?_, rfl, ?_⟩
  · exact ⟨some 2, rfl, .inr ⟨2, ([1, 2] : List UInt16), ([1, 2] : List UInt16), [], rfl, rfl, rfl, ⟨[], [], rfl, ⟨rfl, rfl⟩, [], [], rfl, ⟨rfl, rfl⟩, rfl⟩, rfl⟩, by decide⟩
  · exact ⟨some 2, rfl, .inr ⟨2, ([3, 4] : List UInt16), ([3, 4] : List UInt16), [], rfl, rfl, rfl, ⟨[], [], rfl, ⟨rfl, rfl⟩, [], [], rfl, ⟨rfl, rfl⟩, rfl⟩, rfl⟩, by decide⟩

/-- struct { A *uint8; B *uint8 } -/
private abbrev TwoPtr : Ty := .struct (.cons .exported .none (.ptr (.basic .u8)) (.cons .exported .none (.ptr (.basic .u8)) .nil))
/-- A variable with two pointers -/
private abbrev twoVar (a b : Option Nat) : Cell := .var TwoPtr ((a, (b, ())) : Option Nat × Option Nat × Unit)

/-- The two pointers of a struct are equal: 5 and 6 are read, both fields are 6 afterwards. Without sharing they are 5 and 6. -/
theorem C100_alias_violated : ∃ (h h' : Heap) (f f' : List Nat) (x x' : TwoPtr.Raw),
    h[0]? = some (.var TwoPtr x) ∧ TwoPtr.Holds h x ((some 1, (some 1, ())) : Option UInt8 × Option UInt8 × Unit) f ∧
    (decode TwoPtr ((some 1, (some 1, ())) : Option UInt8 × Option UInt8 × Unit)).run [5, 6] = .ok (((some 5, (some 6, ())) : Option UInt8 × Option UInt8 × Unit), none) [] ∧
    (decodeAt TwoPtr 0 h).runE .eof [5, 6] = .ok (none, h') [] ∧ h'[0]? = some (.var TwoPtr x') ∧
    TwoPtr.Holds h' x' ((some 6, (some 6, ())) : Option UInt8 × Option UInt8 × Unit) f' := by
  refine ⟨[twoVar (some 1) (some 1), .var (.basic .u8) (1 : UInt8)], [twoVar (some 1) (some 1), .var (.basic .u8) (6 : UInt8)], [1, 1], [1, 1],
    ((some 1, (some 1, ())) : Option Nat × Option Nat × Unit), ((some 1, (some 1, ())) : Option Nat × Option Nat × Unit), rfl, ?_, rfl, rfl, rfl, ?_⟩
  · exact ⟨[1], [1], rfl, .inr ⟨1, (1 : UInt8), (1 : UInt8), [], rfl, rfl, rfl, ⟨rfl, rfl⟩, rfl⟩, [1], [], rfl, .inr ⟨1, (1 : UInt8), (1 : UInt8), [], rfl, rfl, rfl, ⟨rfl, rfl⟩, rfl⟩, rfl⟩
  · exact ⟨[1], [1], rfl, .inr ⟨1, (6 : UInt8), (6 : UInt8), [], rfl, rfl, rfl, ⟨rfl, rfl⟩, rfl⟩, [1], [], rfl, .inr ⟨1, (6 : UInt8), (6 : UInt8), [], rfl, rfl, rfl, ⟨rfl, rfl⟩, rfl⟩, rfl⟩

/-! ## Examples -/

/- a variable that holds two numbers, in memory with another one -/
example : Heap.At [numsVar (some 1), numsArr [7, 8], numsVar (some 3), numsArr [9]] Nums 0 (some [7, 8] : Option (List UInt16)) [1] :=
  ⟨some 1, rfl, .inr ⟨1, ([7, 8] : List UInt16), ([7, 8] : List UInt16), [], rfl, rfl, rfl, ⟨[], [], rfl, ⟨rfl, rfl⟩, [], [], rfl, ⟨rfl, rfl⟩, rfl⟩, rfl⟩, by decide⟩
/- two are decoded: the same array -/
example : (decodeAt Nums 0 [numsVar (some 1), numsArr [7, 8], numsVar (some 3), numsArr [9]]).runE .eof [2, 1, 0, 2, 0] =
    .ok (none, [numsVar (some 1), numsArr [1, 2], numsVar (some 3), numsArr [9]]) [] := rfl
/- one is decoded: a new array -/
example : (decodeAt Nums 0 [numsVar (some 1), numsArr [7, 8], numsVar (some 3), numsArr [9]]).runE .eof [1, 1, 0] =
    .ok (none, [numsVar (some 4), numsArr [7, 8], numsVar (some 3), numsArr [9], numsArr [1]]) [] := rfl
/- a union of pointers: the new member is a new variable -/
example : (decodeVariantAt TwoPtr 0 [twoVar (some 1) none, .var (.basic .u8) (3 : UInt8)]).runE .eof [1, 4] =
    .ok (none, [twoVar none (some 2), .var (.basic .u8) (3 : UInt8), .var (.basic .u8) (4 : UInt8)]) [] := rfl
/- a map with an entry is replaced, an empty one is filled -/
example : (decodeAt (.map (.basic .u8) (.basic .u8)) 0 [.var (.map (.basic .u8) (.basic .u8)) (some 1 : Option Nat), .map (.basic .u8) (.basic .u8) [((7, 8) : UInt8 × UInt8)]]).runE .eof [1, 2, 3] =
    .ok (none, [.var (.map (.basic .u8) (.basic .u8)) (some 2 : Option Nat), .map (.basic .u8) (.basic .u8) [((7, 8) : UInt8 × UInt8)], .map (.basic .u8) (.basic .u8) [((2, 3) : UInt8 × UInt8)]]) [] := rfl
example : (decodeAt (.map (.basic .u8) (.basic .u8)) 0 [.var (.map (.basic .u8) (.basic .u8)) (some 1 : Option Nat), .map (.basic .u8) (.basic .u8) []]).runE .eof [1, 2, 3] =
    .ok (none, [.var (.map (.basic .u8) (.basic .u8)) (some 1 : Option Nat), .map (.basic .u8) (.basic .u8) [((2, 3) : UInt8 × UInt8)]]) [] := rfl
/- a pointer to [1]uint8 is kept -/
example : (decodeAt (.ptr (.array 1 (.basic .u8))) 0 [.var (.ptr (.array 1 (.basic .u8))) (some 1 : Option Nat), .var (.array 1 (.basic .u8)) ([3] : List UInt8)]).runE .eof [4] =
    .ok (none, [.var (.ptr (.array 1 (.basic .u8))) (some 1 : Option Nat), .var (.array 1 (.basic .u8)) ([4] : List UInt8)]) [] := rfl

end Verif
