import Verif.Spec.TwinVariant
import Verif.Lemmas.Twin
/-! # Variants in an ABI and structs of pointers in Go -/
namespace Verif

theorem leb_one {p b w : Bytes} {i : Nat} {idx : UInt8} (h : AnyLeb p i) (hi : idx.toNat < 128) (e : p ++ b = idx :: w) : i = idx.toNat ∧ b = w := by
  obtain ⟨⟨init, last, rfl, h1, h2⟩, _, h3, _⟩ := h
  cases init with
  | nil =>
    simp only [List.nil_append, List.cons_append, List.cons.injEq] at e
    obtain ⟨rfl, rfl⟩ := e
    refine ⟨?_, rfl⟩
    rw [← h3]
    simp [lebValue]
    omega
  | cons y ys =>
    simp only [List.cons_append, List.cons.injEq] at e
    have := h1 y (by simp)
    rw [e.1] at this
    omega

theorem leb_single {idx : UInt8} (hi : idx.toNat < 128) : AnyLeb [idx] idx.toNat := by
  refine ⟨⟨[], idx, rfl, by simp, hi⟩, by simp, ?_, by omega⟩
  simp [lebValue]
  omega

variable {a : Abi}

theorem alts_strait : {ns : List Bytes} → {fs : Fields} → TwinAlts a ns fs → fs.Strait ∧ fs.NilableBut none
  | _, _, .nil => ⟨trivial, trivial⟩
  | _, _, .cons _ w ht ws => ⟨⟨ht, (body_go w).1, (alts_strait ws).1⟩, trivial, (alts_strait ws).2⟩

theorem alts_nilable : {ns : List Bytes} → {fs : Fields} → TwinAlts a ns fs → (i : Nat) → fs.NilableBut (some i)
  | _, _, .nil, _ => trivial
  | _, _, .cons _ _ _ ws, 0 => (alts_strait ws).2
  | _, _, .cons _ _ _ ws, i + 1 => ⟨trivial, alts_nilable ws i⟩

theorem alts_takes : {ns : List Bytes} → {fs : Fields} → (tw : TwinAlts a ns fs) → (i : Nat) → (m : Bytes) → (x : AV) → (w : Bytes) → w.length * fs.widest ≤ maxAlloc → ns[i]? = some m →
    Accepts a m x w → ∃ v, tw.Holds v i m x ∧ fs.TakesMember i v w
  | _, _, .nil, i, _, _, _, _, h, _ => by simp at h
  | _, _, .cons (n := n) (t := t) (fs := fs) hs tw _ ws, 0, m, x, w, hL, h, h' => by
    have e : n = m := by simpa using h
    subst e
    obtain ⟨y, h1, h2⟩ := body_takes tw .decode (.inl rfl) x w (Nat.le_trans (Nat.mul_le_mul_left _ (Nat.le_max_left t.widest fs.widest)) hL) (accepts_plain hs h')
    exact ⟨((some y, fs.zero) : Option t.Val × fs.Val), ⟨rfl, rfl, y, rfl, h1⟩, rfl, rfl, y, rfl, h2⟩
  | _, _, .cons (t := t) (fs := fs) _ _ _ ws, i + 1, m, x, w, hL, h, h' => by
    obtain ⟨v, h1, h2⟩ := alts_takes ws i m x w (Nat.le_trans (Nat.mul_le_mul_left _ (Nat.le_max_right t.widest fs.widest)) hL) (by simpa using h) h'
    exact ⟨((none, v) : Option t.Val × fs.Val), ⟨rfl, h1⟩, rfl, h2⟩

theorem alts_accepts : {ns : List Bytes} → {fs : Fields} → (tw : TwinAlts a ns fs) → (i : Nat) → (m : Bytes) → (x : AV) → (v : fs.Val) → (w : Bytes) → w.length * 16 ≤ maxAlloc → tw.Holds v i m x →
    fs.TakesMember i v w → ns[i]? = some m ∧ Accepts a m x w
  | _, _, .nil, _, _, _, _, _, _, h, _ => h.elim
  | _, _, .cons (n := n) (t := t) (fs := fs) hs tw _ ws, 0, m, x, v, w, hL, h, h' => by
    obtain ⟨rfl, _, y, h1, rfl⟩ := h
    obtain ⟨_, _, z, h2, h3⟩ := h'
    have e : z = y := Option.some.inj (h2.symm.trans h1)
    subst e
    exact ⟨rfl, .plain hs (body_accepts tw .decode (.inl rfl) z w hL h3)⟩
  | _, _, .cons (t := t) (fs := fs) _ _ _ ws, i + 1, m, x, v, w, hL, h, h' => by
    simpa using alts_accepts ws i m x _ w hL h.2 h'.2

/-- Which alternative a value holds is determined. -/
theorem member_holds : {ns : List Bytes} → {fs : Fields} → (tw : TwinAlts a ns fs) → (i : Nat) → (v : fs.Val) → (w : Bytes) → fs.TakesMember i v w → ∃ m x, tw.Holds v i m x
  | _, _, .nil, _, _, _, h => h.elim
  | _, _, .cons (n := n) _ tw _ _, 0, _, _, h => by
    obtain ⟨_, h1, y, h2, _⟩ := h
    exact ⟨n, tw.av y, rfl, h1, y, h2, rfl⟩
  | _, _, .cons _ _ _ ws, i + 1, _, w, h => by
    obtain ⟨m, x, h1⟩ := member_holds ws i _ w h.2
    exact ⟨m, x, h.1, h1⟩

theorem variant_accepts {b : Bytes} {k : AbiVariant} (hk : IsVariant a b k) {x : AV} {w : Bytes} (h : AcceptsInner a b x w) :
    ∃ i t y p bs, k.types[i]? = some t ∧ AnyLeb p i ∧ Accepts a t y bs ∧ x = .slice [.basic .string t, y] ∧ w = p ++ bs := by
  have hm := mem_of_first hk.2
  cases h with
  | «alias» h _ => exact absurd hk.2.1 (h.1.2 k hm)
  | struct h _ _ => obtain ⟨s, hs⟩ := fieldsOf_struct h; exact (noStruct_isStruct hk.1 hs).elim
  | variant h h1 h2 h3 => cases isVariant_unique hk h; exact ⟨_, _, _, _, _, h1, h2, h3, rfl, rfl⟩
  | builtin h _ => exact absurd hk.2.1 (h.1.2 k hm)
  | hollow h _ _ => exact (noStruct_isStruct hk.1 h).elim

theorem variant_wire {B : Bytes → AV → Bytes → Prop} {ex : Bool} {b : Bytes} {k : AbiVariant} (hk : IsVariant a b k) {x : AV} {w : Bytes} (h : Inner a B ex b x w) :
    ∃ (i : Nat) (t : Bytes) (y : AV) (p bs : Bytes), i < k.types.length ∧ Count p i ∧ x = .slice [.basic .string t, y] ∧ w = p ++ bs := by
  have hm := mem_of_first hk.2
  cases h with
  | «alias» h _ => exact absurd hk.2.1 (h.1.2 k hm)
  | struct h _ _ => obtain ⟨s, hs⟩ := fieldsOf_struct h; exact (noStruct_isStruct hk.1 hs).elim
  | variant h h1 _ h2 _ => cases isVariant_unique hk h; exact ⟨_, _, _, _, _, by rw [h1]; simp, h2, rfl, rfl⟩
  | builtin h _ => exact absurd hk.2.1 (h.1.2 k hm)
  | hollow h _ _ => exact (noStruct_isStruct hk.1 h).elim

theorem wire_plain {B : Bytes → AV → Bytes → Prop} {ex : Bool} {n b : Bytes} {arr ext : Bool} (hs : Spelled n b arr ext false) {x : AV} {w : Bytes} (h : Wire a B ex n x w) : Body a B ex b arr x w := by
  cases h with
  | absent h1 => obtain ⟨_, _, _, h⟩ := spelled_unique hs h1; exact absurd h (by decide)
  | present h1 _ _ => obtain ⟨_, _, _, h⟩ := spelled_unique hs h1; exact absurd h (by decide)
  | plain h1 _ h2 => obtain ⟨rfl, rfl, _, _⟩ := spelled_unique hs h1; exact h2

theorem minLeb_single {p : Bytes} {n : Nat} (h : MinLeb p n) (hn : n < 128) : ∃ idx : UInt8, p = [idx] ∧ idx.toNat = n := by
  have e : (UInt8.ofNat n).toNat = n := by rw [UInt8.toNat_ofNat']; omega
  refine ⟨UInt8.ofNat n, minLeb_unique _ _ n h ⟨?_, ?_, .inl rfl⟩, e⟩
  · exact (leb_single (idx := UInt8.ofNat n) (by omega)).1
  · rw [(leb_single (idx := UInt8.ofNat n) (by omega)).2.2.1, e]

end Verif
