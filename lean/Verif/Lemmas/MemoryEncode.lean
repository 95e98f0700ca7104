import Verif.Model.MemoryEncode
import Verif.Lemmas.Memory
/-! Lemmas for C104. -/
namespace Verif

theorem asVar_self (t : Ty) (x : t.Raw) : Cell.asVar t (.var t x) = some x := by simp [Cell.asVar]
theorem asArr_self (t : Ty) (x : List t.Raw) : Cell.asArr t (.arr t x) = some x := by simp [Cell.asArr]
theorem asMap_self (k e : Ty) (x : List (k.Val × e.Raw)) : Cell.asMap k e (.map k e x) = some x := by simp [Cell.asMap]

theorem heap_load {α : Type} {h : Heap} {f : Cell → Option α} {a : Nat} {c : Cell} {x : α} (hc : h[a]? = some c) (hx : f c = some x) (k : α → Enc (Option Err)) : h.load f a k = k x := by
  unfold Heap.load
  rw [hc]
  dsimp only
  rw [hx]

theorem encEach_holds {α β : Type} {R : α → β → List Nat → Prop} {f : α → Enc (Option Err)} {g : β → Enc (Option Err)} {d : Enc (Option Err)} (hf : ∀ x y fp, R x y fp → f x = g y) :
    ∀ {xs : List α} {ys : List β} {fp : List Nat}, HoldEach R xs ys fp → encEach f d xs = encEach g d ys
  | [], [], _, _ => rfl
  | x :: xs, y :: ys, _, ⟨_, _, _, h1, h2⟩ => by
    unfold encEach
    rw [hf x y _ h1, encEach_holds hf h2]

theorem all_zero_iff {α β : Type} {R : α → β → List Nat → Prop} {z : α → Bool} {zero : β} [DecidableEq β] (hz : ∀ x y fp, R x y fp → z x = decide (y = zero)) :
    ∀ {xs : List α} {ys : List β} {fp : List Nat} {n : Nat}, HoldEach R xs ys fp → (decide (xs.length = n) && xs.all z) = decide (ys = List.replicate n zero)
  | [], [], _, n, _ => by cases n <;> simp [List.replicate]
  | x :: xs, y :: ys, _, n, ⟨_, _, _, h1, h2⟩ => by
    cases n with
    | zero => simp
    | succ n =>
      have ih := all_zero_iff hz (n := n) h2
      rw [Bool.eq_iff_iff] at ih ⊢
      simp only [Bool.and_eq_true, decide_eq_true_eq, List.length_cons, Nat.add_right_cancel_iff, List.all_cons, List.replicate_succ, List.cons.injEq, hz x y _ h1] at ih ⊢
      rw [← ih]
      tauto

theorem isZero_zero (t : Ty) : t.isZero t.zero = true := by simp [Ty.isZero]

mutual
theorem rawIsZero_eq {h : Heap} : (t : Ty) → (x : t.Raw) → (v : t.Val) → (fp : List Nat) → t.Holds h x v fp → t.rawIsZero x = t.isZero v
  | .basic b, x, v, fp, hh => by
    unfold Ty.Holds at hh
    obtain ⟨rfl, _⟩ := hh
    unfold Ty.rawIsZero
    exact decide_eq_decide.2 Iff.rfl
  | .named b, x, v, fp, hh => by
    unfold Ty.Holds at hh
    obtain ⟨rfl, _⟩ := hh
    unfold Ty.rawIsZero
    exact decide_eq_decide.2 Iff.rfl
  | .unsupported, x, v, fp, hh => by unfold Ty.rawIsZero; exact (decide_eq_true (rfl : v = ())).symm
  | .ref _ _ _, x, v, fp, hh => by unfold Ty.rawIsZero; exact (decide_eq_true (rfl : v = ())).symm
  | .chain c, x, v, fp, hh => by
    unfold Ty.Holds at hh
    obtain ⟨rfl, _⟩ := hh
    unfold Ty.rawIsZero
    exact decide_eq_decide.2 Iff.rfl
  | .bytes, x, v, fp, hh => by
    unfold Ty.Holds at hh
    rcases hh with ⟨hx, hv, _⟩ | ⟨a, b, hx, hv, _⟩ <;> cases hx <;> cases hv
    · exact (isZero_zero (.bytes)).symm
    · exact (decide_eq_false (fun h => nomatch (show (some b : Option Bytes) = none from h))).symm
  | .ptr t, x, v, fp, hh => by
    unfold Ty.Holds at hh
    rcases hh with ⟨hx, hv, _⟩ | ⟨a, y, w, g, hx, hv, _⟩ <;> cases hx <;> cases hv
    · exact (isZero_zero (.ptr t)).symm
    · exact (decide_eq_false (fun h => nomatch (show (some w : Option t.Val) = none from h))).symm
  | .slice t, x, v, fp, hh => by
    unfold Ty.Holds at hh
    rcases hh with ⟨hx, hv, _⟩ | ⟨a, y, w, g, hx, hv, _⟩ <;> cases hx <;> cases hv
    · exact (isZero_zero (.slice t)).symm
    · exact (decide_eq_false (fun h => nomatch (show (some w : Option (List t.Val)) = none from h))).symm
  | .map k e, x, v, fp, hh => by
    unfold Ty.Holds at hh
    rcases hh with ⟨hx, hv, _⟩ | ⟨a, y, w, g, hx, hv, _⟩ <;> cases hx <;> cases hv
    · exact (isZero_zero (.map k e)).symm
    · exact (decide_eq_false (fun h => nomatch (show (some w : Option (List (k.Val × e.Val))) = none from h))).symm
  | .array n t, x, v, fp, hh => by
    unfold Ty.Holds at hh
    unfold Ty.rawIsZero
    exact (all_zero_iff (R := t.Holds h) (zero := t.zero) (fun x y fp => rawIsZero_eq t x y fp) hh).trans (decide_eq_decide.2 Iff.rfl)
  | .struct fs, x, v, fp, hh => by
    unfold Ty.Holds at hh
    unfold Ty.rawIsZero
    exact (fieldsIsZero_eq fs x v fp hh).trans (decide_eq_decide.2 Iff.rfl)
theorem fieldsIsZero_eq {h : Heap} : (fs : Fields) → (x : fs.Raw) → (v : fs.Val) → (fp : List Nat) → fs.Holds h x v fp → fs.rawIsZero x = decide (v = fs.zero)
  | .nil, x, v, fp, hh => (decide_eq_true (rfl : v = ())).symm
  | .cons vis tag t fs, x, v, fp, hh => by
    unfold Fields.Holds at hh
    obtain ⟨x, xs⟩ : t.Raw × fs.Raw := x
    obtain ⟨v, vs⟩ : t.Val × fs.Val := v
    obtain ⟨f, g, _, h1, h2⟩ := hh
    have e1 := rawIsZero_eq t x v f h1
    have e2 := fieldsIsZero_eq fs xs vs g h2
    show (t.rawIsZero x && fs.rawIsZero xs) = _
    rw [e1, e2, Ty.isZero, ← Bool.decide_and]
    exact decide_eq_decide.2 (Prod.mk.injEq (α := t.Val) (β := fs.Val) v vs t.zero fs.zero ▸ Iff.rfl)
end

mutual
theorem encodeMem_eq {h : Heap} : (t : Ty) → (x : t.Raw) → (v : t.Val) → (fp : List Nat) → t.Holds h x v fp → encodeMem h t x = encode t v
  | .basic b, x, v, fp, hh => by unfold Ty.Holds at hh; obtain ⟨rfl, _⟩ := hh; rfl
  | .named b, x, v, fp, hh => by unfold Ty.Holds at hh; obtain ⟨rfl, _⟩ := hh; rfl
  | .unsupported, x, v, fp, hh => by rfl
  | .ref _ _ _, x, v, fp, hh => by rfl
  | .chain c, x, v, fp, hh => by unfold Ty.Holds at hh; obtain ⟨rfl, _⟩ := hh; rfl
  | .bytes, x, v, fp, hh => by
    unfold Ty.Holds at hh
    rcases hh with ⟨hx, hv, _⟩ | ⟨a, b, hx, hv, hc, _⟩ <;> cases hx <;> cases hv
    · rfl
    · exact (heap_load hc (asArr_self (.basic .u8) b) _).trans rfl
  | .ptr t, x, v, fp, hh => by
    unfold Ty.Holds at hh
    rcases hh with ⟨hx, hv, _⟩ | ⟨a, y, w, g, hx, hv, hc, hy, _⟩ <;> cases hx <;> cases hv
    · cases t <;> rfl
    · have ih := encodeMem_eq t y w g hy
      have e : ∀ k, h.load (Cell.asVar t) a k = k y := fun k => heap_load hc (asVar_self t y) k
      cases t
      case chain c =>
        unfold Ty.Holds at hy
        obtain ⟨rfl, _⟩ := hy
        exact (e _).trans rfl
      all_goals exact (e _).trans (ih.trans rfl)
  | .slice t, x, v, fp, hh => by
    unfold Ty.Holds at hh
    rcases hh with ⟨hx, hv, _⟩ | ⟨a, y, w, g, hx, hv, hc, hy, _⟩ <;> cases hx <;> cases hv
    · rfl
    · refine (show encodeMem h (.slice t) (some a : Option Nat) = _ from heap_load hc (asArr_self t y) _).trans ?_
      rw [encEach_holds (R := t.Holds h) (g := encode t) (fun x y fp => encodeMem_eq t x y fp) hy, holdEach_length hy]
      rfl
  | .map k e, x, v, fp, hh => by
    unfold Ty.Holds at hh
    rcases hh with ⟨hx, hv, _⟩ | ⟨a, y, w, g, hx, hv, hc, hy, _⟩ <;> cases hx <;> cases hv
    · rfl
    · refine (show encodeMem h (.map k e) (some a : Option Nat) = _ from heap_load hc (asMap_self k e y) _).trans ?_
      dsimp only
      rw [encEach_holds (g := fun (p : k.Val × e.Val) => encode k p.1 >>= fun
          | some e => pure (some e)
          | none => encode e p.2) (fun x y fp hxy => ?_) hy, holdEach_length hy]
      · rfl
      · obtain ⟨e1, e2⟩ := hxy
        rw [e1, encodeMem_eq e x.2 y.2 fp e2]
        rfl
  | .array n t, x, v, fp, hh => by
    unfold Ty.Holds at hh
    exact (encEach_holds (R := t.Holds h) (g := encode t) (fun x y fp => encodeMem_eq t x y fp) hh).trans rfl
  | .struct fs, x, v, fp, hh => by
    unfold Ty.Holds at hh
    exact (encodeMemFields_eq fs x v fp hh).trans rfl
theorem encodeMemFields_eq {h : Heap} : (fs : Fields) → (x : fs.Raw) → (v : fs.Val) → (fp : List Nat) → fs.Holds h x v fp → encodeMemFields h fs x = encodeFields chainEncoder fs v
  | .nil, x, v, fp, hh => rfl
  | .cons vis tag t fs, x, v, fp, hh => by
    unfold Fields.Holds at hh
    obtain ⟨x, xs⟩ : t.Raw × fs.Raw := x
    obtain ⟨v, vs⟩ : t.Val × fs.Val := v
    obtain ⟨f, g, _, h1, h2⟩ := hh
    have e1 := rawIsZero_eq t x v f h1
    have e2 := encodeMem_eq t x v f h1
    have e3 := encodeMemFields_eq fs xs vs g h2
    show encodeField vis tag (t.rawIsZero x) (encodeMem h t x) (encodeMemFields h fs xs) = _
    rw [e1, e2, e3]
    rfl
end

end Verif
