import Verif.Model.Memory
/-! # Values in memory, and the memory they occupy -/
namespace Verif

/-- Element by element; the memory of the whole is that of the elements, one after the other -/
def HoldEach {α β : Type} (R : α → β → List Nat → Prop) : List α → List β → List Nat → Prop
  | [], [], fp => fp = []
  | x :: xs, y :: ys, fp => ∃ f g, fp = f ++ g ∧ R x y f ∧ HoldEach R xs ys g
  | _, _, _ => False

mutual
/-- In the memory h, x is the value v; it occupies the addresses fp: each is listed as often as it is reached. -/
def Ty.Holds (h : Heap) : (t : Ty) → t.Raw → t.Val → (fp : List Nat) → Prop
  | .basic b, x, v, fp => (show b.Val from x) = v ∧ fp = []
  | .named b, x, v, fp => (show b.Val from x) = v ∧ fp = []
  | .unsupported, _, _, fp => fp = []
  | .ref _ _ _, _, _, fp => fp = []
  | .chain c, x, v, fp => (show c.Val from x) = v ∧ fp = []
  | .bytes, x, v, fp => (show Option Nat from x) = none ∧ (show Option Bytes from v) = none ∧ fp = [] ∨
      ∃ (a : Nat) (b : Bytes), (show Option Nat from x) = some a ∧ (show Option Bytes from v) = some b ∧ h[a]? = some (.arr (.basic .u8) b) ∧ fp = [a]
  | .ptr t, x, v, fp => (show Option Nat from x) = none ∧ (show Option t.Val from v) = none ∧ fp = [] ∨
      ∃ (a : Nat) (y : t.Raw) (w : t.Val) (g : List Nat),
        (show Option Nat from x) = some a ∧ (show Option t.Val from v) = some w ∧ h[a]? = some (.var t y) ∧ t.Holds h y w g ∧ fp = a :: g
  | .slice t, x, v, fp => (show Option Nat from x) = none ∧ (show Option (List t.Val) from v) = none ∧ fp = [] ∨
      ∃ (a : Nat) (ys : List t.Raw) (ws : List t.Val) (g : List Nat),
        (show Option Nat from x) = some a ∧ (show Option (List t.Val) from v) = some ws ∧ h[a]? = some (.arr t ys) ∧ HoldEach (t.Holds h) ys ws g ∧ fp = a :: g
  | .array _ t, x, v, fp => HoldEach (t.Holds h) x v fp
  | .map k e, x, v, fp => (show Option Nat from x) = none ∧ (show Option (List (k.Val × e.Val)) from v) = none ∧ fp = [] ∨
      ∃ (a : Nat) (m : List (k.Val × e.Raw)) (ws : List (k.Val × e.Val)) (g : List Nat),
        (show Option Nat from x) = some a ∧ (show Option (List (k.Val × e.Val)) from v) = some ws ∧ h[a]? = some (.map k e m) ∧
        HoldEach (fun (y : k.Val × e.Raw) (w : k.Val × e.Val) f => y.1 = w.1 ∧ e.Holds h y.2 w.2 f) m ws g ∧ fp = a :: g
  | .struct fs, x, v, fp => fs.Holds h x v fp
/-- The same for the fields of a struct -/
def Fields.Holds (h : Heap) : (fs : Fields) → fs.Raw → fs.Val → (fp : List Nat) → Prop
  | .nil, _, _, fp => fp = []
  | .cons _ _ t fs, x, v, fp => ∃ f g, fp = f ++ g ∧ t.Holds h (show t.Raw × fs.Raw from x).1 (show t.Val × fs.Val from v).1 f ∧
      fs.Holds h (show t.Raw × fs.Raw from x).2 (show t.Val × fs.Val from v).2 g
end

/-- Two programs that read the same and end the same way, with results related by R, whatever the reader does -/
inductive Dec.Alike {α β : Type} (R : α → β → Prop) : Dec α → Dec β → Prop
  | ret {a b} : R a b → Dec.Alike R (.ret a) (.ret b)
  | panic (w : String) : Dec.Alike R (.panic w) (.panic w)
  | diverge : Dec.Alike R .diverge .diverge
  | read (n : Nat) {k k'} : (∀ b c e, Dec.Alike R (k b c e) (k' b c e)) → Dec.Alike R (.read n k) (.read n k')

/-- The variable of type t at p holds v; it occupies p and the addresses g, and nothing is reached in two ways. -/
def Heap.At (h : Heap) (t : Ty) (p : Nat) (v : t.Val) (g : List Nat) : Prop := ∃ y, h[p]? = some (.var t y) ∧ t.Holds h y v g ∧ (p :: g).Nodup

/-- Memory changed only at the addresses fp, and by allocation -/
def Heap.Kept (h h' : Heap) (fp : List Nat) : Prop := h.length ≤ h'.length ∧ ∀ i < h.length, i ∉ fp → h'[i]? = h[i]?

/-- The addresses fp' are among fp or have been allocated since h -/
def Heap.Owned (h : Heap) (fp fp' : List Nat) : Prop := ∀ i ∈ fp', i ∈ fp ∨ h.length ≤ i

end Verif
