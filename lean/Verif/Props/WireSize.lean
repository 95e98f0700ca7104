import Verif.Spec.WireSize
import Verif.Props.Fault
import Verif.Props.Canon
import Verif.Lemmas.Sizes
/-! C97: how many bytes Encode writes. -/
namespace Verif
open Enc

theorem minLeb_len {lb : Bytes} {n : Nat} (h : MinLeb lb n) : lb.length = lebLen n := by
  obtain ⟨h1, h2, h3⟩ := minLeb_bounds lb n h
  unfold lebLen
  rcases h2 with h2 | h2
  · rw [Nat.log_of_lt (by rw [h2] at h1; simpa using h1), h2]
  · have : Nat.log 128 n = lb.length - 1 := Nat.log_eq_of_pow_le_of_lt_pow h2 (by rwa [Nat.sub_add_cancel h3])
    omega

theorem prefixed_len {w b : Bytes} (h : Prefixed w b) : w.length = prefixedLen b := by
  obtain ⟨lb, h, rfl⟩ := h
  rw [List.length_append, minLeb_len h]; rfl

theorem each_len {α : Type} {R : α → Bytes → Prop} {f : α → Nat} (h : ∀ x w, R x w → w.length = f x) {xs : List α} {w : Bytes} (he : Each R xs w) : w.length = (xs.map f).sum := by
  induction he with
  | nil => simp
  | cons h1 _ ih => simp [h _ _ h1, ih]

theorem counted_len {α : Type} {R : α → Bytes → Prop} {f : α → Nat} (h : ∀ x w, R x w → w.length = f x) {xs : List α} {w : Bytes} (he : Counted R xs w) : w.length = countedLen f xs := by
  obtain ⟨lb, es, h1, h2, rfl⟩ := he
  rw [List.length_append, minLeb_len h1, each_len h h2]; rfl

theorem action_len {a : Action} {w : Bytes} (h : ActionLayout a w) : w.length = a.wireSize := by
  obtain ⟨ac, n, au, d, h1, h2, h3, h4, rfl⟩ := h
  have h3 := counted_len (f := fun _ => 16) (fun x w h => perm_holds h) h3
  have h4 := prefixed_len h4
  have := h1.1
  have := h2.1
  simp [countedLen] at h3
  simp [Action.wireSize]; omega

theorem extension_len {a : TxExtension} {w : Bytes} (h : ExtensionLayout a w) : w.length = a.wireSize := by
  obtain ⟨t, d, h1, h2, rfl⟩ := h
  have := h1.1
  have := prefixed_len h2
  simp [TxExtension.wireSize]; omega

theorem header_len {a : TxHeader} {w : Bytes} (h : HeaderLayout a w) : w.length = a.wireSize := by
  obtain ⟨e, n, p, mw, c, d, h1, h2, h3, h4, h5, h6, rfl⟩ := h
  have := h1.1
  have := h2.1
  have := h3.1
  have := h5.1
  have := minLeb_len h4
  have := minLeb_len h6
  simp [TxHeader.wireSize]; omega

theorem transaction_len {a : Transaction} {w : Bytes} (h : TransactionLayout a w) : w.length = a.wireSize := by
  obtain ⟨hb, cb, ab, xb, h1, h2, h3, h4, rfl⟩ := h
  have := header_len h1
  have := counted_len (f := Action.wireSize) (fun _ _ h => action_len h) h2
  have := counted_len (f := Action.wireSize) (fun _ _ h => action_len h) h3
  have := counted_len (f := TxExtension.wireSize) (fun _ _ h => extension_len h) h4
  simp only [List.length_append, Transaction.wireSize]; omega

theorem basic_len {b : Basic} {v : b.Val} {w : Bytes} (h : b.Layout v w) : w.length = b.wireSize v := by
  cases b
  case bool => have h : w = _ := h; rw [h]; rfl
  case string => exact prefixed_len h
  case int =>
    obtain ⟨n, h1, h2⟩ := h
    rw [minLeb_len h1, Basic.wireSize, ← h2]; rfl
  case uint => exact minLeb_len h
  all_goals exact h.1

theorem chain_len {c : ChainTy} {v : c.Val} {w : Bytes} (h : c.Layout v w) : w.length = c.wireSize v := by
  cases c
  case action => exact action_len h
  case asset => exact asset_length h
  case blob => exact prefixed_len h
  case bytes => exact prefixed_len h
  case permissionLevel => exact perm_holds h
  case publicKey => have h : w = _ := h; rw [h]; exact Nat.add_comm _ _
  case signature => have h : w = _ := h; rw [h]; exact Nat.add_comm _ _
  case transaction => exact transaction_len h
  case transactionExtension => exact extension_len h
  case transactionHeader => exact header_len h
  case extendedAsset =>
    obtain ⟨q, c, h1, h2, rfl⟩ := h
    have := asset_length h1
    have := h2.1
    simp [ChainTy.wireSize]; omega
  case checksum160 | checksum256 | checksum512 | float128 => have h : w = _ := h; rw [h]; rfl
  all_goals exact h.1

mutual
theorem layout_len : (t : Ty) → (v : t.Val) → (w : Bytes) → t.Layout v w → w.length = t.wireSize v
  | .basic b, v, w, h => basic_len h
  | .named b, v, w, h => basic_len h
  | .unsupported, _, _, h => h.elim
  | .bytes, v, w, h => prefixed_len h
  | .chain c, v, w, h => chain_len h
  | .ptr t, v, w, h => by
    obtain ⟨x, rfl, h⟩ := h
    exact layout_len t x w h
  | .slice t, v, w, h => counted_len (fun x w h => layout_len t x w h) h
  | .array n t, v, w, h => each_len (fun x w h => layout_len t x w h) h
  | .map k e, v, w, h => counted_len (fun x w h => by
      obtain ⟨b1, b2, h1, h2, rfl⟩ := h
      rw [List.length_append, layout_len k _ _ h1, layout_len e _ _ h2]) h
  | .struct fs, v, w, h => fields_len fs v w h
  | .ref _ _ _, _, _, h => h.elim
theorem fields_len : (fs : Fields) → (v : fs.Val) → (w : Bytes) → fs.Layout v w → w.length = fs.wireSize v
  | .nil, _, w, h => by have h : w = [] := h; rw [h]; rfl
  | .cons vis tag t fs, v, w, h => by
    obtain ⟨b1, b2, h2, rfl, h⟩ := h
    rw [List.length_append, fields_len fs _ _ h2]
    refine congrArg (· + _) ?_
    split at h
    · next ht =>
      rw [if_pos ht]
      rcases h with ⟨h, rfl⟩ | ⟨h, b, hb, rfl⟩
      · rw [if_pos h]; rfl
      · rw [if_neg h, ← layout_len t _ _ hb]; exact Nat.add_comm _ _
    · next ht => rw [if_neg ht]; exact layout_len t _ _ h
end

/-- If Encode writes a value, this is how many bytes it writes. -/
theorem C97_encode (t : Ty) (ht : t.Whole) (v : t.Val) (hr : t.Real v) (bs : Bytes) (h : (encode t v).Writes bs) : bs.length = t.wireSize v :=
  layout_len t v bs ((C85_iff t ht v hr bs).1 h).2

/-- MarshalABI of the chain types -/
theorem C97_chain (c : ChainTy) (v : c.Val) (hr : c.Real v) (bs : Bytes) (h : (c.marshal v).Writes bs) : bs.length = c.wireSize v :=
  chain_len ((C85_chain c v hr bs).1 h).2

/-- The order in which the entries of a map are written does not matter. -/
theorem C97_map_order (k e : Ty) (m m' : List (k.Val × e.Val)) (h : m.Perm m') : (Ty.map k e).wireSize (some m : Option (List (k.Val × e.Val))) = (Ty.map k e).wireSize (some m' : Option (List (k.Val × e.Val))) := by
  show countedLen _ m = countedLen _ m'
  rw [countedLen, countedLen, h.length_eq, (h.map _).sum_eq]

/-- What is read for a value that can be written is at least as long as what is written for it; it may be longer, see C86. -/
theorem C97_decode (t : Ty) (hs : t.Strait) (ht : t.Whole) (hd : t.Decodable .decode) (fin : Err) (bs r : Bytes) (v : t.Val) (h : (decode t t.zero).runE fin bs = .ok (v, none) r) (hf : t.fault v = none) :
    t.wireSize v + r.length ≤ bs.length := by
  obtain ⟨out, hl, ho⟩ := C85_writes t ht v hf
  obtain ⟨w, rfl, hw, _⟩ := C86_normalises t hs ht hd fin bs r out v h ho
  rw [← layout_len t v out hl, List.length_append]
  omega

/-! ## Examples -/

example : lebLen 0 = 1 ∧ lebLen 127 = 1 ∧ lebLen 128 = 2 ∧ lebLen 16383 = 2 ∧ lebLen 16384 = 3 := by decide +kernel
/-- A transfer: one authorization, 33 bytes of data -/
example : Action.wireSize ⟨1, 2, [⟨3, 4⟩], List.replicate 33 0⟩ = 67 := by decide +kernel
example : (Action.marshal ⟨1, 2, [⟨3, 4⟩], [5, 6]⟩).Writes [1, 0, 0, 0, 0, 0, 0, 0, 2, 0, 0, 0, 0, 0, 0, 0, 1, 3, 0, 0, 0, 0, 0, 0, 0, 4, 0, 0, 0, 0, 0, 0, 0, 2, 5, 6] ∧
  Action.wireSize ⟨1, 2, [⟨3, 4⟩], [5, 6]⟩ = 36 := ⟨by decide +kernel, by decide +kernel⟩
/-- An empty transaction takes 16 bytes. -/
example : Transaction.zero.wireSize = 16 := by decide +kernel
def sizeTy : Ty := .struct (.cons .exported .none (.map (.basic .string) (.basic .u16)) <| .cons .exported .optional (.ptr (.basic .u64)) .nil)
example : sizeTy.Whole := by simp [sizeTy, Ty.Whole, Fields.Whole]
example : (encode sizeTy ((some [((asc "ab" : Bytes), (5 : UInt16))] : Option (List (Bytes × UInt16))), (none : Option UInt64), ())).Writes [1, 2, 97, 98, 5, 0, 0] := by decide +kernel
example : sizeTy.wireSize ((some [((asc "ab" : Bytes), (5 : UInt16))] : Option (List (Bytes × UInt16))), (none : Option UInt64), ()) = 7 := by decide +kernel
/-- Read from more bytes than are written -/
example : (decode (.basic .uint) (0 : UInt64)).run [0x85, 0] = .ok ((5 : UInt64), none) [] ∧ (Ty.basic .uint).wireSize (5 : UInt64) = 1 := ⟨by decide +kernel, by decide +kernel⟩

end Verif
