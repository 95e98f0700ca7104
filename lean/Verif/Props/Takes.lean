import Verif.Lemmas.TakesReflect
import Verif.Props.ReflectOverwrite
/-! C80, C81: exactly which inputs are accepted by decoding, and as what. -/
namespace Verif
open Dec

/-- The reading methods of the decoder. -/
theorem C80_methods (b : Basic) : b.read.Exactly b.Takes := basic_exactly b

/-- UnmarshalABI of every chain type, into a variable whose slices may hold anything but the authorizations of an Action. -/
theorem C80_chain (c : ChainTy) (old : c.Val) (ho : c.Clean old) : (c.unmarshal old).Exactly c.Takes := chain_exactly c old ho

theorem exactly_prefix {α : Type} {p : Dec (α × Option Err)} {R : α → Bytes → Prop} (h : p.Exactly R) {v v' : α} {w r : Bytes} (h1 : R v w) (h2 : R v' (w ++ r)) : r = [] ∧ v = v' := by
  have e1 := (h .eof (w ++ r) v r).2 ⟨w, rfl, h1⟩
  have e2 := (h .eof (w ++ r) v' []).2 ⟨w ++ r, by simp, h2⟩
  rw [e1] at e2
  simp only [Out.ok.injEq, Prod.mk.injEq, and_true] at e2
  exact ⟨e2.2, e2.1⟩

/-- Accepted byte strings have one meaning, and none is a proper prefix of another. -/
theorem C80_prefix_free : (∀ (b : Basic) (v v' : b.Val) (w r : Bytes), b.Takes v w → b.Takes v' (w ++ r) → r = [] ∧ v = v') ∧
    ∀ (c : ChainTy) (v v' : c.Val) (w r : Bytes), c.Takes v w → c.Takes v' (w ++ r) → r = [] ∧ v = v' :=
  ⟨fun b _ _ _ _ => exactly_prefix (basic_exactly b), fun c _ _ _ _ => exactly_prefix (chain_exactly c c.zero (clean_zero (.chain c)))⟩

/-- Decode(&x) with x of any type without extension fields. -/
theorem C81_decode (t : Ty) (ht : t.Strait) : (decode t t.zero).Exactly (t.Takes .decode) := ty_exactly t ht .decode

/-- DecodeVariant(&x): the number of a member, and the member. -/
theorem C81_variant (t : Ty) (ht : t.Strait) : (decodeVariant t t.zero).Exactly fun v w => ∃ (idx : UInt8) (b : Bytes), w = idx :: b ∧ t.Takes (.variant idx.toNat) v b := by
  apply Exactly.iff
  case h =>
    unfold decodeVariant
    ebind readByte_exactly with idx
    exact ty_exactly t ht (.variant idx.toNat)
  intro v w
  constructor
  · rintro ⟨idx, _, b, rfl, h, rfl⟩
    exact ⟨idx, b, rfl, h⟩
  · rintro ⟨idx, b, rfl, h⟩
    exact ⟨idx, [idx], b, rfl, h, rfl⟩

/-- A variable that holds something already accepts the same, and the values agree. -/
theorem C81_over (t : Ty) (ht : t.Strait) (hx : t.Exported) (old : t.Val) (ho : t.Held old) (fin : Err) (bs r : Bytes) :
    (∃ y, (decode t old).runE fin bs = .ok (y, none) r) ↔ ∃ v w, bs = w ++ r ∧ t.Takes .decode v w ∧ ∃ y, (decode t old).runE fin bs = .ok (y, none) r ∧ t.Agree y v := by
  constructor
  · rintro ⟨y, hy⟩
    have := C37_reflect_partial t hx old t.zero ho (held_zero t) fin bs
    rw [hy] at this
    match hd : (decode t t.zero).runE fin bs, this with
    | .ok (v, none) r', h =>
      obtain ⟨h1, h2, h3⟩ := h
      obtain rfl := h1
      obtain ⟨w, hw, hv⟩ := (C81_decode t ht fin bs v r).1 hd
      exact ⟨v, w, hw, hv, y, hy, h3 rfl⟩
  · rintro ⟨_, _, _, _, y, hy, _⟩
    exact ⟨y, hy⟩

/-- Accepted byte strings have one meaning, and none is a proper prefix of another. -/
theorem C81_prefix_free (t : Ty) (ht : t.Strait) (v v' : t.Val) (w r : Bytes) (h1 : t.Takes .decode v w) (h2 : t.Takes .decode v' (w ++ r)) : r = [] ∧ v = v' :=
  exactly_prefix (C81_decode t ht) h1 h2

/-! ## Examples -/

/-- A length need not be minimal. -/
example : Basic.string.Takes (asc "hi") [0x82, 0x00, 104, 105] := ⟨[0x82, 0], by refine ⟨⟨[0x82], 0, rfl, by decide, by decide⟩, by decide, by decide, by decide⟩, by decide, rfl⟩
example : readString.run [0x82, 0x00, 104, 105, 7] = .ok (asc "hi", none) [7] := (C80_methods .string _ _ _ _).2 ⟨[0x82, 0x00, 104, 105], rfl, [0x82, 0],
  by refine ⟨⟨[0x82], 0, rfl, by decide, by decide⟩, by decide, by decide, by decide⟩, by decide, rfl⟩
/-- Every byte but 0 is true. -/
example : readBool.run [2] = .ok (true, none) [] := (C80_methods .bool _ _ _ _).2 ⟨[2], rfl, 2, rfl, rfl⟩
/-- An action with -1 authorizations has none. -/
example : (Action.unmarshal ⟨0, 0, [], []⟩).run ([1, 0, 0, 0, 0, 0, 0, 0] ++ [2, 0, 0, 0, 0, 0, 0, 0] ++ [255, 255, 255, 255, 255, 255, 255, 255, 255, 1] ++ [] ++ [1, 9]) = .ok (⟨1, 2, [], [9]⟩, none) [] :=
  (C80_chain .action (⟨0, 0, [], []⟩ : Action) rfl .eof _ (⟨1, 2, [], [9]⟩ : Action) []).2 ⟨_, (List.append_nil _).symm,
    [1, 0, 0, 0, 0, 0, 0, 0], [2, 0, 0, 0, 0, 0, 0, 0], [255, 255, 255, 255, 255, 255, 255, 255, 255, 1], [], [1, 9], by unfold LeForm; decide, by unfold LeForm; decide,
    .inr ⟨rfl, 2 ^ 64 - 1, ⟨⟨List.replicate 9 255, 1, rfl, by decide, by decide⟩, by decide, by decide +kernel, by decide⟩, by decide⟩, .nil,
    ⟨[1], ⟨⟨[], 1, rfl, by decide, by decide⟩, by decide, by decide, by decide⟩, by decide, rfl⟩, rfl⟩

/-- A map with a repeated key, an optional and a blank field -/
def takesTy : Ty := .struct (.cons .exported .none (.map (.basic .u8) (.basic .bool)) <| .cons .blank .none (.basic .u32) <| .cons .exported .optional (.ptr (.basic .u16)) .nil)
example : takesTy.Strait := by simp [takesTy, Ty.Strait, Fields.Strait, Ty.KeyType]
example : (decode takesTy takesTy.zero).run [3, 5, 1, 6, 0, 5, 0, 9, 1, 1] = .ok (((some [((5 : UInt8), false), ((6 : UInt8), false)] : Option (List (UInt8 × Bool))), (0 : UInt32), (some 257 : Option UInt16), ()), none) [] := by
  decide +kernel

end Verif
