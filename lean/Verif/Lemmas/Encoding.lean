import Verif.Model.Blob
import Verif.Spec.Encoding
import Verif.Lemmas.Byte
import Verif.Lemmas.PrimStrict
import Verif.Lemmas.Codec
namespace Verif

/-! ### Hex -/

theorem fromHexChar_lt (c : UInt8) (v : Nat) (h : fromHexChar c = some v) : v < 16 := by
  have : ∀ v ∈ fromHexChar c, v < 16 := forall_byte (P := fun c => ∀ v ∈ fromHexChar c, v < 16) (by decide +kernel) c
  exact this v h

theorem isHexDigit_lt (c : UInt8) (v : Nat) (h : IsHexDigit c v) : v < 16 := by
  rcases h with h | h
  · exact (List.getElem?_eq_some_iff.mp h).1
  · exact (List.getElem?_eq_some_iff.mp h).1

theorem fromHexChar_iff (c : UInt8) (v : Nat) : fromHexChar c = some v ↔ IsHexDigit c v := by
  by_cases hv : v < 16
  · have : ∀ v : Fin 16, fromHexChar c = some v.val ↔ ((asc "0123456789abcdef")[v.val]? = some c ∨ (asc "0123456789ABCDEF")[v.val]? = some c) :=
      forall_byte (P := fun c => ∀ v : Fin 16, fromHexChar c = some v.val ↔
        ((asc "0123456789abcdef")[v.val]? = some c ∨ (asc "0123456789ABCDEF")[v.val]? = some c)) (by decide +kernel) c
    exact this ⟨v, hv⟩
  · exact ⟨fun h => absurd (fromHexChar_lt c v h) hv, fun h => absurd (isHexDigit_lt c v h) hv⟩

theorem hexDecode_iff (s b : Bytes) : hexDecode s = (b, none) ↔ HexText s b := by
  fun_induction hexDecode s generalizing b with
  | case1 =>
    constructor
    · intro h; simp at h; subst h; exact .nil
    · intro h; cases h; rfl
  | case2 a h =>
    constructor
    · intro h; simp at h
    · intro h; cases h
  | case3 a x h =>
    constructor
    · intro h; simp at h
    · intro h; cases h
  | case4 a c rest x y hy hx r e hr ih =>
    have h1 := fromHexChar_lt _ _ hx
    have h2 := fromHexChar_lt _ _ hy
    constructor
    · intro h
      simp only [Prod.mk.injEq] at h
      obtain ⟨rfl, rfl⟩ := h
      refine .cons ((fromHexChar_iff _ _).mp hx) ((fromHexChar_iff _ _).mp hy) ?_ ((ih r).mp hr)
      simp; omega
    · intro h
      cases h with
      | cons ha hc hv ht =>
        rw [← fromHexChar_iff] at ha hc
        rw [ha] at hx; rw [hc] at hy
        cases hx; cases hy
        have := (ih _).mpr ht
        rw [hr] at this
        cases this
        simp only [Prod.mk.injEq, List.cons.injEq, and_true]
        apply UInt8.toNat_inj.mp
        simp; omega
  | case5 a c rest h =>
    constructor
    · intro h; simp at h
    · intro hh
      cases hh with
      | cons ha hc hv ht =>
        rw [← fromHexChar_iff] at ha hc
        exact (h _ _ ha hc).elim

theorem hexEncode_text (b : Bytes) : HexText (hexEncode b) b := by
  have hd : ∀ v : Fin 16, (asc "0123456789abcdef")[v.val]? = some (hexDigit v.val) := by decide +kernel
  induction b with
  | nil => exact .nil
  | cons c b ih =>
    have h1 := c.toNat_lt
    exact .cons (Or.inl (hd ⟨c.toNat / 16, by omega⟩)) (Or.inl (hd ⟨c.toNat % 16, by omega⟩)) (by simp only; omega) ih

theorem HexText.length {s b : Bytes} (h : HexText s b) : s.length = 2 * b.length := by
  induction h with
  | nil => rfl
  | cons _ _ _ _ ih => simp only [List.length_cons, ih]; omega

theorem HexText.unique {s b b' : Bytes} (h : HexText s b) (h' : HexText s b') : b = b' := by
  rw [← hexDecode_iff] at h h'
  rw [h] at h'; exact (Prod.mk.inj h').1

/-! ### Base64 -/

theorem isB64Digit_lt {c : UInt8} {v : Nat} (h : IsB64Digit c v) : v < 64 := (List.getElem?_eq_some_iff.mp h).1

theorem b64Val_lt (c : UInt8) (v : Nat) (h : b64Val c = some v) : v < 64 :=
  forall_byte (P := fun c => ∀ v ∈ b64Val c, v < 64) (by decide +kernel) c v h

theorem b64Val_iff (c : UInt8) (v : Nat) : b64Val c = some v ↔ IsB64Digit c v := by
  by_cases hv : v < 64
  · exact forall_byte (P := fun c => ∀ v : Fin 64, b64Val c = some v.val ↔
      (asc "ABCDEFGHIJKLMNOPQRSTUVWXYZabcdefghijklmnopqrstuvwxyz0123456789+/")[v.val]? = some c) (by decide +kernel) c ⟨v, hv⟩
  · exact ⟨fun h => absurd (b64Val_lt c v h) hv, fun h => absurd (isB64Digit_lt h) hv⟩

theorem b64Char_digit (v : Nat) (h : v < 64) : IsB64Digit (b64Char v) v := by
  unfold IsB64Digit b64Char
  rw [List.getD_eq_getElem?_getD]
  have : v < (asc "ABCDEFGHIJKLMNOPQRSTUVWXYZabcdefghijklmnopqrstuvwxyz0123456789+/").length := h
  rw [List.getElem?_eq_getElem this, b64Alphabet, List.getElem?_eq_getElem this]
  rfl

theorem isNL_61 : isNL 61 = false := by decide
theorem b64Val_61 : b64Val 61 = none := by decide

theorem b64Val_none_of_nl (c : UInt8) : isNL c = true → b64Val c = none :=
  forall_byte (P := fun c => isNL c = true → b64Val c = none) (by decide +kernel) c

def noNL (s : Bytes) : Bytes := s.filter (fun c => !isNL c)

theorem noNL_dropWhile (s : Bytes) : noNL (s.dropWhile isNL) = noNL s := by
  induction s with
  | nil => rfl
  | cons c s ih =>
    by_cases h : isNL c
    · rw [List.dropWhile_cons_of_pos h, ih]; simp [noNL, h]
    · rw [List.dropWhile_cons_of_neg h]

theorem dropWhile_noNL (s : Bytes) : (noNL s).dropWhile isNL = noNL s := by
  unfold noNL
  induction s with
  | nil => rfl
  | cons c s ih =>
    by_cases h : isNL c
    · simpa [h] using ih
    · simp [h]

theorem dropWhile_nil (s : Bytes) : s.dropWhile isNL = [] ↔ noNL s = [] := by
  constructor
  · intro h; rw [← noNL_dropWhile, h]; rfl
  · intro h
    induction s with
    | nil => rfl
    | cons c s ih =>
      by_cases hc : isNL c
      · rw [List.dropWhile_cons_of_pos hc]; apply ih; simpa [noNL, hc] using h
      · simp [noNL, hc] at h

theorem b64Tail_noNL (out s : Bytes) : b64Tail out s = b64Tail out (noNL s) := by
  unfold b64Tail
  rw [dropWhile_noNL]
  simp only [dropWhile_nil]

theorem b64Pad_noNL (acc : List Nat) (s : Bytes) : b64Pad acc s = b64Pad acc (noNL s) := by
  unfold b64Pad
  split
  · rw [dropWhile_noNL, ← noNL_dropWhile]
    cases hs : s.dropWhile isNL with
    | nil => rfl
    | cons c2 s2 =>
      have hc2 : ¬ isNL c2 = true := by
        have hh := List.head?_dropWhile_not isNL s
        rw [hs] at hh
        simpa using hh
      rw [show noNL (c2 :: s2) = c2 :: noNL s2 by simp [noNL, hc2]]
      simp only
      rw [b64Tail_noNL]
  · rw [b64Tail_noNL]
  · rfl

theorem b64Go_noNL (acc : List Nat) (s : Bytes) : b64Go acc s = b64Go acc (noNL s) := by
  induction s generalizing acc with
  | nil => rfl
  | cons c s ih =>
    by_cases hc : isNL c
    · have h1 : noNL (c :: s) = noNL s := by simp [noNL, hc]
      rw [h1, b64Go, b64Val_none_of_nl c hc]
      simp only [hc, if_true]
      exact ih acc
    · have h1 : noNL (c :: s) = c :: noNL s := by simp [noNL, hc]
      rw [h1, b64Go, b64Go]
      cases hv : b64Val c with
      | some d =>
        simp only
        split
        · rw [ih]
        · rw [ih]
      | none =>
        simp only [hc, Bool.false_eq_true, if_false]
        split
        · rfl
        · rename_i hne
          exact b64Pad_noNL acc s

theorem b64Tail_iff (out s b : Bytes) (h : noNL s = s) : b64Tail out s = (b, none) ↔ s = [] ∧ b = out := by
  unfold b64Tail
  by_cases hs : s.dropWhile isNL = []
  · rw [if_pos hs]
    rw [dropWhile_nil, h] at hs
    simp [hs, eq_comm]
  · rw [if_neg hs]
    rw [dropWhile_nil, h] at hs
    simp [hs]

theorem noNL_tail {c : UInt8} {s : Bytes} (h : noNL (c :: s) = c :: s) : isNL c = false ∧ noNL s = s := by
  unfold noNL at *
  rw [List.filter_eq_self] at h
  constructor
  · have := h c (by simp); simpa using this
  · rw [List.filter_eq_self]; intro a ha; exact h a (by simp [ha])

/-- One step inside a quantum with fewer than two sextets. -/
theorem b64Go_few (acc : List Nat) (s b : Bytes) (hl : acc = [] ∨ ∃ x, acc = [x]) (h : noNL s = s) :
    b64Go acc s = (b, none) ↔ (acc = [] ∧ s = [] ∧ b = []) ∨ ∃ p v t, s = p :: t ∧ b64Val p = some v ∧ b64Go (acc ++ [v]) t = (b, none) := by
  cases s with
  | nil => 
    rw [b64Go]
    by_cases ha : acc = []
    · simp [ha, eq_comm]
    · simp [ha]
  | cons c s =>
    obtain ⟨h1, h2⟩ := noNL_tail h
    rw [b64Go]
    rcases hl with rfl | ⟨x, rfl⟩ <;>
    · cases hv : b64Val c with
      | some d => simp [hv]
      | none => simp [hv, h1, b64Pad]

theorem b64Go_two (x y : Nat) (s b : Bytes) (h : noNL s = s) :
    b64Go [x, y] s = (b, none) ↔ (s = [61, 61] ∧ b = [((x * 2 ^ 18 + y * 2 ^ 12) / 2 ^ 16).toUInt8]) ∨
      ∃ p v t, s = p :: t ∧ b64Val p = some v ∧ b64Go [x, y, v] t = (b, none) := by
  cases s with
  | nil => simp [b64Go]
  | cons c s =>
    obtain ⟨h1, h2⟩ := noNL_tail h
    rw [b64Go]
    cases hv : b64Val c with
    | some d =>
      have hc : c ≠ 61 := by rintro rfl; exact absurd hv (by rw [b64Val_61]; simp)
      simp [hv, hc]
    | none =>
      simp only [h1, Bool.false_eq_true, if_false]
      by_cases hc : c = 61
      · subst hc
        simp only [ne_eq, not_true_eq_false, if_false, b64Pad]
        have hd : s.dropWhile isNL = s := by rw [← h2, dropWhile_noNL]
        rw [hd]
        cases s with
        | nil => simp [hv]
        | cons c2 s2 =>
          obtain ⟨h3, h4⟩ := noNL_tail h2
          simp only
          by_cases hc2 : c2 = 61
          · subst hc2
            rw [if_neg (by simp), b64Tail_iff _ _ _ h4]
            simp [hv]
          · simp [hv, hc2]
      · simp [hc, hv]

theorem b64Go_three (x y z : Nat) (s b : Bytes) (h : noNL s = s) :
    b64Go [x, y, z] s = (b, none) ↔
      (s = [61] ∧ b = [((x * 2 ^ 18 + y * 2 ^ 12 + z * 2 ^ 6) / 2 ^ 16).toUInt8, ((x * 2 ^ 18 + y * 2 ^ 12 + z * 2 ^ 6) / 2 ^ 8).toUInt8]) ∨
      ∃ p w t r, s = p :: t ∧ b64Val p = some w ∧ b64Go [] t = (r, none) ∧
        b = ((x * 2 ^ 18 + y * 2 ^ 12 + z * 2 ^ 6 + w) / 2 ^ 16).toUInt8 :: ((x * 2 ^ 18 + y * 2 ^ 12 + z * 2 ^ 6 + w) / 2 ^ 8).toUInt8 ::
          (x * 2 ^ 18 + y * 2 ^ 12 + z * 2 ^ 6 + w).toUInt8 :: r := by
  cases s with
  | nil => simp [b64Go]
  | cons c s =>
    obtain ⟨h1, h2⟩ := noNL_tail h
    rw [b64Go]
    cases hv : b64Val c with
    | some d =>
      have hc : c ≠ 61 := by rintro rfl; exact absurd hv (by rw [b64Val_61]; simp)
      rcases hr : b64Go [] s with ⟨r, e⟩
      simp only [List.length_cons, List.length_nil, Nat.reduceAdd, if_true, List.getD_cons_zero, List.getD_cons_succ, b64Three, List.cons_append, List.nil_append,
        Prod.mk.injEq, List.cons.injEq, hc, false_and, false_or]
      constructor
      · rintro ⟨rfl, rfl⟩; exact ⟨c, d, s, r, ⟨rfl, rfl⟩, hv, hr, rfl⟩
      · rintro ⟨p, w, t, r', ⟨rfl, rfl⟩, h5, h6, rfl⟩
        rw [hv] at h5; cases h5; rw [hr] at h6; cases h6; exact ⟨rfl, rfl⟩
    | none =>
      simp only [h1, Bool.false_eq_true, if_false]
      by_cases hc : c = 61
      · subst hc
        rw [if_neg (by simp), b64Pad, b64Tail_iff _ _ _ h2]
        simp [hv]
      · simp [hc, hv]

theorem toUInt8_eq (n : Nat) (a : UInt8) (h : n % 256 = a.toNat) : n.toUInt8 = a := by
  apply UInt8.toNat_inj.mp; simpa using h
theorem eq_toUInt8 (n : Nat) : (n.toUInt8).toNat = n % 256 := by simp

theorem b64Go_iff (s b : Bytes) (h : noNL s = s) : b64Go [] s = (b, none) ↔ B64Text false s b := by
  constructor
  · intro hd
    rcases (b64Go_few [] s b (Or.inl rfl) h).mp hd with ⟨_, rfl, rfl⟩ | ⟨p, x, t, rfl, hp, hd⟩
    · exact .nil
    have h := (noNL_tail h).2
    rcases (b64Go_few _ t b (Or.inr ⟨x, rfl⟩) h).mp hd with ⟨h0, _⟩ | ⟨q, y, t, rfl, hq, hd⟩
    · simp at h0
    have h := (noNL_tail h).2
    have lx := b64Val_lt _ _ hp
    have ly := b64Val_lt _ _ hq
    rw [b64Val_iff] at hp hq
    rcases (b64Go_two x y t b h).mp hd with ⟨rfl, rfl⟩ | ⟨r, z, t, rfl, hr, hd⟩
    · exact .one (low := y % 16) hp hq (by rw [eq_toUInt8]; omega) (by omega) (by simp)
    have h := (noNL_tail h).2
    have lz := b64Val_lt _ _ hr
    rw [b64Val_iff] at hr
    rcases (b64Go_three x y z t b h).mp hd with ⟨rfl, rfl⟩ | ⟨u, w, t, r', rfl, hu, hd', rfl⟩
    · exact .two (low := z % 4) hp hq hr (by rw [eq_toUInt8, eq_toUInt8]; omega) (by omega) (by simp)
    have h := (noNL_tail h).2
    have lw := b64Val_lt _ _ hu
    rw [b64Val_iff] at hu
    exact .three hp hq hr hu (by rw [eq_toUInt8, eq_toUInt8, eq_toUInt8]; omega) ((b64Go_iff t r' h).mp hd')
  · intro ht
    induction ht with
    | nil => rfl
    | @one p q x y a low hp hq hv hl _ =>
      have := isB64Digit_lt hp
      have := isB64Digit_lt hq
      rw [← b64Val_iff] at hp hq
      have h1 := (noNL_tail h).2
      have h2 := (noNL_tail h1).2
      refine (b64Go_few [] _ _ (Or.inl rfl) h).mpr (Or.inr ⟨_, _, _, rfl, hp, ?_⟩)
      refine (b64Go_few _ _ _ (Or.inr ⟨_, rfl⟩) h1).mpr (Or.inr ⟨_, _, _, rfl, hq, ?_⟩)
      refine (b64Go_two _ _ _ _ h2).mpr (Or.inl ⟨rfl, ?_⟩)
      have := a.toNat_lt
      rw [toUInt8_eq _ a (by omega)]
    | @two p q r x y z a b low hp hq hr hv hl _ =>
      have := isB64Digit_lt hp
      have := isB64Digit_lt hq
      have := isB64Digit_lt hr
      rw [← b64Val_iff] at hp hq hr
      have h1 := (noNL_tail h).2
      have h2 := (noNL_tail h1).2
      have h3 := (noNL_tail h2).2
      refine (b64Go_few [] _ _ (Or.inl rfl) h).mpr (Or.inr ⟨_, _, _, rfl, hp, ?_⟩)
      refine (b64Go_few _ _ _ (Or.inr ⟨_, rfl⟩) h1).mpr (Or.inr ⟨_, _, _, rfl, hq, ?_⟩)
      refine (b64Go_two _ _ _ _ h2).mpr (Or.inr ⟨_, _, _, rfl, hr, ?_⟩)
      refine (b64Go_three _ _ _ _ _ h3).mpr (Or.inl ⟨rfl, ?_⟩)
      have := a.toNat_lt
      have := b.toNat_lt
      rw [toUInt8_eq _ a (by omega), toUInt8_eq _ b (by omega)]
    | @three p q r t x y z w a b c s bs hp hq hr ht hv _ ih =>
      have := isB64Digit_lt hp
      have := isB64Digit_lt hq
      have := isB64Digit_lt hr
      have := isB64Digit_lt ht
      rw [← b64Val_iff] at hp hq hr ht
      have h1 := (noNL_tail h).2
      have h2 := (noNL_tail h1).2
      have h3 := (noNL_tail h2).2
      have h4 := (noNL_tail h3).2
      refine (b64Go_few [] _ _ (Or.inl rfl) h).mpr (Or.inr ⟨_, _, _, rfl, hp, ?_⟩)
      refine (b64Go_few _ _ _ (Or.inr ⟨_, rfl⟩) h1).mpr (Or.inr ⟨_, _, _, rfl, hq, ?_⟩)
      refine (b64Go_two _ _ _ _ h2).mpr (Or.inr ⟨_, _, _, rfl, hr, ?_⟩)
      refine (b64Go_three _ _ _ _ _ h3).mpr (Or.inr ⟨_, _, _, _, rfl, ht, ih h4, ?_⟩)
      have := a.toNat_lt
      have := b.toNat_lt
      have := c.toNat_lt
      rw [toUInt8_eq _ a (by omega), toUInt8_eq _ b (by omega), toUInt8_eq _ c (by omega)]
termination_by s.length

theorem b64Decode_iff (s b : Bytes) : b64Decode s = (b, none) ↔ B64Text false (noNL s) b := by
  unfold b64Decode
  rw [b64Go_noNL, b64Go_iff]
  simp [noNL]

theorem b64Encode_text (b : Bytes) : B64Text true (b64Encode b) b := by
  fun_induction b64Encode b with
  | case1 => exact .nil
  | case2 a v =>
    have := a.toNat_lt
    exact .one (low := 0) (b64Char_digit _ (by omega)) (b64Char_digit _ (by omega)) (by simp only [v]; omega) (by omega) (fun _ => rfl)
  | case3 a b v =>
    have := a.toNat_lt
    have := b.toNat_lt
    exact .two (low := 0) (b64Char_digit _ (by omega)) (b64Char_digit _ (by omega)) (b64Char_digit _ (by omega)) (by simp only [v]; omega)
      (by omega) (fun _ => rfl)
  | case4 a b c rest v ih =>
    have := a.toNat_lt
    have := b.toNat_lt
    have := c.toNat_lt
    exact .three (b64Char_digit _ (by omega)) (b64Char_digit _ (by omega)) (b64Char_digit _ (by omega)) (b64Char_digit _ (by omega))
      (by simp only [v]; omega) ih

theorem b64Digit_not_nl {c : UInt8} {v : Nat} (h : IsB64Digit c v) : isNL c = false ∧ c ≠ 61 := by
  rw [← b64Val_iff] at h
  constructor
  · cases hn : isNL c with
    | false => rfl
    | true => rw [b64Val_none_of_nl c hn] at h; simp at h
  · rintro rfl; rw [b64Val_61] at h; simp at h

theorem B64Text.loosen {st : Bool} {s b : Bytes} (h : B64Text st s b) : B64Text false s b := by
  induction h with
  | nil => exact .nil
  | one a b c d _ => exact .one a b c d (by simp)
  | two a b c d e _ => exact .two a b c d e (by simp)
  | three a b c d e _ ih => exact .three a b c d e ih

theorem B64Text.noNL {st : Bool} {s b : Bytes} (h : B64Text st s b) : Verif.noNL s = s := by
  have : ∀ x ∈ s, (!isNL x) = true := by
    induction h with
    | nil => simp
    | one a b _ _ _ => simp [(b64Digit_not_nl a).1, (b64Digit_not_nl b).1, isNL_61]
    | two a b c _ _ _ => simp [(b64Digit_not_nl a).1, (b64Digit_not_nl b).1, (b64Digit_not_nl c).1, isNL_61]
    | three a b c d _ _ ih =>
      simp only [List.mem_cons]
      rintro x (rfl | rfl | rfl | rfl | hx)
      · simp [(b64Digit_not_nl a).1]
      · simp [(b64Digit_not_nl b).1]
      · simp [(b64Digit_not_nl c).1]
      · simp [(b64Digit_not_nl d).1]
      · exact ih x hx
  exact List.filter_eq_self.mpr this

/-- The text without padding, and the padding. -/
theorem B64Text.shape {st : Bool} {s b : Bytes} (h : B64Text st s b) :
    s.length % 4 = 0 ∧ ∃ core pad, s = core ++ pad ∧ (61 ∉ core) ∧ (pad = [] ∨ pad = [61] ∨ pad = [61, 61]) := by
  induction h with
  | nil => exact ⟨rfl, [], [], rfl, by simp, by simp⟩
  | @one p q _ _ _ _ a b _ _ _ =>
    exact ⟨by simp, [p, q], [61, 61], rfl, by simp [(b64Digit_not_nl a).2.symm, (b64Digit_not_nl b).2.symm], by simp⟩
  | @two p q r _ _ _ _ _ _ a b c _ _ _ =>
    exact ⟨by simp, [p, q, r], [61], rfl, by simp [(b64Digit_not_nl a).2.symm, (b64Digit_not_nl b).2.symm, (b64Digit_not_nl c).2.symm], by simp⟩
  | @three p q r t _ _ _ _ _ _ _ _ _ a b c d _ _ ih =>
    obtain ⟨h1, core, pad, rfl, h2, h3⟩ := ih
    refine ⟨by simp only [List.length_cons]; omega, p :: q :: r :: t :: core, pad, rfl, ?_, h3⟩
    simp [(b64Digit_not_nl a).2.symm, (b64Digit_not_nl b).2.symm, (b64Digit_not_nl c).2.symm, (b64Digit_not_nl d).2.symm, h2]

/-- Padding any cut version of a padded text restores it. -/
theorem blobPad_restores {st : Bool} {s b core pad : Bytes} (h : B64Text st s b) (hs : s = core ++ pad) (hp : ∀ c ∈ pad, c = 61) :
    core ++ blobPad core.length = s := by
  obtain ⟨h1, core0, pad0, h2, h3, h4⟩ := h.shape
  have hpr : pad = List.replicate pad.length 61 := List.eq_replicate_of_mem hp
  have hp0 : pad0 = List.replicate pad0.length 61 := by rcases h4 with rfl | rfl | rfl <;> rfl
  have hlen0 : pad0.length ≤ 2 := by rcases h4 with rfl | rfl | rfl <;> simp
  have hle : pad.length ≤ pad0.length := by
    refine Decidable.byContradiction fun hc => ?_
    have hlt : core.length < core0.length := by
      have := congrArg List.length (hs.symm.trans h2)
      simp only [List.length_append] at this; omega
    have hmem : 61 ∈ core0 := by
      have he : core0 ++ pad0 = core ++ pad := by rw [← h2, hs]
      have : core0 = core ++ pad.take (core0.length - core.length) := by
        have := congrArg (List.take core0.length) he
        rw [List.take_left, List.take_append, List.take_of_length_le (by omega)] at this
        exact this
      rw [this]
      apply List.mem_append_right
      rw [hpr, List.take_replicate]
      exact List.mem_replicate.mpr ⟨by simp only [Nat.min_def]; split <;> omega, rfl⟩
    exact h3 hmem
  have hl := congrArg List.length hs
  rw [List.length_append] at hl
  rw [hs]
  congr 1
  unfold blobPad
  rw [hpr]
  have : pad.length = 0 ∨ pad.length = 1 ∨ pad.length = 2 := by omega
  rcases this with h | h | h <;> rw [h]
  · rw [if_neg (by omega), if_neg (by omega)]; rfl
  · rw [if_neg (by omega), if_pos (by omega)]; rfl
  · rw [if_pos (by omega)]; rfl

/-! ### Binary -/

theorem bytesT_marshal_eq (b : Bytes) : BytesT.marshal b = writeString b := rfl

theorem bytesT_unmarshal_reads (v old : Bytes) (h : v.length < 2 ^ 28) : (BytesT.unmarshal old).Reads (varuintBytes v.length ++ v) v := by
  intro fin rest
  have : v.length ≤ maxAlloc := by unfold maxAlloc; omega
  simp only [BytesT.unmarshal, Dec.runE_bind, List.append_assoc, readVaruint_reads v.length h fin _, Out.bind_ok,
    goInt_toUInt64 v.length (by omega), readBytes_reads fin v.length this v rest rfl, Dec.runE_pure]

theorem bytesT_unmarshal_strict (s : Bool) (old : Bytes) : (BytesT.unmarshal old).Strict s := by
  intro P h
  strict_try (readVaruint_strict s P h)
  apply readBytes_bind_strict
  · rintro ⟨a, b, _ | e⟩ <;> trivial
  · intro a b e h; exact h

theorem checksum_unmarshal_reads (n : Nat) (hn : n ≤ maxAlloc) (c old : Bytes) (h : c.length = n) : (Checksum.unmarshal n old).Reads c c := by
  intro fin rest
  simp only [Checksum.unmarshal, Dec.runE_bind, readBytes_reads fin n hn c rest h, Out.bind_ok, Dec.runE_pure,
    List.take_of_length_le (Nat.le_of_eq h)]

theorem checksum_unmarshal_strict (s : Bool) (n : Nat) (old : Bytes) : (Checksum.unmarshal n old).Strict s := by
  intro P h
  apply readBytes_bind_strict
  · rintro ⟨a, b, _ | e⟩ <;> trivial
  · intro a b e h; exact h

end Verif
