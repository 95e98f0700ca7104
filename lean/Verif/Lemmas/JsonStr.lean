import Verif.Spec.Json
/-! Helper lemmas: JSON string literals. -/
namespace Verif

theorem u8lt {a : Nat} (h : a < 256) : a.toUInt8.toNat = a := by simp [Nat.toUInt8]; omega

/-! ## UTF-8 -/

theorem utf8Encode_char {r : Nat} {c : Bytes} (h : Utf8Char r c) : utf8Encode r = c := by
  cases h with
  | one a ha => unfold utf8Encode; rw [if_pos (by omega)]; simp
  | two a b ha hb h =>
    unfold utf8Encode
    rw [if_neg (by omega), if_pos (by omega)]
    congr 2 <;> first | (congr 1; omega) | (congr 2; omega)
  | three a b c ha hb hc h hs =>
    unfold utf8Encode
    unfold Scalar at hs
    rw [if_neg (by omega), if_neg (by omega), if_neg (by omega), if_pos (by omega)]
    have h1 : (a * 4096 + b * 64 + c) / 4096 = a := by omega
    have h2 : (a * 4096 + b * 64 + c) / 64 % 64 = b := by omega
    have h3 : (a * 4096 + b * 64 + c) % 64 = c := by omega
    rw [h1, h2, h3]
  | four a b c d ha hb hc hd h hs =>
    unfold utf8Encode
    unfold Scalar at hs
    rw [if_neg (by omega), if_neg (by omega), if_neg (by omega), if_neg (by omega)]
    have h1 : (a * 262144 + b * 4096 + c * 64 + d) / 262144 = a := by omega
    have h2 : (a * 262144 + b * 4096 + c * 64 + d) / 4096 % 64 = b := by omega
    have h3 : (a * 262144 + b * 4096 + c * 64 + d) / 64 % 64 = c := by omega
    have h4 : (a * 262144 + b * 4096 + c * 64 + d) % 64 = d := by omega
    rw [h1, h2, h3, h4]

theorem u8_lt_iff (a b : UInt8) : a < b ↔ a.toNat < b.toNat := Iff.rfl
theorem u8_le_iff (a b : UInt8) : a ≤ b ↔ a.toNat ≤ b.toNat := Iff.rfl
theorem u8_eq_iff (a b : UInt8) : a = b ↔ a.toNat = b.toNat := UInt8.toNat_inj.symm

theorem contIn_bounds (lo hi b : UInt8) : contIn lo hi b = true ↔ lo.toNat ≤ b.toNat ∧ b.toNat ≤ hi.toNat := by
  unfold contIn; rw [Bool.and_eq_true, decide_eq_true_iff, decide_eq_true_iff]; rfl

theorem decodeRune_char {r : Nat} {c : Bytes} (h : Utf8Char r c) (s : Bytes) : decodeRune (c ++ s) = (r, c.length) := by
  cases h with
  | one a ha => simp only [List.cons_append, List.nil_append, decodeRune]; rw [if_pos (by rw [u8_lt_iff]; exact ha)]; rfl
  | two a b ha hb h =>
    have e1 := u8lt (show 192 + a < 256 by omega)
    have e2 := u8lt (show 128 + b < 256 by omega)
    simp only [List.cons_append, List.nil_append, decodeRune]
    rw [if_neg (by rw [u8_lt_iff, e1]; exact Nat.not_lt.2 (by change 128 ≤ _; omega))]
    rw [if_neg (by rw [Bool.or_eq_true, decide_eq_true_iff, decide_eq_true_iff, u8_lt_iff, GT.gt, u8_lt_iff, e1]; change ¬ (192 + a < 194 ∨ 244 < 192 + a); omega)]
    have hr : secondRange (192 + a).toUInt8 = (0x80, 0xBF) := by
      unfold secondRange
      simp only [beq_iff_eq, u8_eq_iff, e1]
      rw [if_neg (by change ¬ (192 + a = 224); omega), if_neg (by change ¬ (192 + a = 237); omega), if_neg (by change ¬ (192 + a = 240); omega), if_neg (by change ¬ (192 + a = 244); omega)]
    rw [if_neg (by rw [hr, Bool.not_eq_true, Bool.not_eq_false', contIn_bounds, e2]; change 128 ≤ _ ∧ _ ≤ 191; omega)]
    rw [if_pos (by rw [u8_lt_iff, e1]; change 192 + a < 224; omega), e1, e2]
    have : (192 + a) % 32 = a := by omega
    have h2 : (128 + b) % 64 = b := by omega
    rw [this, h2]; rfl
  | three a b c ha hb hc h hs =>
    unfold Scalar at hs
    have e1 := u8lt (show 224 + a < 256 by omega)
    have e2 := u8lt (show 128 + b < 256 by omega)
    have e3 := u8lt (show 128 + c < 256 by omega)
    simp only [List.cons_append, List.nil_append, decodeRune]
    rw [if_neg (by rw [u8_lt_iff, e1]; change ¬ (224 + a < 128); omega)]
    rw [if_neg (by rw [Bool.or_eq_true, decide_eq_true_iff, decide_eq_true_iff, u8_lt_iff, GT.gt, u8_lt_iff, e1]; change ¬ (224 + a < 194 ∨ 244 < 224 + a); omega)]
    have hr : contIn (secondRange (224 + a).toUInt8).1 (secondRange (224 + a).toUInt8).2 (128 + b).toUInt8 = true := by
      rw [contIn_bounds, e2]
      unfold secondRange
      simp only [beq_iff_eq, u8_eq_iff, e1]
      change (if 224 + a = 224 then _ else if 224 + a = 237 then _ else if 224 + a = 240 then _ else if 224 + a = 244 then _ else _ : UInt8 × UInt8).1.toNat ≤ _ ∧
        _ ≤ (if 224 + a = 224 then _ else if 224 + a = 237 then _ else if 224 + a = 240 then _ else if 224 + a = 244 then _ else _ : UInt8 × UInt8).2.toNat
      by_cases h1 : 224 + a = 224
      · rw [if_pos h1]; change 160 ≤ _ ∧ _ ≤ 191; omega
      · rw [if_neg h1]
        by_cases h2 : 224 + a = 237
        · rw [if_pos h2]; change 128 ≤ _ ∧ _ ≤ 159; omega
        · rw [if_neg h2, if_neg (by omega), if_neg (by omega)]; change 128 ≤ _ ∧ _ ≤ 191; omega
    rw [hr]
    rw [if_neg (by simp), if_neg (by rw [u8_lt_iff, e1]; change ¬ (224 + a < 224); omega)]
    rw [if_neg (by rw [Bool.not_eq_true, Bool.not_eq_false', contIn_bounds, e3]; change 128 ≤ _ ∧ _ ≤ 191; omega), if_pos (by rw [u8_lt_iff, e1]; change 224 + a < 240; omega), e1, e2, e3]
    have h1 : (224 + a) % 16 = a := by omega
    have h2 : (128 + b) % 64 = b := by omega
    have h3 : (128 + c) % 64 = c := by omega
    rw [h1, h2, h3]; rfl
  | four a b c d ha hb hc hd h hs =>
    unfold Scalar at hs
    have e1 := u8lt (show 240 + a < 256 by omega)
    have e2 := u8lt (show 128 + b < 256 by omega)
    have e3 := u8lt (show 128 + c < 256 by omega)
    have e4 := u8lt (show 128 + d < 256 by omega)
    simp only [List.cons_append, List.nil_append, decodeRune]
    rw [if_neg (by rw [u8_lt_iff, e1]; change ¬ (240 + a < 128); omega)]
    rw [if_neg (by rw [Bool.or_eq_true, decide_eq_true_iff, decide_eq_true_iff, u8_lt_iff, GT.gt, u8_lt_iff, e1]; change ¬ (240 + a < 194 ∨ 244 < 240 + a); omega)]
    have hr : contIn (secondRange (240 + a).toUInt8).1 (secondRange (240 + a).toUInt8).2 (128 + b).toUInt8 = true := by
      rw [contIn_bounds, e2]
      unfold secondRange
      simp only [beq_iff_eq, u8_eq_iff, e1]
      change (if 240 + a = 224 then _ else if 240 + a = 237 then _ else if 240 + a = 240 then _ else if 240 + a = 244 then _ else _ : UInt8 × UInt8).1.toNat ≤ _ ∧
        _ ≤ (if 240 + a = 224 then _ else if 240 + a = 237 then _ else if 240 + a = 240 then _ else if 240 + a = 244 then _ else _ : UInt8 × UInt8).2.toNat
      rw [if_neg (by omega), if_neg (by omega)]
      by_cases h1 : 240 + a = 240
      · rw [if_pos h1]; change 144 ≤ _ ∧ _ ≤ 191; omega
      · rw [if_neg h1]
        by_cases h2 : 240 + a = 244
        · rw [if_pos h2]; change 128 ≤ _ ∧ _ ≤ 143; omega
        · rw [if_neg h2]; change 128 ≤ _ ∧ _ ≤ 191; omega
    rw [hr]
    rw [if_neg (by simp), if_neg (by rw [u8_lt_iff, e1]; change ¬ (240 + a < 224); omega)]
    rw [if_neg (by rw [Bool.not_eq_true, Bool.not_eq_false', contIn_bounds, e3]; change 128 ≤ _ ∧ _ ≤ 191; omega), if_neg (by rw [u8_lt_iff, e1]; change ¬ (240 + a < 240); omega)]
    rw [if_neg (by rw [Bool.not_eq_true, Bool.not_eq_false', contIn_bounds, e4]; change 128 ≤ _ ∧ _ ≤ 191; omega), e1, e2, e3, e4]
    have h1 : (240 + a) % 8 = a := by omega
    have h2 : (128 + b) % 64 = b := by omega
    have h3 : (128 + c) % 64 = c := by omega
    have h4 : (128 + d) % 64 = d := by omega
    rw [h1, h2, h3, h4]; rfl

/-- The first byte of a character of two or more bytes -/
theorem char_head {r : Nat} {c : Bytes} (h : Utf8Char r c) (hl : c.length ≠ 1) : ∃ b t, c = b :: t ∧ 128 ≤ b.toNat := by
  cases h with
  | one a ha => exact absurd rfl hl
  | two a b ha hb h => exact ⟨_, _, rfl, by rw [u8lt (by omega)]; omega⟩
  | three a b c ha hb hc h hs => exact ⟨_, _, rfl, by rw [u8lt (by omega)]; omega⟩
  | four a b c d ha hb hc hd h hs => exact ⟨_, _, rfl, by rw [u8lt (by omega)]; omega⟩
theorem char_scalar {r : Nat} {c : Bytes} (h : Utf8Char r c) : Scalar r := by
  cases h <;> first | assumption | (unfold Scalar; omega)

/-! ## Escapes -/

theorem fromHex_hexDigit' (n : Nat) (h : n < 16) : fromHexChar (hexDigit n) = some n := by
  have : ∀ n : Fin 16, fromHexChar (hexDigit n.val) = some n.val := by decide +kernel
  exact this ⟨n, h⟩

theorem getu4_uEscape (r : Nat) (h : r < 65536) (s : Bytes) : getu4 ((uEscape r).drop 2 ++ s) = some r := by
  simp only [uEscape, List.drop_succ_cons, List.drop_zero, List.cons_append, List.nil_append, getu4]
  rw [fromHex_hexDigit' _ (Nat.mod_lt _ (by decide)), fromHex_hexDigit' _ (Nat.mod_lt _ (by decide)), fromHex_hexDigit' _ (Nat.mod_lt _ (by decide)), fromHex_hexDigit' _ (Nat.mod_lt _ (by decide))]
  simp only [Option.some.injEq]
  omega

theorem unq_uEscape (g r : Nat) (h : r < 65536) (hs : isSurrogate r = false) (s : Bytes) : unqAux (g + 1) (uEscape r ++ s) = utf8Encode r ++ unqAux g s := by
  have e := getu4_uEscape r h s
  simp only [uEscape, List.drop_succ_cons, List.drop_zero, List.cons_append, List.nil_append] at e
  simp only [uEscape, List.cons_append, List.nil_append, unqAux, if_true]
  rw [e]
  simp only [hs, Bool.false_eq_true, if_false, List.drop_succ_cons, List.drop_zero]

theorem unq_escByte (g : Nat) (a : UInt8) (ha : a.toNat < 128) (s : Bytes) : unqAux (g + 1) (escByte a ++ s) = a :: unqAux g s := by
  have enc : utf8Encode a.toNat = [a] := utf8Encode_char (.one a ha)
  have ne (b : UInt8) (h : ¬ a = b) (k : Nat) (hk : b.toNat = k) : a.toNat ≠ k := fun e => h (UInt8.toNat_inj.1 (e.trans hk.symm))
  unfold escByte
  split
  · rename_i h
    rcases h with rfl | rfl <;> rfl
  split
  · rename_i h; subst h; rfl
  split
  · rename_i h; subst h; rfl
  split
  · rename_i h; subst h; rfl
  split
  · rename_i h; rw [h.1]; rfl
  split
  · rename_i h; rw [h.1]; rfl
  split
  · rw [unq_uEscape g _ (by omega) (by unfold isSurrogate; simp; omega), enc]; rfl
  · rename_i h1 _ _ _ _ _ h2
    simp only [List.cons_append, List.nil_append, unqAux]
    rw [if_neg (fun h => h1 (.inr h)), if_pos (by rw [u8_lt_iff]; exact ha)]

theorem escByte_length (b : UInt8) : 1 ≤ (escByte b).length := by
  unfold escByte uEscape
  repeat' split
  all_goals simp

theorem unq_raw {r : Nat} {c : Bytes} (h : Utf8Char r c) (hl : c.length ≠ 1) (g : Nat) (s : Bytes) : unqAux (g + 1) (c ++ s) = c ++ unqAux g s := by
  obtain ⟨b, t, rfl, hb⟩ := char_head h hl
  have e := decodeRune_char h s
  have d : (b :: t ++ s).drop (b :: t).length = s := List.drop_left
  simp only [List.cons_append] at e d ⊢
  have h1 : ¬ b = 92 := by rw [u8_eq_iff]; change ¬ b.toNat = 92; omega
  have h2 : ¬ b < 0x80 := by rw [u8_lt_iff]; change ¬ b.toNat < 128; omega
  simp only [unqAux, if_neg h1, if_neg h2, e, d, utf8Encode_char h]
  rfl

theorem unq_escape {s : Bytes} (h : Utf8Text s) : ∀ f g, s.length ≤ f → (escAux f s).length ≤ g → unqAux g (escAux f s) = s := by
  induction h with
  | nil => intro f g _ _; cases f <;> cases g <;> rfl
  | cons r c s hc _ ih =>
    intro f g hf hg
    by_cases hl : c.length = 1
    · cases hc with
      | two | three | four => simp at hl
      | one a ha =>
        cases f with
        | zero => simp at hf
        | succ f =>
          have e : escAux (f + 1) ([a] ++ s) = escByte a ++ escAux f s := by
            simp only [List.cons_append, List.nil_append, escAux]; rw [if_pos (by rw [u8_lt_iff]; exact ha)]
          rw [e] at hg ⊢
          have := escByte_length a
          rw [List.length_append] at hg
          cases g with
          | zero => omega
          | succ g => rw [unq_escByte g a ha, ih f g (by simp at hf; omega) (by omega)]; rfl
    · obtain ⟨b, t, rfl, hb⟩ := char_head hc hl
      have e := decodeRune_char hc s
      have d : (b :: t ++ s).drop (b :: t).length = s := List.drop_left
      have d' : (b :: t ++ s).take (b :: t).length = b :: t := List.take_left
      cases f with
      | zero => simp at hf
      | succ f =>
        rw [List.length_append, List.length_cons] at hf
        simp only [List.cons_append] at e d d' hg ⊢
        rw [escAux, if_neg (by rw [u8_lt_iff]; change ¬ b.toNat < 128; omega)] at hg ⊢
        simp only [e, d, d'] at hg ⊢
        have hne : (r, (b :: t).length) ≠ runeError := by
          intro h; exact hl (congrArg Prod.snd h)
        rw [if_neg hne] at hg ⊢
        by_cases h2 : r = 0x2028 ∨ r = 0x2029
        · rw [if_pos h2] at hg ⊢
          cases g with
          | zero => simp [uEscape] at hg
          | succ g =>
            rw [unq_uEscape g r (by omega) (by unfold isSurrogate; simp; omega), utf8Encode_char hc, ih f g (by omega) (by rw [List.length_append] at hg; simp [uEscape] at hg; omega)]
            rfl
        · rw [if_neg h2] at hg ⊢
          cases g with
          | zero => simp at hg
          | succ g => exact (unq_raw hc hl g _).trans (by rw [ih f g (by omega) (by rw [List.length_append, List.length_cons] at hg; omega)]; rfl)

theorem unquote_escape {s : Bytes} (h : Utf8Text s) : unquote (escapeStr s) = s := unq_escape h _ _ (Nat.le_refl _) (Nat.le_refl _)

end Verif
