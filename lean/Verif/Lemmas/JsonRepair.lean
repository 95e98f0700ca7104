import Verif.Lemmas.JsonSyntax
import Verif.Lemmas.JsonText
import Verif.Spec.JsonRepair
/-! Helper lemmas: literals and strings that are not Unicode text. -/
namespace Verif

theorem toUInt8_of {b : UInt8} {n : Nat} (h : b.toNat = n) : b = n.toUInt8 := by
  subst h; simp

theorem decodeRune_cases (b : UInt8) (s : Bytes) : decodeRune (b :: s) = runeError ∨ ∃ r c u, Utf8Char r c ∧ b :: s = c ++ u := by
  have hb : b.toNat < 256 := b.toNat_lt
  simp only [decodeRune]
  split
  · rename_i h; exact .inr ⟨_, _, s, .one b h, rfl⟩
  rename_i h1
  rw [u8_lt_iff] at h1
  change ¬ b.toNat < 128 at h1
  split
  · exact .inl rfl
  rename_i h2
  rw [Bool.or_eq_true, decide_eq_true_iff, decide_eq_true_iff, u8_lt_iff, GT.gt, u8_lt_iff] at h2
  change ¬ (b.toNat < 194 ∨ 244 < b.toNat) at h2
  split
  · exact .inl rfl
  rename_i b1 t1
  have hb1 : b1.toNat < 256 := b1.toNat_lt
  split
  · exact .inl rfl
  rename_i h3
  have h3 : contIn (secondRange b).1 (secondRange b).2 b1 = true := by
    cases h : contIn (secondRange b).1 (secondRange b).2 b1 with
    | true => rfl
    | false => rw [h] at h3; exact absurd rfl h3
  rw [contIn_bounds] at h3
  have h3 : (128 ≤ b1.toNat ∧ b1.toNat ≤ 191) ∧ (b.toNat = 224 → 160 ≤ b1.toNat) ∧ (b.toNat = 237 → b1.toNat ≤ 159) ∧ (b.toNat = 240 → 144 ≤ b1.toNat) ∧
      (b.toNat = 244 → b1.toNat ≤ 143) := by
    unfold secondRange at h3
    simp only [beq_iff_eq, u8_eq_iff] at h3
    change (if b.toNat = 224 then _ else if b.toNat = 237 then _ else if b.toNat = 240 then _ else if b.toNat = 244 then _ else _ : UInt8 × UInt8).1.toNat ≤ _ ∧
        _ ≤ (if b.toNat = 224 then _ else if b.toNat = 237 then _ else if b.toNat = 240 then _ else if b.toNat = 244 then _ else _ : UInt8 × UInt8).2.toNat at h3
    by_cases e1 : b.toNat = 224
    · rw [if_pos e1] at h3; change 160 ≤ _ ∧ _ ≤ 191 at h3; omega
    rw [if_neg e1] at h3
    by_cases e2 : b.toNat = 237
    · rw [if_pos e2] at h3; change 128 ≤ _ ∧ _ ≤ 159 at h3; omega
    rw [if_neg e2] at h3
    by_cases e3 : b.toNat = 240
    · rw [if_pos e3] at h3; change 144 ≤ _ ∧ _ ≤ 191 at h3; omega
    rw [if_neg e3] at h3
    by_cases e4 : b.toNat = 244
    · rw [if_pos e4] at h3; change 128 ≤ _ ∧ _ ≤ 143 at h3; omega
    rw [if_neg e4] at h3
    change 128 ≤ _ ∧ _ ≤ 191 at h3; omega
  split
  · rename_i h4
    rw [u8_lt_iff] at h4
    change b.toNat < 224 at h4
    have q0 : b = (192 + (b.toNat - 192)).toUInt8 := toUInt8_of (by omega)
    have q1 : b1 = (128 + (b1.toNat - 128)).toUInt8 := toUInt8_of (by omega)
    refine .inr ⟨_, _, t1, .two (b.toNat - 192) (b1.toNat - 128) (by omega) (by omega) (by omega), ?_⟩
    rw [← q0, ← q1]; rfl
  rename_i h4
  rw [u8_lt_iff] at h4
  change ¬ b.toNat < 224 at h4
  split
  · exact .inl rfl
  rename_i b2 t2
  have hb2 : b2.toNat < 256 := b2.toNat_lt
  split
  · exact .inl rfl
  rename_i h5
  have h5 : contIn 0x80 0xBF b2 = true := by
    cases h : contIn 0x80 0xBF b2 with
    | true => rfl
    | false => rw [h] at h5; exact absurd rfl h5
  rw [contIn_bounds] at h5
  change 128 ≤ _ ∧ _ ≤ 191 at h5
  split
  · rename_i h6
    rw [u8_lt_iff] at h6
    change b.toNat < 240 at h6
    have q0 : b = (224 + (b.toNat - 224)).toUInt8 := toUInt8_of (by omega)
    have q1 : b1 = (128 + (b1.toNat - 128)).toUInt8 := toUInt8_of (by omega)
    have q2 : b2 = (128 + (b2.toNat - 128)).toUInt8 := toUInt8_of (by omega)
    refine .inr ⟨_, _, t2, .three (b.toNat - 224) (b1.toNat - 128) (b2.toNat - 128) (by omega) (by omega) (by omega) (by omega) (by unfold Scalar; omega), ?_⟩
    rw [← q0, ← q1, ← q2]; rfl
  rename_i h6
  rw [u8_lt_iff] at h6
  change ¬ b.toNat < 240 at h6
  split
  · exact .inl rfl
  rename_i b3 t3
  have hb3 : b3.toNat < 256 := b3.toNat_lt
  split
  · exact .inl rfl
  rename_i h7
  have h7 : contIn 0x80 0xBF b3 = true := by
    cases h : contIn 0x80 0xBF b3 with
    | true => rfl
    | false => rw [h] at h7; exact absurd rfl h7
  rw [contIn_bounds] at h7
  change 128 ≤ _ ∧ _ ≤ 191 at h7
  have q0 : b = (240 + (b.toNat - 240)).toUInt8 := toUInt8_of (by omega)
  have q1 : b1 = (128 + (b1.toNat - 128)).toUInt8 := toUInt8_of (by omega)
  have q2 : b2 = (128 + (b2.toNat - 128)).toUInt8 := toUInt8_of (by omega)
  have q3 : b3 = (128 + (b3.toNat - 128)).toUInt8 := toUInt8_of (by omega)
  refine .inr ⟨_, _, t3, .four (b.toNat - 240) (b1.toNat - 128) (b2.toNat - 128) (b3.toNat - 128) (by omega) (by omega) (by omega) (by omega) (by omega)
    (by unfold Scalar; omega), ?_⟩
  rw [← q0, ← q1, ← q2, ← q3]; rfl

theorem noChar_error {b : UInt8} {s : Bytes} (h : NoChar (b :: s)) : decodeRune (b :: s) = runeError := by
  rcases decodeRune_cases b s with e | ⟨r, c, u, hc, e⟩
  · exact e
  · exact absurd e (h r c u hc)
theorem noChar_high {b : UInt8} {s : Bytes} (h : NoChar (b :: s)) : ¬ b < 0x80 := fun hb => h _ _ s (.one b hb) rfl

/-- The first step of `Repaired`: a character or a byte that is none. -/
theorem char_or (b : UInt8) (s : Bytes) : (∃ r c u, Utf8Char r c ∧ b :: s = c ++ u) ∨ NoChar (b :: s) := by
  by_cases h : ∃ r c u, Utf8Char r c ∧ b :: s = c ++ u
  · exact .inl h
  · exact .inr fun r c u hc e => h ⟨r, c, u, hc, e⟩

theorem char_ne_nil {r : Nat} {c : Bytes} (h : Utf8Char r c) : 1 ≤ c.length := by cases h <;> simp

theorem repaired_total (n : Nat) : ∀ s : Bytes, s.length ≤ n → ∃ t, Repaired s t := by
  induction n with
  | zero => intro s h; rw [List.eq_nil_of_length_eq_zero (Nat.le_zero.1 h)]; exact ⟨_, .nil⟩
  | succ n ih =>
    intro s h
    cases s with
    | nil => exact ⟨_, .nil⟩
    | cons b s =>
      rcases char_or b s with ⟨r, c, u, hc, e⟩ | hn
      · rw [e, List.length_append] at h
        have := char_ne_nil hc
        obtain ⟨t, ht⟩ := ih u (by omega)
        exact ⟨_, e ▸ Repaired.char r c u t hc ht⟩
      · obtain ⟨t, ht⟩ := ih s (by simpa using h)
        exact ⟨_, .bad b s t hn ht⟩

theorem repaired_utf8 {s t : Bytes} (h : Repaired s t) : Utf8Text t := by
  induction h with
  | nil => exact .nil
  | char r c s t hc _ ih => exact .cons r c t hc ih
  | bad b s t _ _ ih =>
    exact .cons 0xFFFD replacement t (.three 15 63 61 (by decide) (by decide) (by decide) (by decide) (by unfold Scalar; decide)) ih
theorem repaired_id {s t : Bytes} (h : Utf8Text s) (ht : Repaired s t) : t = s := by
  induction h generalizing t with
  | nil =>
    generalize hs : ([] : Bytes) = s at ht
    cases ht with
    | nil => rfl
    | char r c s t hc _ => have h1 := char_ne_nil hc; have h2 := congrArg List.length hs; rw [List.length_append, List.length_nil] at h2; omega
    | bad => cases hs
  | cons r c s hc _ ih =>
    generalize hs : c ++ s = w at ht
    cases ht with
    | nil => have h1 := char_ne_nil hc; have h2 := congrArg List.length hs; rw [List.length_append, List.length_nil] at h2
    | char r' c' s' t hc' ht =>
      have e := decodeRune_char hc s
      rw [hs, decodeRune_char hc' s'] at e
      injection e with e1 e2
      subst e1
      obtain ⟨rfl, rfl⟩ := List.append_inj hs e2.symm
      rw [ih ht]
    | bad b s' t hn => exact absurd hs.symm (hn r c s hc)
theorem repaired_self {s t : Bytes} (h : Repaired s t) : t = s ↔ Utf8Text s :=
  ⟨fun e => e ▸ repaired_utf8 h, fun hs => repaired_id hs h⟩

theorem some_hexVal {c : UInt8} {n : Nat} (h : fromHexChar c = some n) : HexVal c n := by
  have key : ∀ c : Fin 256, (fromHexChar (UInt8.ofNat c.val)).all (fun n => (asc "0123456789abcdef")[n]? == some (UInt8.ofNat c.val) ||
      (asc "0123456789ABCDEF")[n]? == some (UInt8.ofNat c.val)) = true := by decide +kernel
  have := key ⟨c.toNat, c.toNat_lt⟩
  simp only [UInt8.ofNat_toNat, h, Option.all_some, Bool.or_eq_true, beq_iff_eq] at this
  exact this
theorem getu4_hex4 {t : Bytes} {q : Nat} (h : getu4 t = some q) : ∃ a b c d u, t = a :: b :: c :: d :: u ∧ Hex4 a b c d q := by
  unfold getu4 at h
  split at h
  · rename_i a b c d u
    split at h
    · rename_i h1 h2 h3 h4
      refine ⟨a, b, c, d, u, rfl, _, _, _, _, some_hexVal h1, some_hexVal h2, some_hexVal h3, some_hexVal h4, ?_⟩
      injection h with h
      omega
    · cases h
  · cases h

theorem unq_readAs {l s : Bytes} (h : ReadAs l s) : ∀ g, l.length ≤ g → unqAux g l = s := by
  induction h with
  | nil => intro g _; cases g <;> rfl
  | char r c l s hc h32 h34 h92 _ ih =>
    intro g hg
    rw [List.length_append] at hg
    by_cases hl : c.length = 1
    · cases hc with
      | two | three | four => simp at hl
      | one a ha =>
        obtain ⟨g, rfl⟩ : ∃ k, g = k + 1 := ⟨g - 1, by simp at hg; omega⟩
        simp only [List.cons_append, List.nil_append, unqAux]
        rw [if_neg (by rw [u8_eq_iff]; exact h92), if_pos (by rw [u8_lt_iff]; exact ha), ih g (by simp at hg; omega)]
    · obtain ⟨b, t, rfl, _⟩ := char_head hc hl
      rw [List.length_cons] at hg
      obtain ⟨g, rfl⟩ : ∃ k, g = k + 1 := ⟨g - 1, by omega⟩
      rw [unq_raw hc hl g, ih g (by omega)]
  | bad b l s hn _ ih =>
    intro g hg
    simp only [List.length_cons] at hg
    obtain ⟨g, rfl⟩ : ∃ k, g = k + 1 := ⟨g - 1, by omega⟩
    have hb := noChar_high hn
    simp only [unqAux]
    rw [if_neg (by intro e; subst e; exact hb (by decide)), if_neg hb, noChar_error hn]
    simp only [runeError, List.drop_succ_cons, List.drop_zero]
    rw [ih g (by omega)]; rfl
  | esc e b l s he _ ih =>
    intro g hg
    simp only [List.length_cons] at hg
    obtain ⟨g, rfl⟩ : ∃ k, g = k + 1 := ⟨g - 1, by omega⟩
    have := ih g (by omega)
    simp only [List.mem_cons, List.not_mem_nil, or_false, Prod.mk.injEq] at he
    rcases he with ⟨rfl, rfl⟩ | ⟨rfl, rfl⟩ | ⟨rfl, rfl⟩ | ⟨rfl, rfl⟩ | ⟨rfl, rfl⟩ | ⟨rfl, rfl⟩ | ⟨rfl, rfl⟩ | ⟨rfl, rfl⟩ <;>
      (rw [← this]; rfl)
  | code a b c d r u l s hr hu _ ih =>
    intro g hg
    simp only [List.length_cons] at hg
    obtain ⟨g, rfl⟩ : ∃ k, g = k + 1 := ⟨g - 1, by omega⟩
    have hs := char_scalar hu
    unfold Scalar at hs
    simp only [unqAux, if_true]
    rw [hex4_getu4 hr]
    dsimp only
    rw [if_neg (by unfold isSurrogate; rw [Bool.and_eq_true, decide_eq_true_iff, decide_eq_true_iff]; omega), utf8Encode_char hu]
    simp only [List.drop_succ_cons, List.drop_zero]
    rw [ih g (by omega)]
  | pair a b c d a' b' c' d' hi lo u l s h1 h2 hhi hlo hu _ ih =>
    intro g hg
    simp only [List.length_cons] at hg
    obtain ⟨g, rfl⟩ : ∃ k, g = k + 1 := ⟨g - 1, by omega⟩
    simp only [unqAux, if_true]
    rw [hex4_getu4 h1]
    dsimp only
    rw [if_pos (by unfold isSurrogate; rw [Bool.and_eq_true, decide_eq_true_iff, decide_eq_true_iff]; omega)]
    simp only [List.drop_succ_cons, List.drop_zero, nextU4]
    rw [hex4_getu4 h2, Option.bind_some]
    have : surrogatePair (0xD800 + hi) (0xDC00 + lo) = some (0x10000 + 1024 * hi + lo) := by
      unfold surrogatePair
      rw [if_pos (by omega)]
      exact congrArg some (by omega)
    rw [this]
    dsimp only
    rw [utf8Encode_char hu, ih g (by omega)]
  | lone a b c d r l s hr h1 h2 hn _ ih =>
    intro g hg
    simp only [List.length_cons] at hg
    obtain ⟨g, rfl⟩ : ∃ k, g = k + 1 := ⟨g - 1, by omega⟩
    simp only [unqAux, if_true]
    rw [hex4_getu4 hr]
    dsimp only
    rw [if_pos (by unfold isSurrogate; rw [Bool.and_eq_true, decide_eq_true_iff, decide_eq_true_iff]; omega)]
    simp only [List.drop_succ_cons, List.drop_zero]
    have : (nextU4 l).bind (surrogatePair r) = none := by
      cases e : nextU4 l with
      | none => rfl
      | some q =>
        rw [Option.bind_some]
        unfold surrogatePair
        refine if_neg fun hq => hn ⟨hq.2.1, ?_⟩
        unfold nextU4 at e
        split at e
        · rename_i t
          obtain ⟨a, b, c, d, u, rfl, hu⟩ := getu4_hex4 e
          exact ⟨a, b, c, d, q, u, rfl, hu, hq.2.2.1, hq.2.2.2⟩
        · cases e
    rw [this]
    dsimp only
    rw [ih g (by omega)]; rfl

theorem unquote_readAs {l s : Bytes} (h : ReadAs l s) : unquote l = s := unq_readAs h _ (Nat.le_refl _)

theorem means_readAs {l s : Bytes} (h : LitMeans l s) : ReadAs l s := by
  induction h with
  | nil => exact .nil
  | char r c l s hc h1 h2 h3 _ ih => exact .char r c l s hc h1 h2 h3 ih
  | esc e b l s h _ ih => exact .esc e b l s h ih
  | code a b c d r u l s h hu _ ih => exact .code a b c d r u l s h hu ih
  | pair a b c d a' b' c' d' hi lo u l s h1 h2 h3 h4 hu _ ih => exact .pair a b c d a' b' c' d' hi lo u l s h1 h2 h3 h4 hu ih

/-! ## Every literal is read -/

theorem lit_tail {x : UInt8} {w : Bytes} (hx : 128 ≤ x.toNat) (h : StrLit (x :: w)) : StrLit w := by
  cases h with
  | char _ _ _ _ _ h => exact h
  | esc => exact absurd hx (by decide)
  | code => exact absurd hx (by decide)
theorem lit_after {c u : Bytes} (hc : ∀ x ∈ c, 128 ≤ x.toNat) (h : StrLit (c ++ u)) : StrLit u := by
  induction c with
  | nil => exact h
  | cons x c ih =>
    exact ih (fun y hy => hc y (List.mem_cons_of_mem _ hy)) (lit_tail (hc x (List.mem_cons_self ..)) h)

theorem char_bytes {r : Nat} {c : Bytes} (h : Utf8Char r c) : (∃ a : UInt8, c = [a] ∧ r = a.toNat ∧ a.toNat < 128) ∨ (128 ≤ r ∧ ∀ x ∈ c, 128 ≤ x.toNat) := by
  cases h with
  | one a h => exact .inl ⟨a, rfl, rfl, h⟩
  | two a b ha hb h =>
    refine .inr ⟨h, fun x hx => ?_⟩
    simp only [List.mem_cons, List.not_mem_nil, or_false] at hx
    rcases hx with rfl | rfl <;> rw [u8lt (by omega)] <;> omega
  | three a b c ha hb hc h hs =>
    refine .inr ⟨by omega, fun x hx => ?_⟩
    simp only [List.mem_cons, List.not_mem_nil, or_false] at hx
    rcases hx with rfl | rfl | rfl <;> rw [u8lt (by omega)] <;> omega
  | four a b c d ha hb hc hd h hs =>
    refine .inr ⟨by omega, fun x hx => ?_⟩
    unfold Scalar at hs
    simp only [List.mem_cons, List.not_mem_nil, or_false] at hx
    rcases hx with rfl | rfl | rfl | rfl <;> rw [u8lt (by omega)] <;> omega

theorem mem_hexVal {x : UInt8} (h : x ∈ asc "0123456789abcdefABCDEF") : ∃ n, n < 16 ∧ HexVal x n := by
  obtain ⟨n, hn⟩ := Option.isSome_iff_exists.1 (hexChar_some x h)
  have hv := some_hexVal hn
  exact ⟨n, by rcases hv with h | h <;> exact (List.getElem?_eq_some_iff.1 h).1, hv⟩
theorem mem_hex4 {a b c d : UInt8} (h : ∀ x ∈ [a, b, c, d], x ∈ asc "0123456789abcdefABCDEF") : ∃ r, r < 65536 ∧ Hex4 a b c d r := by
  obtain ⟨w, hw, h1⟩ := mem_hexVal (h a (by simp))
  obtain ⟨x, hx, h2⟩ := mem_hexVal (h b (by simp))
  obtain ⟨y, hy, h3⟩ := mem_hexVal (h c (by simp))
  obtain ⟨z, hz, h4⟩ := mem_hexVal (h d (by simp))
  exact ⟨((w * 16 + x) * 16 + y) * 16 + z, by omega, w, x, y, z, h1, h2, h3, h4, rfl⟩

theorem scalar_char {r : Nat} (h : Scalar r) : ∃ c, Utf8Char r c := by
  have h' := h
  unfold Scalar at h'
  by_cases h1 : r < 128
  · have e : r.toUInt8.toNat = r := u8lt (by omega)
    have := Utf8Char.one r.toUInt8 (by omega)
    rw [e] at this
    exact ⟨_, this⟩
  by_cases h2 : r < 2048
  · have e : r = r / 64 * 64 + r % 64 := by omega
    have := Utf8Char.two (r / 64) (r % 64) (by omega) (by omega) (by omega)
    rw [← e] at this
    exact ⟨_, this⟩
  by_cases h3 : r < 65536
  · have e : r = r / 4096 * 4096 + r / 64 % 64 * 64 + r % 64 := by omega
    have := Utf8Char.three (r / 4096) (r / 64 % 64) (r % 64) (by omega) (by omega) (by omega) (by omega) (e ▸ h)
    rw [← e] at this
    exact ⟨_, this⟩
  · have e : r = r / 262144 * 262144 + r / 4096 % 64 * 4096 + r / 64 % 64 * 64 + r % 64 := by omega
    have := Utf8Char.four (r / 262144) (r / 4096 % 64) (r / 64 % 64) (r % 64) (by omega) (by omega) (by omega) (by omega) (by omega) (e ▸ h)
    rw [← e] at this
    exact ⟨_, this⟩

theorem lit_code_inv {a b c d : UInt8} {s : Bytes} (h : StrLit (92 :: 117 :: a :: b :: c :: d :: s)) : StrLit s := by
  cases h with
  | char _ _ _ _ h => exact absurd rfl h
  | esc _ _ h => exact absurd h (by decide)
  | code _ _ _ _ _ _ h => exact h

theorem readAs_total (n : Nat) : ∀ l : Bytes, l.length ≤ n → StrLit l → ∃ s, ReadAs l s := by
  induction n with
  | zero => intro s h _; rw [List.eq_nil_of_length_eq_zero (Nat.le_zero.1 h)]; exact ⟨_, .nil⟩
  | succ n ih =>
    intro l hl h
    cases h with
    | nil => exact ⟨_, .nil⟩
    | char b l h32 h34 h92 h =>
      rcases char_or b l with ⟨r, c, u, hc, e⟩ | hn
      · rcases char_bytes hc with ⟨a, rfl, rfl, ha⟩ | ⟨hr, hx⟩
        · injection e with e1 e2
          subst e1 e2
          obtain ⟨s, hs⟩ := ih l (by simpa using hl) h
          exact ⟨_, .char _ _ l s hc h32 (fun q => h34 (UInt8.toNat_inj.1 q)) (fun q => h92 (UInt8.toNat_inj.1 q)) hs⟩
        · have hu : StrLit u := lit_after hx (e ▸ StrLit.char b l h32 h34 h92 h)
          rw [e, List.length_append] at hl
          have := char_ne_nil hc
          obtain ⟨s, hs⟩ := ih u (by omega) hu
          exact ⟨_, e ▸ ReadAs.char r c u s hc (by omega) (by omega) (by omega) hs⟩
      · obtain ⟨s, hs⟩ := ih l (by simpa using hl) h
        exact ⟨_, .bad b l s hn hs⟩
    | esc e l he h =>
      obtain ⟨s, hs⟩ := ih l (by simp at hl; omega) h
      have : ∃ b, (e, b) ∈ [((98 : UInt8), (8 : UInt8)), (102, 12), (110, 10), (114, 13), (116, 9), (92, 92), (47, 47), (34, 34)] := by
        have he : e ∈ [(98 : UInt8), 102, 110, 114, 116, 92, 47, 34] := he
        simp only [List.mem_cons, List.not_mem_nil, or_false] at he
        rcases he with rfl | rfl | rfl | rfl | rfl | rfl | rfl | rfl
        · exact ⟨8, by decide⟩
        · exact ⟨12, by decide⟩
        · exact ⟨10, by decide⟩
        · exact ⟨13, by decide⟩
        · exact ⟨9, by decide⟩
        · exact ⟨92, by decide⟩
        · exact ⟨47, by decide⟩
        · exact ⟨34, by decide⟩
      obtain ⟨b, hb⟩ := this
      exact ⟨_, .esc e b l s hb hs⟩
    | code a b c d l hx h =>
      simp only [List.length_cons] at hl
      obtain ⟨r, hr, h4⟩ := mem_hex4 hx
      by_cases hs : 0xD800 ≤ r ∧ r < 0xE000
      · by_cases hp : r < 0xDC00 ∧ LowNext l
        · obtain ⟨hlo, a', b', c', d', q, t, rfl, hq, hq1, hq2⟩ := hp
          simp only [List.length_cons] at hl
          obtain ⟨s, hs'⟩ := ih t (by omega) (lit_code_inv h)
          obtain ⟨u, hu⟩ := scalar_char (r := 0x10000 + 1024 * (r - 0xD800) + (q - 0xDC00)) (by unfold Scalar; omega)
          exact ⟨_, .pair a b c d a' b' c' d' (r - 0xD800) (q - 0xDC00) u t s (by rwa [Nat.add_sub_cancel' hs.1]) (by rwa [Nat.add_sub_cancel' hq1]) (by omega) (by omega) hu hs'⟩
        · obtain ⟨s, hs'⟩ := ih l (by omega) h
          exact ⟨_, .lone a b c d r l s h4 hs.1 hs.2 hp hs'⟩
      · obtain ⟨s, hs'⟩ := ih l (by omega) h
        obtain ⟨u, hu⟩ := scalar_char (r := r) (by unfold Scalar; omega)
        exact ⟨_, .code a b c d r u l s h4 hu hs'⟩

/-! ## What is written -/

theorem hexVal_hexDigit (n : Nat) (h : n < 16) : HexVal (hexDigit n) n := by
  have : ∀ n : Fin 16, (asc "0123456789abcdef")[n.val]? = some (hexDigit n.val) := by decide +kernel
  exact Or.inl (this ⟨n, h⟩)

theorem readAs_uEscape {r : Nat} {u l s : Bytes} (h : r < 65536) (hu : Utf8Char r u) (hl : ReadAs l s) : ReadAs (uEscape r ++ l) (u ++ s) :=
  .code _ _ _ _ r u l s ⟨_, _, _, _, hexVal_hexDigit _ (Nat.mod_lt _ (by decide)), hexVal_hexDigit _ (Nat.mod_lt _ (by decide)), hexVal_hexDigit _ (Nat.mod_lt _ (by decide)),
    hexVal_hexDigit _ (Nat.mod_lt _ (by decide)), by omega⟩ hu hl

theorem readAs_escByte (a : UInt8) (ha : a.toNat < 128) {l s : Bytes} (hl : ReadAs l s) : ReadAs (escByte a ++ l) (a :: s) := by
  unfold escByte
  split
  · rename_i h
    rcases h with rfl | rfl
    · exact .esc _ _ _ _ (by decide) hl
    · exact .esc _ _ _ _ (by decide) hl
  split
  · rename_i h; subst h; exact .esc _ _ _ _ (by decide) hl
  split
  · rename_i h; subst h; exact .esc _ _ _ _ (by decide) hl
  split
  · rename_i h; subst h; exact .esc _ _ _ _ (by decide) hl
  split
  · rename_i h; rw [h.1]; exact .esc _ _ _ _ (by decide) hl
  split
  · rename_i h; rw [h.1]; exact .esc _ _ _ _ (by decide) hl
  split
  · exact readAs_uEscape (u := [a]) (by omega) (.one a ha) hl
  · rename_i h1 _ _ _ _ _ h2
    refine .char a.toNat [a] l s (.one a ha) ?_ (fun e => h1 (.inl (UInt8.toNat_inj.1 e))) (fun e => h1 (.inr (UInt8.toNat_inj.1 e))) hl
    exact Nat.not_lt.1 fun h => h2 (.inl h)

theorem replacement_char : Utf8Char 0xFFFD replacement :=
  .three 15 63 61 (by decide) (by decide) (by decide) (by decide) (by unfold Scalar; decide)

theorem escAux_readAs {s t : Bytes} (h : Repaired s t) : ∀ f, s.length ≤ f → ReadAs (escAux f s) t := by
  induction h with
  | nil => intro f _; cases f <;> exact .nil
  | bad b s t hn _ ih =>
    intro f hf
    cases f with
    | zero => simp at hf
    | succ f =>
      rw [escAux, if_neg (noChar_high hn)]
      simp only [noChar_error hn, if_true]
      exact readAs_uEscape (by decide) replacement_char (ih f (by simpa using hf))
  | char r c s t hc _ ih =>
    intro f hf
    by_cases hl : c.length = 1
    · cases hc with
      | two | three | four => simp at hl
      | one a ha =>
        cases f with
        | zero => simp at hf
        | succ f =>
          have e : escAux (f + 1) ([a] ++ s) = escByte a ++ escAux f s := by
            simp only [List.cons_append, List.nil_append, escAux]; rw [if_pos (by rw [u8_lt_iff]; exact ha)]
          rw [e]
          exact readAs_escByte a ha (ih f (by simp at hf; omega))
    · obtain ⟨b, u, rfl, hb⟩ := char_head hc hl
      have e := decodeRune_char hc s
      have d : (b :: u ++ s).drop (b :: u).length = s := List.drop_left
      have d' : (b :: u ++ s).take (b :: u).length = b :: u := List.take_left
      cases f with
      | zero => simp at hf
      | succ f =>
        rw [List.length_append, List.length_cons] at hf
        have hm := ih f (by omega)
        simp only [List.cons_append] at e d d' ⊢
        rw [escAux, if_neg (by rw [u8_lt_iff]; change ¬ b.toNat < 128; omega)]
        simp only [e, d, d']
        have hne : (r, (b :: u).length) ≠ runeError := fun h => hl (congrArg Prod.snd h)
        rw [if_neg hne]
        have hr : 128 ≤ r := by
          cases hc with
          | one a ha => simp at hl
          | two => omega
          | three => omega
          | four => omega
        by_cases h2 : r = 0x2028 ∨ r = 0x2029
        · rw [if_pos h2]
          exact readAs_uEscape (by omega) hc hm
        · rw [if_neg h2]
          exact .char r (b :: u) _ t hc (by omega) (by omega) (by omega) hm

theorem escape_readAs {s t : Bytes} (h : Repaired s t) : ReadAs (escapeStr s) t := escAux_readAs h _ (Nat.le_refl _)

end Verif
