import Verif.Spec.JsonSyntax
import Verif.Lemmas.JsonText
/-! Helper lemmas: the scanner of encoding/json accepts RFC 8259 texts and nothing else. -/
namespace Verif

/-! ## What is accepted is JSON -/

theorem skip_split (bs : Bytes) : ∃ a, bs = a ++ skipSpace bs ∧ Blank a := by
  induction bs with
  | nil => exact ⟨[], rfl, fun c h => by cases h⟩
  | cons c t ih =>
    unfold skipSpace
    split
    · rename_i h
      obtain ⟨a, e, hb⟩ := ih
      refine ⟨c :: a, by rw [List.cons_append, ← e], fun x hx => ?_⟩
      rcases List.mem_cons.1 hx with rfl | hx
      · unfold isSpace at h
        simp only [Bool.or_eq_true, beq_iff_eq, or_assoc] at h
        exact h
      · exact hb x hx
    · exact ⟨[], rfl, fun c h => by cases h⟩

theorem hexChar_mem (x : UInt8) (h : (fromHexChar x).isSome = true) : x ∈ asc "0123456789abcdefABCDEF" := by
  have : ∀ n : Fin 256, (fromHexChar (UInt8.ofNat n.val)).isSome = true → UInt8.ofNat n.val ∈ asc "0123456789abcdefABCDEF" := by decide +kernel
  have := this ⟨x.toNat, x.toNat_lt⟩
  rw [UInt8.ofNat_toNat] at this
  exact this h
theorem isEscape_mem (e : UInt8) (h : isEscape e = true) : e ∈ asc "bfnrt\\/\"" := by
  unfold isEscape at h
  simp only [Bool.or_eq_true, beq_iff_eq, or_assoc] at h
  rcases h with rfl | rfl | rfl | rfl | rfl | rfl | rfl | rfl <;> decide
theorem getu4_hex {a b c d : UInt8} (h : (getu4 [a, b, c, d]).isSome = true) : ∀ x ∈ [a, b, c, d], x ∈ asc "0123456789abcdefABCDEF" := by
  have key : (fromHexChar a).isSome = true ∧ (fromHexChar b).isSome = true ∧ (fromHexChar c).isSome = true ∧ (fromHexChar d).isSome = true := by
    revert h
    show Option.isSome (match fromHexChar a, fromHexChar b, fromHexChar c, fromHexChar d with
      | some a, some b, some c, some d => some (a * 4096 + b * 256 + c * 16 + d)
      | _, _, _, _ => none) = true → _
    cases fromHexChar a <;> cases fromHexChar b <;> cases fromHexChar c <;> cases fromHexChar d <;> intro h <;> first | exact ⟨rfl, rfl, rfl, rfl⟩ | cases h
  intro x hx
  simp only [List.mem_cons, List.not_mem_nil, or_false] at hx
  rcases hx with rfl | rfl | rfl | rfl
  · exact hexChar_mem _ key.1
  · exact hexChar_mem _ key.2.1
  · exact hexChar_mem _ key.2.2.1
  · exact hexChar_mem _ key.2.2.2

theorem scanStr_sound : (n : Nat) → (bs l r : Bytes) → bs.length ≤ n → scanStr bs = some (l, r) → StrLit l ∧ bs = l ++ 34 :: r
  | _, [], l, r, _, h => by rw [scanStr.eq_def] at h; cases h
  | 0, _ :: _, _, _, hn, _ => absurd hn (by simp)
  | n + 1, c :: t, l, r, hn, h => by
    rw [List.length_cons] at hn
    rw [scanStr.eq_def] at h
    dsimp only at h
    split at h
    · rename_i hc
      injection h with h; injection h with h1 h2
      subst h1; subst h2; subst hc
      exact ⟨.nil, rfl⟩
    rename_i hq
    split at h
    · cases h
    rename_i h32
    split at h
    · rename_i hc
      subst hc
      split at h
      · cases h
      rename_i e t
      rw [List.length_cons] at hn
      split at h
      · rename_i he
        obtain ⟨p, hp, e'⟩ := Option.map_eq_some_iff.1 h
        injection e' with e1 e2
        subst e1; subst e2
        obtain ⟨a, b⟩ := scanStr_sound n t p.1 p.2 (by omega) hp
        exact ⟨.esc _ _ (isEscape_mem _ he) a, by rw [b]; rfl⟩
      split at h
      · rename_i he
        subst he
        split at h
        · rename_i h1 h2 h3 h4 t
          split at h
          · rename_i hx
            obtain ⟨p, hp, e'⟩ := Option.map_eq_some_iff.1 h
            injection e' with e1 e2
            subst e1; subst e2
            obtain ⟨a, b⟩ := scanStr_sound n t p.1 p.2 (by simp only [List.length_cons] at hn; omega) hp
            exact ⟨.code _ _ _ _ _ (getu4_hex hx) a, by rw [b]; rfl⟩
          · cases h
        · cases h
      · cases h
    · rename_i hb
      obtain ⟨p, hp, e'⟩ := Option.map_eq_some_iff.1 h
      injection e' with e1 e2
      subst e1; subst e2
      obtain ⟨a, b⟩ := scanStr_sound n t p.1 p.2 (by omega) hp
      exact ⟨.char _ _ (Nat.not_lt.1 (by rw [u8_lt_iff] at h32; exact h32)) hq hb a, by rw [b]; rfl⟩

theorem digit_mem (c : UInt8) : isDigit c = true ↔ c ∈ asc "0123456789" := by
  have : ∀ n : Fin 256, isDigit (UInt8.ofNat n.val) = true ↔ UInt8.ofNat n.val ∈ asc "0123456789" := by decide +kernel
  have := this ⟨c.toNat, c.toNat_lt⟩
  rw [UInt8.ofNat_toNat] at this
  exact this

theorem spanDigits_split (bs : Bytes) : bs = (spanDigits bs).1 ++ (spanDigits bs).2 ∧ (∀ c ∈ (spanDigits bs).1, c ∈ asc "0123456789") := by
  induction bs with
  | nil => exact ⟨rfl, fun c h => by cases h⟩
  | cons c t ih =>
    unfold spanDigits
    split
    · rename_i h
      refine ⟨congrArg (c :: ·) ih.1, fun x hx => ?_⟩
      rcases List.mem_cons.1 hx with rfl | hx
      · exact (digit_mem _).1 h
      · exact ih.2 x hx
    · exact ⟨rfl, fun c h => by cases h⟩

/-- The parts of a number -/
def ExpLit (exp : Bytes) : Prop := exp = [] ∨ ∃ e s ds, (e = 101 ∨ e = 69) ∧ (s = [] ∨ s = asc "+" ∨ s = asc "-") ∧ DigitSeq ds ∧ exp = e :: (s ++ ds)
def FracLit (frac : Bytes) : Prop := frac = [] ∨ ∃ ds, DigitSeq ds ∧ frac = 46 :: ds

theorem scanExp_sound {bs l r : Bytes} (h : scanExp bs = some (l, r)) : ExpLit l ∧ bs = l ++ r := by
  unfold scanExp at h
  split at h
  · rename_i e t
    split at h
    · rename_i he
      have key : ∀ (s t' : Bytes), t = s ++ t' → (s = [] ∨ s = asc "+" ∨ s = asc "-") →
          (if (spanDigits t').1 = [] then none else some (e :: (s ++ (spanDigits t').1), (spanDigits t').2)) = some (l, r) → ExpLit l ∧ e :: t = l ++ r := by
        intro s t' et hs h
        split at h
        · cases h
        rename_i hne
        injection h with h; injection h with h1 h2
        obtain ⟨d1, d2⟩ := spanDigits_split t'
        refine ⟨Or.inr ⟨e, s, (spanDigits t').1, he, hs, ⟨hne, d2⟩, h1.symm⟩, ?_⟩
        rw [← h1, ← h2, et]
        conv => lhs; rw [d1]
        simp
      cases t with
      | nil => exact key [] [] rfl (Or.inl rfl) h
      | cons s t' =>
        dsimp only at h
        split at h
        · rename_i hs
          exact key [s] t' rfl (by rcases hs with rfl | rfl; exact Or.inr (Or.inl rfl); exact Or.inr (Or.inr rfl)) h
        · exact key [] (s :: t') rfl (Or.inl rfl) h
    · injection h with h; injection h with h1 h2
      subst h1; subst h2
      exact ⟨Or.inl rfl, rfl⟩
  · injection h with h; injection h with h1 h2
    subst h1; subst h2
    exact ⟨Or.inl rfl, rfl⟩

theorem scanFrac_sound {bs l r : Bytes} (h : scanFrac bs = some (l, r)) : ∃ f e, l = f ++ e ∧ FracLit f ∧ ExpLit e ∧ bs = l ++ r := by
  unfold scanFrac at h
  split at h
  · rename_i t
    dsimp only at h
    split at h
    · cases h
    rename_i hne
    obtain ⟨p, hp, e'⟩ := Option.map_eq_some_iff.1 h
    injection e' with e1 e2
    obtain ⟨a, b⟩ := scanExp_sound hp
    obtain ⟨d1, d2⟩ := spanDigits_split t
    refine ⟨46 :: (spanDigits t).1, p.1, e1.symm, Or.inr ⟨_, ⟨hne, d2⟩, rfl⟩, a, ?_⟩
    rw [← e1, ← e2]
    conv => lhs; rw [d1, b]
    simp
  · obtain ⟨a, b⟩ := scanExp_sound h
    exact ⟨[], l, rfl, Or.inl rfl, a, b⟩

theorem scanUnsigned_sound {bs l r : Bytes} (h : scanUnsigned bs = some (l, r)) :
    ∃ i f e, l = i ++ (f ++ e) ∧ (i = asc "0" ∨ (DigitSeq i ∧ i.head? ≠ some 48)) ∧ FracLit f ∧ ExpLit e ∧ bs = l ++ r := by
  unfold scanUnsigned at h
  split at h
  · rename_i t
    obtain ⟨p, hp, e'⟩ := Option.map_eq_some_iff.1 h
    injection e' with e1 e2
    obtain ⟨f, e, a1, a2, a3, a4⟩ := scanFrac_sound hp
    exact ⟨asc "0", f, e, by rw [← e1, a1]; rfl, Or.inl rfl, a2, a3, by rw [← e1, ← e2, a4]; rfl⟩
  · rename_i h48
    dsimp only at h
    split at h
    · cases h
    rename_i hne
    obtain ⟨p, hp, e'⟩ := Option.map_eq_some_iff.1 h
    injection e' with e1 e2
    obtain ⟨f, e, a1, a2, a3, a4⟩ := scanFrac_sound hp
    obtain ⟨d1, d2⟩ := spanDigits_split bs
    refine ⟨(spanDigits bs).1, f, e, by rw [← e1, a1], Or.inr ⟨⟨hne, d2⟩, ?_⟩, a2, a3, ?_⟩
    · intro hh
      cases hd : (spanDigits bs).1 with
      | nil => exact hne hd
      | cons c ds =>
        rw [hd] at hh d1
        injection hh with hh
        subst hh
        exact h48 _ d1
    · rw [← e1, ← e2]
      conv => lhs; rw [d1, a4]
      simp

theorem scanNum_sound {bs l r : Bytes} (h : scanNum bs = some (l, r)) : NumLit l ∧ bs = l ++ r := by
  unfold scanNum at h
  split at h
  · rename_i t
    obtain ⟨p, hp, e'⟩ := Option.map_eq_some_iff.1 h
    injection e' with e1 e2
    obtain ⟨i, f, e, a1, a2, a3, a4, a5⟩ := scanUnsigned_sound hp
    exact ⟨⟨asc "-", i, f, e, by rw [← e1, a1]; rfl, Or.inr rfl, a2, a3, a4⟩, by rw [← e1, ← e2, a5]; rfl⟩
  · obtain ⟨i, f, e, a1, a2, a3, a4, a5⟩ := scanUnsigned_sound h
    exact ⟨⟨[], i, f, e, by rw [a1]; rfl, Or.inl rfl, a2, a3, a4⟩, a5⟩

theorem scanWord_sound {w : Bytes} {v j : JVal} {bs r : Bytes} (h : scanWord w v bs = some (j, r)) : j = v ∧ bs = w ++ r := by
  unfold scanWord at h
  split at h
  · rename_i hp
    injection h with h; injection h with h1 h2
    obtain ⟨x, e⟩ := List.isPrefixOf_iff_prefix.1 hp
    refine ⟨h1.symm, ?_⟩
    rw [← h2, ← e, List.drop_left]
  · cases h

/-- One more value in front -/
theorem parse_sound (f : Nat) : (∀ d bs j r, d ≤ maxNesting → parseVal f d bs = some (j, r) → ∃ a t, bs = a ++ (t ++ r) ∧ Blank a ∧ JText (maxNesting - d) j t) ∧
    (∀ d bs xs r, d ≤ maxNesting → parseElems f d bs = some (xs, r) → ∃ t, bs = t ++ 93 :: r ∧ JElems (maxNesting - d) xs t) ∧
    (∀ d bs ms r, d ≤ maxNesting → parseMembers f d bs = some (ms, r) → ∃ t, bs = t ++ 125 :: r ∧ JMembers (maxNesting - d) ms t) := by
  induction f with
  | zero => exact ⟨fun d bs j r _ h => by (rw [parseVal.eq_def] at h; cases h), fun d bs j r _ h => by (rw [parseElems.eq_def] at h; cases h),
      fun d bs j r _ h => by (rw [parseMembers.eq_def] at h; cases h)⟩
  | succ f ih =>
    obtain ⟨ih1, ih2, ih3⟩ := ih
    refine ⟨fun d bs j r hd h => ?_, fun d bs xs r hd h => ?_, fun d bs ms r hd h => ?_⟩
    · obtain ⟨a, ea, ha⟩ := skip_split bs
      rw [parseVal] at h
      split at h
      · cases h
      rename_i c t hs
      rw [hs] at ea
      suffices ∃ u, c :: t = u ++ r ∧ JText (maxNesting - d) j u by
        obtain ⟨u, e1, e2⟩ := this
        exact ⟨a, u, by rw [← e1]; exact ea, ha, e2⟩
      split at h
      · rename_i hc; subst hc
        obtain ⟨p, hp, e'⟩ := Option.map_eq_some_iff.1 h
        injection e' with e1 e2
        subst e1; subst e2
        obtain ⟨h1, h2⟩ := scanStr_sound _ t p.1 p.2 (Nat.le_refl _) hp
        exact ⟨_, by rw [h2]; simp, .str _ _ h1⟩
      split at h
      · rename_i hc; subst hc
        split at h
        · cases h
        rename_i hm
        obtain ⟨m, em⟩ : ∃ m, maxNesting - d = m + 1 := ⟨maxNesting - d - 1, by omega⟩
        have em' : maxNesting - (d + 1) = m := by omega
        rw [em]
        split at h
        · rename_i r' hr
          injection h with h; injection h with h1 h2
          subst h1; subst h2
          obtain ⟨b, eb, hb⟩ := skip_split t
          rw [hr] at eb
          exact ⟨_, by rw [eb]; simp, .empty _ b hb⟩
        · obtain ⟨p, hp, e'⟩ := Option.map_eq_some_iff.1 h
          injection e' with e1 e2
          subst e1; subst e2
          obtain ⟨u, e1, e2⟩ := ih2 (d + 1) t p.1 p.2 (by omega) hp
          rw [em'] at e2
          exact ⟨_, by rw [e1]; simp, .arr _ _ u e2⟩
      split at h
      · rename_i hc; subst hc
        split at h
        · cases h
        rename_i hm
        obtain ⟨m, em⟩ : ∃ m, maxNesting - d = m + 1 := ⟨maxNesting - d - 1, by omega⟩
        have em' : maxNesting - (d + 1) = m := by omega
        rw [em]
        split at h
        · rename_i r' hr
          injection h with h; injection h with h1 h2
          subst h1; subst h2
          obtain ⟨b, eb, hb⟩ := skip_split t
          rw [hr] at eb
          exact ⟨_, by rw [eb]; simp, .void _ b hb⟩
        · obtain ⟨p, hp, e'⟩ := Option.map_eq_some_iff.1 h
          injection e' with e1 e2
          subst e1; subst e2
          obtain ⟨u, e1, e2⟩ := ih3 (d + 1) t p.1 p.2 (by omega) hp
          rw [em'] at e2
          exact ⟨_, by rw [e1]; simp, .obj _ _ u e2⟩
      split at h
      · rename_i hc; subst hc
        obtain ⟨e1, e2⟩ := scanWord_sound h
        subst e1; subst e2
        exact ⟨asc "true", rfl, .true _⟩
      split at h
      · rename_i hc; subst hc
        obtain ⟨e1, e2⟩ := scanWord_sound h
        subst e1; subst e2
        exact ⟨asc "false", rfl, .false _⟩
      split at h
      · rename_i hc; subst hc
        obtain ⟨e1, e2⟩ := scanWord_sound h
        subst e1; subst e2
        exact ⟨asc "null", rfl, .null _⟩
      · obtain ⟨p, hp, e'⟩ := Option.map_eq_some_iff.1 h
        injection e' with e1 e2
        subst e1; subst e2
        obtain ⟨h1, h2⟩ := scanNum_sound hp
        exact ⟨p.1, h2, .num _ _ h1⟩
    · rw [parseElems] at h
      split at h
      · cases h
      rename_i x r' hx
      obtain ⟨a, t, e1, e2, e3⟩ := ih1 d bs x r' hd hx
      obtain ⟨b, eb, hb⟩ := skip_split r'
      split at h
      · rename_i r'' hr
        obtain ⟨p, hp, e'⟩ := Option.map_eq_some_iff.1 h
        injection e' with e4 e5
        subst e4; subst e5
        obtain ⟨ts, g1, g2⟩ := ih2 d r'' p.1 p.2 hd hp
        rw [hr] at eb
        exact ⟨_, by rw [e1, eb, g1]; simp, .more _ x p.1 a t b ts e2 e3 hb g2⟩
      · rename_i r'' hr
        injection h with h; injection h with h1 h2
        subst h1; subst h2
        rw [hr] at eb
        exact ⟨_, by rw [e1, eb]; simp, .one _ x a t b e2 e3 hb⟩
      · cases h
    · rw [parseMembers] at h
      obtain ⟨a, ea, ha⟩ := skip_split bs
      split at h
      · rename_i t hs
        rw [hs] at ea
        split at h
        · cases h
        rename_i k r1 hk
        obtain ⟨k1, k2⟩ := scanStr_sound _ t k r1 (Nat.le_refl _) hk
        obtain ⟨b, eb, hb⟩ := skip_split r1
        split at h
        · rename_i r2 hr
          rw [hr] at eb
          split at h
          · cases h
          rename_i x r3 hx
          obtain ⟨c, u, e1, e2, e3⟩ := ih1 d r2 x r3 hd hx
          obtain ⟨b', eb', hb'⟩ := skip_split r3
          split at h
          · rename_i r4 hr
            obtain ⟨p, hp, e'⟩ := Option.map_eq_some_iff.1 h
            injection e' with e4 e5
            subst e4; subst e5
            obtain ⟨ts, g1, g2⟩ := ih3 d r4 p.1 p.2 hd hp
            rw [hr] at eb'
            exact ⟨_, by rw [ea, k2, eb, e1, eb', g1]; simp, .more _ k x p.1 a b c u b' ts ha k1 hb e2 e3 hb' g2⟩
          · rename_i r4 hr
            injection h with h; injection h with h1 h2
            subst h1; subst h2
            rw [hr] at eb'
            exact ⟨_, by rw [ea, k2, eb, e1, eb']; simp, .one _ k x a b c u b' ha k1 hb e2 e3 hb'⟩
          · cases h
        · cases h
      · cases h

theorem jsonParse_sound {bs : Bytes} {j : JVal} (h : jsonParse bs = some j) : ∃ a t b, bs = a ++ (t ++ b) ∧ Blank a ∧ Blank b ∧ JText maxNesting j t := by
  unfold jsonParse at h
  split at h
  · rename_i j' r hp
    split at h
    · rename_i hr
      injection h with h
      subst h
      obtain ⟨a, t, e1, e2, e3⟩ := (parse_sound _).1 0 bs _ r (Nat.zero_le _) hp
      obtain ⟨b, eb, hb⟩ := skip_split r
      rw [hr, List.append_nil] at eb
      exact ⟨a, t, r, e1, e2, eb ▸ hb, e3⟩
    · cases h
  · cases h

/-! ## JSON is accepted -/

/-- Not a digit next -/
def NoDigit : Bytes → Prop
  | [] => True
  | c :: _ => isDigit c = false

theorem spanDigits_run {ds r : Bytes} (hd : ∀ c ∈ ds, c ∈ asc "0123456789") (hr : NoDigit r) : spanDigits (ds ++ r) = (ds, r) := by
  induction ds with
  | nil => cases r with
    | nil => rfl
    | cons c t => simp only [List.nil_append, spanDigits, show isDigit c = false from hr]; rfl
  | cons c ds ih =>
    simp only [List.cons_append, spanDigits, (digit_mem c).2 (hd c (by simp)), if_true, ih fun x hx => hd x (by simp [hx])]

theorem Stops.noDigit {r : Bytes} (h : Stops r) : NoDigit r := by
  cases r with
  | nil => trivial
  | cons c t => exact h.1

theorem scanExp_complete {e r : Bytes} (he : ExpLit e) (hr : Stops r) : scanExp (e ++ r) = some (e, r) := by
  rcases he with rfl | ⟨x, s, ds, hx, hs, hd, rfl⟩
  · exact scanExp_stop hr
  have sp := spanDigits_run hd.2 hr.noDigit
  rcases hs with rfl | rfl | rfl
  · cases ds with
    | nil => exact absurd rfl hd.1
    | cons c ds =>
      have hc := (isDigit_iff' c).1 ((digit_mem c).2 (hd.2 c (by simp)))
      have hn : ¬ (c = 43 ∨ c = 45) := by
        rw [u8_eq_iff, u8_eq_iff]; change ¬ (c.toNat = 43 ∨ c.toNat = 45); omega
      simp only [List.cons_append, List.nil_append, scanExp] at sp ⊢
      rw [if_pos hx, if_neg hn]
      simp only [sp]
      rw [if_neg (by simp)]
      rfl
  · simp only [List.cons_append, List.append_assoc, scanExp]
    rw [if_pos hx]
    change (if (spanDigits (ds ++ r)).1 = [] then none else some (x :: ([43] ++ (spanDigits (ds ++ r)).1), (spanDigits (ds ++ r)).2)) = _
    rw [sp, if_neg hd.1]; rfl
  · simp only [List.cons_append, List.append_assoc, scanExp]
    rw [if_pos hx]
    change (if (spanDigits (ds ++ r)).1 = [] then none else some (x :: ([45] ++ (spanDigits (ds ++ r)).1), (spanDigits (ds ++ r)).2)) = _
    rw [sp, if_neg hd.1]; rfl

theorem ExpLit.noDigit {e r : Bytes} (he : ExpLit e) (hr : Stops r) : NoDigit (e ++ r) := by
  rcases he with rfl | ⟨x, s, ds, hx, hs, hd, rfl⟩
  · exact hr.noDigit
  · rcases hx with rfl | rfl
    · exact (by decide : isDigit 101 = false)
    · exact (by decide : isDigit 69 = false)

theorem scanFrac_complete {f e r : Bytes} (hf : FracLit f) (he : ExpLit e) (hr : Stops r) : scanFrac (f ++ (e ++ r)) = some (f ++ e, r) := by
  rcases hf with rfl | ⟨ds, hd, rfl⟩
  · have h46 : ∀ t, e ++ r ≠ 46 :: t := by
      intro t h
      rcases he with rfl | ⟨x, s, ds, hx, hs, hd, rfl⟩
      · cases r with
        | nil => cases h
        | cons c t' => exact hr.2.1 (List.cons.inj h).1
      · rcases hx with rfl | rfl <;> exact absurd (List.cons.inj h).1 (by decide)
    unfold scanFrac
    split
    · rename_i h; exact absurd h (h46 _)
    · exact scanExp_complete he hr
  · have sp := spanDigits_run hd.2 (he.noDigit hr)
    unfold scanFrac
    simp only [List.cons_append, sp]
    rw [if_neg hd.1, scanExp_complete he hr]
    rfl

theorem frac_noDigit {f e r : Bytes} (hf : FracLit f) (he : ExpLit e) (hr : Stops r) : NoDigit (f ++ (e ++ r)) := by
  rcases hf with rfl | ⟨ds, hd, rfl⟩
  · exact he.noDigit hr
  · exact (by decide : isDigit 46 = false)

theorem scanUnsigned_complete {i f e r : Bytes} (hi : i = asc "0" ∨ (DigitSeq i ∧ i.head? ≠ some 48)) (hf : FracLit f) (he : ExpLit e) (hr : Stops r) :
    scanUnsigned (i ++ (f ++ (e ++ r))) = some (i ++ (f ++ e), r) := by
  rcases hi with rfl | ⟨hd, h48⟩
  · have : asc "0" = [48] := by decide
    rw [this]
    change (scanFrac (f ++ (e ++ r))).map _ = _
    rw [scanFrac_complete hf he hr]; rfl
  · have sp := spanDigits_run hd.2 (frac_noDigit hf he hr)
    unfold scanUnsigned
    split
    · rename_i h
      cases i with
      | nil => exact absurd rfl hd.1
      | cons c i => exact absurd (congrArg some (List.cons.inj h).1) h48
    · rw [sp]
      dsimp only
      rw [if_neg hd.1, scanFrac_complete hf he hr]; rfl

/-- The first character of a number -/
theorem num_head {l : Bytes} (h : NumLit l) : ∃ c t, l = c :: t ∧ (c = 45 ∨ c ∈ asc "0123456789") := by
  obtain ⟨s, i, f, e, rfl, hs, hi, _⟩ := h
  rcases hs with rfl | rfl
  · rcases hi with rfl | ⟨hd, _⟩
    · exact ⟨48, _, rfl, Or.inr (by decide)⟩
    · cases i with
      | nil => exact absurd rfl hd.1
      | cons c i => exact ⟨c, _, rfl, Or.inr (hd.2 c (by simp))⟩
  · exact ⟨45, _, rfl, Or.inl rfl⟩

theorem scanNum_complete {l r : Bytes} (h : NumLit l) (hr : Stops r) : scanNum (l ++ r) = some (l, r) := by
  obtain ⟨s, i, f, e, rfl, hs, hi, hf, he⟩ := h
  have hu := scanUnsigned_complete hi hf he hr
  rcases hs with rfl | rfl
  · simp only [List.nil_append, List.append_assoc]
    unfold scanNum
    split
    · rename_i h
      exfalso
      rcases hi with rfl | ⟨hd, _⟩
      · exact absurd (List.cons.inj h).1 (by decide)
      · cases i with
        | nil => exact absurd rfl hd.1
        | cons c i =>
          have := hd.2 c (by simp)
          rw [(List.cons.inj h).1] at this
          exact absurd this (by decide)
    · exact hu
  · simp only [List.append_assoc]
    change (scanUnsigned (i ++ (f ++ (e ++ r)))).map _ = _
    rw [hu]; rfl

theorem skip_blank {a : Bytes} (t : Bytes) (h : Blank a) : skipSpace (a ++ t) = skipSpace t := by
  induction a with
  | nil => rfl
  | cons c a ih =>
    have : isSpace c = true := by rcases h c (by simp) with rfl | rfl | rfl | rfl <;> decide
    rw [List.cons_append, skipSpace, if_pos this]
    exact ih fun x hx => h x (by simp [hx])
theorem blank_stops {b : Bytes} (hb : Blank b) {c : UInt8} {t : Bytes} (h : c = 44 ∨ c = 93 ∨ c = 125) : Stops (b ++ c :: t) := by
  cases b with
  | nil => exact stops_more c t h
  | cons x b => rcases hb x (by simp) with rfl | rfl | rfl | rfl <;> exact ⟨by decide, by decide, by decide, by decide⟩
theorem blank_stops_end {b : Bytes} (hb : Blank b) : Stops b := by
  cases b with
  | nil => trivial
  | cons x b => rcases hb x (by simp) with rfl | rfl | rfl | rfl <;> exact ⟨by decide, by decide, by decide, by decide⟩

theorem num_head_plain {c : UInt8} (h : c = 45 ∨ c ∈ asc "0123456789") : isSpace c = false ∧ c ≠ 34 ∧ c ≠ 91 ∧ c ≠ 123 ∧ c ≠ 116 ∧ c ≠ 102 ∧ c ≠ 110 ∧ c ≠ 93 := by
  rcases h with rfl | h
  · decide
  · have : ∀ c ∈ asc "0123456789", isSpace c = false ∧ c ≠ 34 ∧ c ≠ 91 ∧ c ≠ 123 ∧ c ≠ 116 ∧ c ≠ 102 ∧ c ≠ 110 ∧ c ≠ 93 := by decide +kernel
    exact this c h

/-- The first character of a value -/
theorem text_head {n : Nat} {j : JVal} {t : Bytes} (h : JText n j t) : ∃ c u, t = c :: u ∧ isSpace c = false ∧ c ≠ 93 := by
  cases h with
  | null => exact ⟨110, _, rfl, by decide, by decide⟩
  | true => exact ⟨116, _, rfl, by decide, by decide⟩
  | false => exact ⟨102, _, rfl, by decide, by decide⟩
  | num _ _ hl =>
    obtain ⟨c, u, e, h⟩ := num_head hl
    have := num_head_plain h
    exact ⟨c, u, e, this.1, this.2.2.2.2.2.2.2⟩
  | str l _ => exact ⟨34, _, rfl, by decide, by decide⟩
  | empty n a _ => exact ⟨91, _, rfl, by decide, by decide⟩
  | arr n xs t _ => exact ⟨91, _, rfl, by decide, by decide⟩
  | void n a _ => exact ⟨123, _, rfl, by decide, by decide⟩
  | obj n ms t _ => exact ⟨123, _, rfl, by decide, by decide⟩
theorem elems_head {n : Nat} {xs : List JVal} {t : Bytes} (h : JElems n xs t) (r : Bytes) : ∃ c u, skipSpace (t ++ r) = c :: u ∧ c ≠ 93 := by
  cases h with
  | one _ x a t b ha hx hb =>
    obtain ⟨c, u, rfl, h1, h2⟩ := text_head hx
    exact ⟨c, _, by rw [List.append_assoc, skip_blank _ ha, List.cons_append, List.cons_append, skip_cons _ h1], h2⟩
  | more _ x xs a t b ts ha hx hb hs =>
    obtain ⟨c, u, rfl, h1, h2⟩ := text_head hx
    exact ⟨c, _, by rw [List.append_assoc, skip_blank _ ha, List.cons_append, List.cons_append, skip_cons _ h1], h2⟩
theorem members_head {n : Nat} {ms : List (Bytes × JVal)} {t : Bytes} (h : JMembers n ms t) (r : Bytes) : ∃ u, skipSpace (t ++ r) = 34 :: u := by
  cases h with
  | one _ k x a b c t d ha => exact ⟨_, by rw [List.append_assoc, skip_blank _ ha, List.cons_append, skip_cons _ (by decide)]⟩
  | more _ k x ms a b c t d ts ha => exact ⟨_, by rw [List.append_assoc, skip_blank _ ha, List.cons_append, skip_cons _ (by decide)]⟩

mutual
theorem parse_complete : (j : JVal) → (n f d : Nat) → (a t r : Bytes) → JText n j t → n + d ≤ maxNesting → 2 * t.length + 1 ≤ f → Blank a → Stops r →
    parseVal f d (a ++ (t ++ r)) = some (j, r)
  | .null, _, f, d, a, t, r, h, _, hf, ha, _ => by
    cases h
    obtain ⟨f, rfl⟩ : ∃ g, f = g + 1 := ⟨f - 1, by omega⟩
    rw [parseVal, skip_blank _ ha]; rfl
  | .bool b, _, f, d, a, t, r, h, _, hf, ha, _ => by
    obtain ⟨f, rfl⟩ : ∃ g, f = g + 1 := ⟨f - 1, by omega⟩
    cases h <;> (rw [parseVal, skip_blank _ ha]; rfl)
  | .num l, _, f, d, a, t, r, h, _, hf, ha, hr => by
    cases h with
    | num _ _ hl =>
    obtain ⟨f, rfl⟩ : ∃ g, f = g + 1 := ⟨f - 1, by omega⟩
    have hs := scanNum_complete hl hr
    obtain ⟨c, u, rfl, h⟩ := num_head hl
    obtain ⟨h1, h2, h3, h4, h5, h6, h7, _⟩ := num_head_plain h
    rw [parseVal, skip_blank _ ha, List.cons_append, skip_cons _ h1]
    dsimp only
    rw [if_neg h2, if_neg h3, if_neg h4, if_neg h5, if_neg h6, if_neg h7, ← List.cons_append, hs]
    rfl
  | .str l, _, f, d, a, t, r, h, _, hf, ha, _ => by
    cases h with
    | str _ _ hl =>
    obtain ⟨f, rfl⟩ : ∃ g, f = g + 1 := ⟨f - 1, by omega⟩
    rw [parseVal, skip_blank _ ha, List.cons_append, List.append_assoc, skip_cons _ (by decide)]
    simp only [if_true, List.cons_append, List.nil_append]
    rw [scanStr_lit hl r]; rfl
  | .arr xs, _, f, d, a, t, r, h, hn, hf, ha, _ => by
    obtain ⟨f, rfl⟩ : ∃ g, f = g + 1 := ⟨f - 1, by omega⟩
    cases h with
    | empty n b hb =>
      rw [parseVal, skip_blank _ ha, List.cons_append, skip_cons _ (by decide)]
      dsimp only
      rw [if_neg (by decide), if_pos rfl, if_neg (by omega), List.append_assoc, skip_blank _ hb]
      rfl
    | arr n _ t hx =>
      rw [parseVal, skip_blank _ ha, List.cons_append, skip_cons _ (by decide)]
      dsimp only
      rw [if_neg (by decide), if_pos rfl, if_neg (by omega), List.append_assoc]
      obtain ⟨c, u, e, hc⟩ := elems_head hx ([93] ++ r)
      rw [e]
      simp only [List.length_cons, List.length_append, List.length_nil] at hf
      have hp := elems_complete xs n f (d + 1) t r hx (by omega) (by omega)
      split
      · rename_i h; exact absurd (List.cons.inj h).1 hc
      · change (parseElems f (d + 1) (t ++ 93 :: r)).map _ = _
        rw [hp]; rfl
  | .obj ms, _, f, d, a, t, r, h, hn, hf, ha, _ => by
    obtain ⟨f, rfl⟩ : ∃ g, f = g + 1 := ⟨f - 1, by omega⟩
    cases h with
    | void n b hb =>
      rw [parseVal, skip_blank _ ha, List.cons_append, skip_cons _ (by decide)]
      dsimp only
      rw [if_neg (by decide), if_neg (by decide), if_pos rfl, if_neg (by omega), List.append_assoc, skip_blank _ hb]
      rfl
    | obj n _ t hx =>
      rw [parseVal, skip_blank _ ha, List.cons_append, skip_cons _ (by decide)]
      dsimp only
      rw [if_neg (by decide), if_neg (by decide), if_pos rfl, if_neg (by omega), List.append_assoc]
      obtain ⟨u, e⟩ := members_head hx ([125] ++ r)
      rw [e]
      simp only [List.length_cons, List.length_append, List.length_nil] at hf
      have hp := members_complete ms n f (d + 1) t r hx (by omega) (by omega)
      split
      · rename_i h; exact absurd (List.cons.inj h).1 (by decide)
      · change (parseMembers f (d + 1) (t ++ 125 :: r)).map _ = _
        rw [hp]; rfl
theorem elems_complete : (xs : List JVal) → (n f d : Nat) → (t r : Bytes) → JElems n xs t → n + d ≤ maxNesting → 2 * t.length + 2 ≤ f →
    parseElems f d (t ++ 93 :: r) = some (xs, r)
  | [], _, _, _, _, _, h, _, _ => by cases h
  | x :: xs, n, f, d, t, r, h, hn, hf => by
    obtain ⟨f, rfl⟩ : ∃ g, f = g + 1 := ⟨f - 1, by omega⟩
    cases h with
    | one _ x a t b ha hx hb =>
      simp only [List.length_append] at hf
      have e : a ++ (t ++ b) ++ 93 :: r = a ++ (t ++ (b ++ 93 :: r)) := by simp
      rw [e, parseElems, parse_complete x n f d a t _ hx hn (by omega) ha (blank_stops hb (by simp))]
      dsimp only
      simp only [skip_blank _ hb, skip_cons _ (show isSpace 93 = false by decide)]
    | more _ x xs a t b ts ha hx hb hs =>
      simp only [List.length_append, List.length_cons] at hf
      have e : a ++ (t ++ (b ++ 44 :: ts)) ++ 93 :: r = a ++ (t ++ (b ++ 44 :: (ts ++ 93 :: r))) := by simp
      rw [e, parseElems, parse_complete x n f d a t _ hx hn (by omega) ha (blank_stops hb (by simp))]
      dsimp only
      simp only [skip_blank _ hb, skip_cons _ (show isSpace 44 = false by decide)]
      rw [elems_complete xs n f d ts r hs hn (by omega)]
      rfl
theorem members_complete : (ms : List (Bytes × JVal)) → (n f d : Nat) → (t r : Bytes) → JMembers n ms t → n + d ≤ maxNesting → 2 * t.length + 2 ≤ f →
    parseMembers f d (t ++ 125 :: r) = some (ms, r)
  | [], _, _, _, _, _, h, _, _ => by cases h
  | (k, x) :: ms, n, f, d, t, r, h, hn, hf => by
    obtain ⟨f, rfl⟩ : ∃ g, f = g + 1 := ⟨f - 1, by omega⟩
    cases h with
    | one _ _ _ a b c t e ha hk hb hc hx he =>
      simp only [List.length_append, List.length_cons] at hf
      have e' : a ++ 34 :: (k ++ 34 :: (b ++ 58 :: (c ++ (t ++ e)))) ++ 125 :: r = a ++ (34 :: (k ++ 34 :: (b ++ 58 :: (c ++ (t ++ (e ++ 125 :: r)))))) := by simp
      rw [e', parseMembers, skip_blank _ ha, skip_cons _ (by decide)]
      simp only []
      rw [scanStr_lit hk]
      simp only [skip_blank _ hb, skip_cons _ (show isSpace 58 = false by decide)]
      rw [parse_complete x n f d c t _ hx hn (by omega) hc (blank_stops he (by simp))]
      dsimp only
      simp only [skip_blank _ he, skip_cons _ (show isSpace 125 = false by decide)]
    | more _ _ _ _ a b c t e ts ha hk hb hc hx he hs =>
      simp only [List.length_append, List.length_cons] at hf
      have e' : a ++ 34 :: (k ++ 34 :: (b ++ 58 :: (c ++ (t ++ (e ++ 44 :: ts))))) ++ 125 :: r =
          a ++ (34 :: (k ++ 34 :: (b ++ 58 :: (c ++ (t ++ (e ++ 44 :: (ts ++ 125 :: r))))))) := by simp
      rw [e', parseMembers, skip_blank _ ha, skip_cons _ (by decide)]
      simp only []
      rw [scanStr_lit hk]
      simp only [skip_blank _ hb, skip_cons _ (show isSpace 58 = false by decide)]
      rw [parse_complete x n f d c t _ hx hn (by omega) hc (blank_stops he (by simp))]
      dsimp only
      simp only [skip_blank _ he, skip_cons _ (show isSpace 44 = false by decide)]
      rw [members_complete ms n f d ts r hs hn (by omega)]
      rfl
end

theorem jsonParse_complete {bs a t b : Bytes} {j : JVal} (e : bs = a ++ (t ++ b)) (ha : Blank a) (hb : Blank b) (h : JText maxNesting j t) : jsonParse bs = some j := by
  subst e
  unfold jsonParse
  rw [parse_complete j maxNesting _ 0 a t b h (Nat.le_refl _) (by simp only [List.length_append]; omega) ha (blank_stops_end hb)]
  dsimp only
  have := skip_blank [] hb
  rw [List.append_nil] at this
  rw [this]; rfl

/-! ## Literals -/

theorem hexVal_some {c : UInt8} {n : Nat} (h : HexVal c n) : fromHexChar c = some n := by
  have hn : n < 16 := by
    rcases h with h | h <;> exact (List.getElem?_eq_some_iff.1 h).1
  have : ∀ n : Fin 16, ((asc "0123456789abcdef")[n.val]?).all (fun c => fromHexChar c == some n.val) = true ∧
      ((asc "0123456789ABCDEF")[n.val]?).all (fun c => fromHexChar c == some n.val) = true := by decide +kernel
  have := this ⟨n, hn⟩
  rcases h with h | h
  · have := this.1; rw [h] at this; exact beq_iff_eq.1 this
  · have := this.2; rw [h] at this; exact beq_iff_eq.1 this
theorem hex4_getu4 {a b c d : UInt8} {r : Nat} (h : Hex4 a b c d r) (t : Bytes) : getu4 (a :: b :: c :: d :: t) = some r := by
  obtain ⟨w, x, y, z, h1, h2, h3, h4, rfl⟩ := h
  rw [getu4, hexVal_some h1, hexVal_some h2, hexVal_some h3, hexVal_some h4]
  simp only [Option.some.injEq]
  omega

theorem unq_means {l s : Bytes} (h : LitMeans l s) : ∀ g, l.length ≤ g → unqAux g l = s := by
  induction h with
  | nil => intro g _; cases g <;> rfl
  | char r c l s hc h32 h34 h92 _ ih =>
    intro g hg
    rw [List.length_append] at hg
    by_cases hl : c.length = 1
    · cases hc with
      | two | three | four => simp at hl
      | one a ha =>
        obtain ⟨g, rfl⟩ : ∃ k, g = k + 1 := ⟨g - 1, by simp at hg; omega⟩
        simp only [List.cons_append, List.nil_append, unqAux]
        rw [if_neg (by rw [u8_eq_iff]; exact h92), if_pos (by rw [u8_lt_iff]; exact ha), ih g (by simp at hg; omega)]
    · obtain ⟨b, t, rfl, _⟩ := char_head hc hl
      rw [List.length_cons] at hg
      obtain ⟨g, rfl⟩ : ∃ k, g = k + 1 := ⟨g - 1, by omega⟩
      rw [unq_raw hc hl g, ih g (by omega)]
  | esc e b l s he _ ih =>
    intro g hg
    simp only [List.length_cons] at hg
    obtain ⟨g, rfl⟩ : ∃ k, g = k + 1 := ⟨g - 1, by omega⟩
    have := ih g (by omega)
    simp only [List.mem_cons, List.not_mem_nil, or_false, Prod.mk.injEq] at he
    rcases he with ⟨rfl, rfl⟩ | ⟨rfl, rfl⟩ | ⟨rfl, rfl⟩ | ⟨rfl, rfl⟩ | ⟨rfl, rfl⟩ | ⟨rfl, rfl⟩ | ⟨rfl, rfl⟩ | ⟨rfl, rfl⟩ <;>
      (rw [← this]; rfl)
  | code a b c d r u l s hr hu _ ih =>
    intro g hg
    simp only [List.length_cons] at hg
    obtain ⟨g, rfl⟩ : ∃ k, g = k + 1 := ⟨g - 1, by omega⟩
    have hs := char_scalar hu
    unfold Scalar at hs
    simp only [unqAux, if_true]
    rw [hex4_getu4 hr]
    dsimp only
    rw [if_neg (by unfold isSurrogate; rw [Bool.and_eq_true, decide_eq_true_iff, decide_eq_true_iff]; omega), utf8Encode_char hu]
    simp only [List.drop_succ_cons, List.drop_zero]
    rw [ih g (by omega)]
  | pair a b c d a' b' c' d' hi lo u l s h1 h2 hhi hlo hu _ ih =>
    intro g hg
    simp only [List.length_cons] at hg
    obtain ⟨g, rfl⟩ : ∃ k, g = k + 1 := ⟨g - 1, by omega⟩
    simp only [unqAux, if_true]
    rw [hex4_getu4 h1]
    dsimp only
    rw [if_pos (by unfold isSurrogate; rw [Bool.and_eq_true, decide_eq_true_iff, decide_eq_true_iff]; omega)]
    simp only [List.drop_succ_cons, List.drop_zero, nextU4]
    rw [hex4_getu4 h2, Option.bind_some]
    have : surrogatePair (0xD800 + hi) (0xDC00 + lo) = some (0x10000 + 1024 * hi + lo) := by
      unfold surrogatePair
      rw [if_pos (by omega)]
      exact congrArg some (by omega)
    rw [this]
    dsimp only
    rw [utf8Encode_char hu, ih g (by omega)]

theorem unquote_means {l s : Bytes} (h : LitMeans l s) : unquote l = s := unq_means h _ (Nat.le_refl _)

end Verif
