import Verif.Lemmas.JsonStr
import Verif.Lemmas.Strconv
/-! Helper lemmas: the text of a document is parsed back. -/
namespace Verif

theorem hexChar_some (x : UInt8) (h : x ∈ asc "0123456789abcdefABCDEF") : (fromHexChar x).isSome := by
  have : ∀ x ∈ asc "0123456789abcdefABCDEF", (fromHexChar x).isSome = true := by decide +kernel
  exact this x h

theorem isEscape_of (e : UInt8) (h : e ∈ asc "bfnrt\\/\"") : isEscape e = true := by
  have : ∀ e ∈ asc "bfnrt\\/\"", isEscape e = true := by decide +kernel
  exact this e h

theorem scanStr_quote (r : Bytes) : scanStr (34 :: r) = some ([], r) := by rw [scanStr.eq_def]; rfl
theorem scanStr_char (c : UInt8) (t : Bytes) (h1 : 32 ≤ c.toNat) (h2 : c ≠ 34) (h3 : c ≠ 92) : scanStr (c :: t) = (scanStr t).map fun p => (c :: p.1, p.2) := by
  rw [scanStr.eq_def]; dsimp only; rw [if_neg h2, if_neg (by rw [u8_lt_iff]; exact Nat.not_lt.2 h1), if_neg h3]
theorem scanStr_esc (e : UInt8) (t : Bytes) (he : isEscape e = true) : scanStr (92 :: e :: t) = (scanStr t).map fun p => (92 :: e :: p.1, p.2) := by
  rw [scanStr.eq_def]; dsimp only; rw [if_neg (by decide), if_neg (by decide), if_pos rfl, if_pos he]
theorem scanStr_code (a b c d : UInt8) (t : Bytes) (h : (getu4 [a, b, c, d]).isSome = true) :
    scanStr (92 :: 117 :: a :: b :: c :: d :: t) = (scanStr t).map fun p => (92 :: 117 :: a :: b :: c :: d :: p.1, p.2) := by
  rw [scanStr.eq_def]; dsimp only; rw [if_neg (by decide), if_neg (by decide), if_pos rfl, if_neg (by decide), if_pos rfl, if_pos h]

theorem scanStr_lit {l : Bytes} (h : StrLit l) (r : Bytes) : scanStr (l ++ 34 :: r) = some (l, r) := by
  induction h with
  | nil => exact scanStr_quote r
  | char c s h1 h2 h3 _ ih => rw [List.cons_append, scanStr_char c _ h1 h2 h3, ih]; rfl
  | esc e s he _ ih => rw [List.cons_append, List.cons_append, scanStr_esc e _ (isEscape_of e he), ih]; rfl
  | code a b c d s hx _ ih =>
    obtain ⟨a', ha⟩ := Option.isSome_iff_exists.1 (hexChar_some a (hx a (by simp)))
    obtain ⟨b', hb⟩ := Option.isSome_iff_exists.1 (hexChar_some b (hx b (by simp)))
    obtain ⟨c', hc⟩ := Option.isSome_iff_exists.1 (hexChar_some c (hx c (by simp)))
    obtain ⟨d', hd⟩ := Option.isSome_iff_exists.1 (hexChar_some d (hx d (by simp)))
    simp only [List.cons_append]
    rw [scanStr_code a b c d _ (by simp [getu4, ha, hb, hc, hd]), ih]; rfl

/-! ## What json.Marshal writes for a string is a literal -/

theorem lit_append {a b : Bytes} (ha : StrLit a) (hb : StrLit b) : StrLit (a ++ b) := by
  induction ha with
  | nil => exact hb
  | char c s h1 h2 h3 _ ih => exact .char c _ h1 h2 h3 ih
  | esc e s he _ ih => exact .esc e _ he ih
  | code a b c d s hx _ ih => exact .code a b c d _ hx ih

theorem hexDigit_mem (n : Nat) (h : n < 16) : hexDigit n ∈ asc "0123456789abcdefABCDEF" := by
  have : ∀ n : Fin 16, hexDigit n.val ∈ asc "0123456789abcdefABCDEF" := by decide +kernel
  exact this ⟨n, h⟩

theorem lit_uEscape (r : Nat) : StrLit (uEscape r) := by
  refine .code _ _ _ _ [] ?_ .nil
  intro x hx
  simp only [List.mem_cons, List.not_mem_nil, or_false] at hx
  rcases hx with rfl | rfl | rfl | rfl <;> exact hexDigit_mem _ (Nat.mod_lt _ (by decide))

theorem lit_escByte (b : UInt8) : StrLit (escByte b) := by
  unfold escByte
  split
  · rename_i h; rcases h with rfl | rfl <;> exact .esc _ [] (by decide) .nil
  split
  · exact .esc _ [] (by decide) .nil
  split
  · exact .esc _ [] (by decide) .nil
  split
  · exact .esc _ [] (by decide) .nil
  split
  · exact .esc _ [] (by decide) .nil
  split
  · exact .esc _ [] (by decide) .nil
  split
  · exact lit_uEscape _
  · rename_i h1 _ _ _ _ _ h2
    refine .char b [] ?_ (fun h => h1 (.inl h)) (fun h => h1 (.inr h)) .nil
    have : ¬ b < 32 := fun h => h2 (.inl h)
    rw [u8_lt_iff] at this
    exact Nat.not_lt.1 this

theorem lit_high {s : Bytes} (h : ∀ x ∈ s, 128 ≤ x.toNat) : StrLit s := by
  induction s with
  | nil => exact .nil
  | cons c s ih =>
    have hc := h c (by simp)
    exact .char c s (by omega) (by rw [Ne, u8_eq_iff]; change ¬ c.toNat = 34; omega) (by rw [Ne, u8_eq_iff]; change ¬ c.toNat = 92; omega) (ih fun x hx => h x (by simp [hx]))

theorem contIn_high {lo hi b : UInt8} (hlo : 128 ≤ lo.toNat) (h : ¬ (!(contIn lo hi b)) = true) : 128 ≤ b.toNat := by
  rw [Bool.not_eq_true, Bool.not_eq_false', contIn_bounds] at h; omega

theorem secondRange_high (b : UInt8) : 128 ≤ (secondRange b).1.toNat := by
  unfold secondRange; repeat' split
  all_goals decide

theorem decodeRune_bytes (b : UInt8) (t : Bytes) (hb : ¬ b < 0x80) : ∀ x ∈ (b :: t).take (decodeRune (b :: t)).2, 128 ≤ x.toNat := by
  have h0 : 128 ≤ b.toNat := by rw [u8_lt_iff] at hb; exact Nat.not_lt.1 hb
  have one : ∀ x ∈ (b :: t).take 1, 128 ≤ x.toNat := by intro x hx; simp at hx; exact hx ▸ h0
  unfold decodeRune
  dsimp only
  rw [if_neg hb]
  split
  · exact one
  cases t with
  | nil => exact one
  | cons b1 t1 =>
    dsimp only
    split
    · exact one
    rename_i h1
    have h1 := contIn_high (secondRange_high b) h1
    split
    · intro x hx; simp at hx; rcases hx with rfl | rfl <;> assumption
    cases t1 with
    | nil => exact one
    | cons b2 t2 =>
      dsimp only
      split
      · exact one
      rename_i h2
      have h2 := contIn_high (by decide) h2
      split
      · intro x hx; simp at hx; rcases hx with rfl | rfl | rfl <;> assumption
      cases t2 with
      | nil => exact one
      | cons b3 t3 =>
        dsimp only
        split
        · exact one
        rename_i h3
        have h3 := contIn_high (by decide) h3
        intro x hx; simp at hx; rcases hx with rfl | rfl | rfl | rfl <;> assumption

theorem lit_escAux : (f : Nat) → (s : Bytes) → StrLit (escAux f s)
  | 0, _ => .nil
  | _ + 1, [] => .nil
  | f + 1, b :: t => by
    rw [escAux]
    split
    · exact lit_append (lit_escByte b) (lit_escAux f t)
    rename_i hb
    dsimp only
    split
    · exact lit_append (lit_uEscape _) (lit_escAux f t)
    split
    · exact lit_append (lit_uEscape _) (lit_escAux f _)
    · exact lit_append (lit_high (decodeRune_bytes b t hb)) (lit_escAux f _)

theorem lit_escape (s : Bytes) : StrLit (escapeStr s) := lit_escAux _ s

/-! ## Numbers -/

/-- What follows a value: not the rest of a number -/
def Stops : Bytes → Prop
  | [] => True
  | c :: _ => isDigit c = false ∧ c ≠ 46 ∧ c ≠ 101 ∧ c ≠ 69

theorem isDigit_iff' (c : UInt8) : isDigit c = true ↔ 48 ≤ c.toNat ∧ c.toNat ≤ 57 := by
  unfold isDigit; rw [Bool.and_eq_true, decide_eq_true_iff, decide_eq_true_iff]; rfl

theorem spanDigits_append {ds r : Bytes} (hd : AllDigits ds) (hr : Stops r) : spanDigits (ds ++ r) = (ds, r) := by
  induction ds with
  | nil => cases r with
    | nil => rfl
    | cons c t => simp only [List.nil_append, spanDigits, hr.1]; rfl
  | cons c ds ih =>
    have := (isDigit_iff' c).2 (hd c (by simp))
    simp only [List.cons_append, spanDigits, this, if_true, ih fun x hx => hd x (by simp [hx])]

theorem scanExp_stop {r : Bytes} (hr : Stops r) : scanExp r = some ([], r) := by
  cases r with
  | nil => rfl
  | cons c t => unfold scanExp; dsimp only; rw [if_neg]; rintro (h | h); exact hr.2.2.1 h; exact hr.2.2.2 h
theorem scanFrac_stop {r : Bytes} (hr : Stops r) : scanFrac r = some ([], r) := by
  unfold scanFrac
  split
  · exact absurd rfl hr.2.1
  · exact scanExp_stop hr

theorem scanNum_fmtNat (n : Nat) {r : Bytes} (hr : Stops r) : scanNum (fmtNat n ++ r) = some (fmtNat n, r) := by
  obtain ⟨h1, _, h3, h4⟩ := fmtNat_spec n
  by_cases hz : n = 0
  · subst hz
    have : fmtNat 0 = [48] := by decide +kernel
    rw [this]
    change (scanFrac r).map _ = _
    rw [scanFrac_stop hr]; rfl
  cases hf : fmtNat n with
  | nil => exact absurd hf h3
  | cons c m =>
    rw [hf] at h1 h4
    have hc := h1 c (by simp)
    have h48 : c ≠ 48 := fun h => h4 hz (by rw [h]; rfl)
    have h45 : c ≠ 45 := by rw [Ne, u8_eq_iff]; change ¬ c.toNat = 45; omega
    have e := spanDigits_append h1 hr
    unfold scanNum
    split
    · rename_i h; rw [List.cons_append] at h; exact absurd (List.cons.inj h).1 h45
    unfold scanUnsigned
    split
    · rename_i h; rw [List.cons_append] at h; exact absurd (List.cons.inj h).1 h48
    rw [e]
    dsimp only
    rw [if_neg (by simp), scanFrac_stop hr]
    simp

/-! ## Documents -/

theorem skip_cons {c : UInt8} (t : Bytes) (h : isSpace c = false) : skipSpace (c :: t) = c :: t := by simp [skipSpace, h]

theorem stops_more (c : UInt8) (t : Bytes) (h : c = 44 ∨ c = 93 ∨ c = 125) : Stops (c :: t) := by
  rcases h with rfl | rfl | rfl <;> exact ⟨by decide, by decide, by decide, by decide⟩

/-- Every document starts with something that is neither white space nor a closing bracket. -/
theorem print_head (n : Nat) (j : JVal) (h : j.Fine n) : ∃ c t, j.print = c :: t ∧ isSpace c = false ∧ c ≠ 93 := by
  cases j with
  | null => exact ⟨110, _, rfl, by decide, by decide⟩
  | bool b => cases b <;> exact ⟨_, _, rfl, by decide, by decide⟩
  | num l =>
    obtain ⟨k, rfl⟩ := h
    obtain ⟨h1, _, h3, _⟩ := fmtNat_spec k
    cases hf : fmtNat k with
    | nil => exact absurd hf h3
    | cons c m =>
      rw [hf] at h1
      have hc := h1 c (by simp)
      have (k : UInt8) (h : k.toNat < 48 ∨ 57 < k.toNat) : c ≠ k := by rw [Ne, u8_eq_iff]; omega
      refine ⟨c, m, by rw [JVal.print], ?_, this _ (by decide)⟩
      unfold isSpace
      simp [this 32 (by decide), this 9 (by decide), this 10 (by decide), this 13 (by decide)]
  | str l => exact ⟨34, _, by rw [JVal.print], by decide, by decide⟩
  | arr xs => exact ⟨91, _, by rw [JVal.print], by decide, by decide⟩
  | obj ms => exact ⟨123, _, by rw [JVal.print], by decide, by decide⟩

theorem parseVal_num (f d : Nat) (k : Nat) (r : Bytes) (hr : Stops r) : parseVal (f + 1) d (fmtNat k ++ r) = some (.num (fmtNat k), r) := by
  have hs := scanNum_fmtNat k hr
  obtain ⟨h1, _, h3, _⟩ := fmtNat_spec k
  cases hf : fmtNat k with
  | nil => exact absurd hf h3
  | cons c m =>
    rw [hf] at h1 hs
    have hc := h1 c (by simp)
    have (k : UInt8) (h : k.toNat < 48 ∨ 57 < k.toNat) : c ≠ k := by rw [Ne, u8_eq_iff]; omega
    have hsp : isSpace c = false := by
      unfold isSpace
      simp [this 32 (by decide), this 9 (by decide), this 10 (by decide), this 13 (by decide)]
    rw [List.cons_append] at hs ⊢
    rw [parseVal, skip_cons _ hsp]
    dsimp only
    rw [if_neg (this _ (by decide)), if_neg (this _ (by decide)), if_neg (this _ (by decide)), if_neg (this _ (by decide)), if_neg (this _ (by decide)), if_neg (this _ (by decide)), hs]
    rfl

mutual
theorem parse_print : (j : JVal) → (n f d : Nat) → (r : Bytes) → j.Fine n → n + d ≤ maxNesting → 2 * j.print.length + 1 ≤ f → Stops r → parseVal f d (j.print ++ r) = some (j, r)
  | .null, _, f, d, r, _, _, hf, _ => by
    obtain ⟨f, rfl⟩ : ∃ g, f = g + 1 := ⟨f - 1, by omega⟩
    rfl
  | .bool b, _, f, d, r, _, _, hf, _ => by
    obtain ⟨f, rfl⟩ : ∃ g, f = g + 1 := ⟨f - 1, by omega⟩
    cases b <;> rfl
  | .num l, _, f, d, r, h, _, hf, hr => by
    obtain ⟨f, rfl⟩ : ∃ g, f = g + 1 := ⟨f - 1, by omega⟩
    obtain ⟨k, rfl⟩ := h
    rw [JVal.print]
    exact parseVal_num f d k r hr
  | .str l, _, f, d, r, h, _, hf, _ => by
    obtain ⟨f, rfl⟩ : ∃ g, f = g + 1 := ⟨f - 1, by omega⟩
    rw [JVal.print, List.cons_append, List.append_assoc, parseVal, skip_cons _ (by decide)]
    simp only [if_true, List.cons_append, List.nil_append]
    rw [scanStr_lit h r]; rfl
  | .arr xs, n, f, d, r, h, hn, hf, _ => by
    obtain ⟨f, rfl⟩ : ∃ g, f = g + 1 := ⟨f - 1, by omega⟩
    rw [JVal.print] at hf
    simp only [List.length_cons, List.length_append, List.length_nil] at hf
    rw [JVal.print, List.cons_append, List.append_assoc, parseVal, skip_cons _ (by decide)]
    dsimp only
    obtain ⟨h1, h2⟩ := h
    rw [if_neg (by decide), if_pos rfl, if_neg (by omega)]
    match xs, h2 with
    | [], _ => rfl
    | x :: xs, h2 =>
      obtain ⟨c, t, e, e1, e2⟩ := print_head _ x h2.1
      have hp := parse_elems (x :: xs) (by simp) (n - 1) f (d + 1) r h2 (by omega) (by omega)
      have hsk : skipSpace (printElems (x :: xs) ++ ([93] ++ r)) = printElems (x :: xs) ++ ([93] ++ r) := by
        rw [printElems, e]; exact skip_cons _ e1
      rw [hsk]
      split
      · rename_i r' h'
        rw [printElems, e] at h'
        exact absurd (List.cons.inj h').1 e2
      · rw [hp]; rfl
  | .obj ms, n, f, d, r, h, hn, hf, _ => by
    obtain ⟨f, rfl⟩ : ∃ g, f = g + 1 := ⟨f - 1, by omega⟩
    rw [JVal.print] at hf
    simp only [List.length_cons, List.length_append, List.length_nil] at hf
    rw [JVal.print, List.cons_append, List.append_assoc, parseVal, skip_cons _ (by decide)]
    dsimp only
    obtain ⟨h1, h2⟩ := h
    rw [if_neg (by decide), if_neg (by decide), if_pos rfl, if_neg (by omega)]
    match ms, h2 with
    | [], _ => rfl
    | (k, x) :: ms, h2 =>
      have hp := parse_members ((k, x) :: ms) (by simp) (n - 1) f (d + 1) r h2 (by omega) (by omega)
      have hsk : skipSpace (printMembers ((k, x) :: ms) ++ ([125] ++ r)) = printMembers ((k, x) :: ms) ++ ([125] ++ r) := by
        rw [printMembers]; exact skip_cons _ (by decide)
      rw [hsk]
      split
      · rename_i r' h'
        rw [printMembers] at h'
        exact absurd (List.cons.inj h').1 (by decide)
      · rw [hp]; rfl
theorem parse_elems : (xs : List JVal) → xs ≠ [] → (n f d : Nat) → (r : Bytes) → fineList n xs → n + d ≤ maxNesting → 2 * (printElems xs).length + 2 ≤ f →
    parseElems f d (printElems xs ++ ([93] ++ r)) = some (xs, r)
  | [], hne, _, _, _, _, _, _, _ => absurd rfl hne
  | [x], _, n, f, d, r, h, hn, hf => by
    obtain ⟨f, rfl⟩ : ∃ g, f = g + 1 := ⟨f - 1, by omega⟩
    simp only [printElems, printMore, List.append_nil] at hf ⊢
    rw [parseElems, parse_print x n f d ([93] ++ r) h.1 hn (by omega) (stops_more 93 r (by simp))]
    rfl
  | x :: y :: ys, _, n, f, d, r, h, hn, hf => by
    obtain ⟨f, rfl⟩ : ∃ g, f = g + 1 := ⟨f - 1, by omega⟩
    have hp : printElems (x :: y :: ys) ++ ([93] ++ r) = x.print ++ 44 :: (printElems (y :: ys) ++ ([93] ++ r)) := by simp [printElems, printMore]
    have hl : (printElems (x :: y :: ys)).length = x.print.length + 1 + (printElems (y :: ys)).length := by simp [printElems, printMore]; omega
    rw [hl] at hf
    rw [hp, parseElems, parse_print x n f d _ h.1 hn (by omega) (stops_more 44 _ (by simp))]
    simp only [skip_cons _ (show isSpace 44 = false by decide)]
    rw [parse_elems (y :: ys) (by simp) n f d r h.2 hn (by omega)]
    rfl
theorem parse_members : (ms : List (Bytes × JVal)) → ms ≠ [] → (n f d : Nat) → (r : Bytes) → fineMembers n ms → n + d ≤ maxNesting → 2 * (printMembers ms).length + 2 ≤ f →
    parseMembers f d (printMembers ms ++ ([125] ++ r)) = some (ms, r)
  | [], hne, _, _, _, _, _, _, _ => absurd rfl hne
  | [(k, x)], _, n, f, d, r, h, hn, hf => by
    obtain ⟨f, rfl⟩ : ∃ g, f = g + 1 := ⟨f - 1, by omega⟩
    have hp : printMembers [(k, x)] ++ ([125] ++ r) = 34 :: (k ++ 34 :: 58 :: (x.print ++ 125 :: r)) := by simp [printMembers, printMoreMembers]
    have hl : (printMembers [(k, x)]).length = k.length + x.print.length + 3 := by simp [printMembers, printMoreMembers]; omega
    rw [hl] at hf
    rw [hp, parseMembers, skip_cons _ (by decide)]
    simp only [scanStr_lit h.1, skip_cons _ (show isSpace 58 = false by decide)]
    rw [parse_print x n f d _ h.2.1 hn (by omega) (stops_more 125 r (by simp))]
    simp only [skip_cons _ (show isSpace 125 = false by decide)]
  | (k, x) :: (k', y) :: ms, _, n, f, d, r, h, hn, hf => by
    obtain ⟨f, rfl⟩ : ∃ g, f = g + 1 := ⟨f - 1, by omega⟩
    have hp : printMembers ((k, x) :: (k', y) :: ms) ++ ([125] ++ r) = 34 :: (k ++ 34 :: 58 :: (x.print ++ 44 :: (printMembers ((k', y) :: ms) ++ ([125] ++ r)))) := by
      simp [printMembers, printMoreMembers]
    have hl : (printMembers ((k, x) :: (k', y) :: ms)).length = k.length + x.print.length + 4 + (printMembers ((k', y) :: ms)).length := by
      simp [printMembers, printMoreMembers]; omega
    rw [hl] at hf
    rw [hp, parseMembers, skip_cons _ (by decide)]
    simp only [scanStr_lit h.1, skip_cons _ (show isSpace 58 = false by decide)]
    rw [parse_print x n f d _ h.2.1 hn (by omega) (stops_more 44 _ (by simp))]
    simp only [skip_cons _ (show isSpace 44 = false by decide)]
    rw [parse_members ((k', y) :: ms) (by simp) n f d r h.2.2 hn (by omega)]
    rfl
end

theorem jsonParse_print (j : JVal) (h : j.Fine maxNesting) : jsonParse j.print = some j := by
  unfold jsonParse
  have := parse_print j maxNesting (2 * j.print.length + 2) 0 [] h (Nat.le_refl _) (by omega) trivial
  rw [List.append_nil] at this
  rw [this]
  rfl

end Verif
