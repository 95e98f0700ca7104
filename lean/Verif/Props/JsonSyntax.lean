import Verif.Lemmas.JsonRepair
import Verif.Model.Json
/-! # C74: the texts json.Unmarshal takes for documents -/
namespace Verif

/-- C74: a text stands for document j exactly if it is, white space aside, a text of j by RFC 8259 with brackets nested at most 10000 deep. -/
theorem C74_syntax (text : Bytes) (j : JVal) : jsonParse text = some j ↔ ∃ a t b, text = a ++ (t ++ b) ∧ Blank a ∧ Blank b ∧ JText 10000 j t :=
  ⟨fun h => jsonParse_sound h, fun ⟨_, _, _, e, ha, hb, h⟩ => jsonParse_complete e ha hb h⟩

/-- C74: anything else is refused and changes nothing. -/
theorem C74_refused (sha : Sha256) (t : JTy) (old : t.Val) (text : Bytes) (h : ∀ j a u b, text = a ++ (u ++ b) → Blank a → Blank b → ¬ JText 10000 j u) :
    jsonUnmarshal sha t old text = .val (old, .failed) := by
  have : jsonParse text = none := by
    cases hp : jsonParse text with
    | none => rfl
    | some j =>
      obtain ⟨a, u, b, e, ha, hb, hj⟩ := (C74_syntax text j).1 hp
      exact absurd hj (h j a u b e ha hb)
  rw [jsonUnmarshal, this]

/-- C74: a literal is read as the string it stands for, with escapes and surrogate pairs, in UTF-8. -/
theorem C74_string (l s : Bytes) (h : LitMeans l s) : unquote l = s := unquote_means h

/-- C74: every literal is read, and as `ReadAs` says: as the string it stands for, with U+FFFD for each surrogate without partner and each byte that is not UTF-8. -/
theorem C74_literal (l s : Bytes) (h : StrLit l) : unquote l = s ↔ ReadAs l s := by
  refine ⟨fun e => ?_, unquote_readAs⟩
  obtain ⟨s', h'⟩ := readAs_total _ l (Nat.le_refl _) h
  rwa [← e, unquote_readAs h']

/-- C74: a string literal read into a Go string, whatever the string was before -/
theorem C74_string_read (sha : Sha256) (l s old : Bytes) (h : StrLit l) :
    jsonUnmarshal sha (.basic .string) old (34 :: (l ++ [34])) = .val ((s : Bytes), .ok) ↔ ReadAs l s := by
  have hp : jsonParse (34 :: (l ++ [34])) = some (.str l) :=
    have b : Blank [] := fun _ h => nomatch h
    (C74_syntax _ _).2 ⟨[], 34 :: (l ++ [34]), [], by simp, b, b, JText.str _ _ h⟩
  have e : jsonUnmarshal sha (.basic .string) old (34 :: (l ++ [34])) = .val ((unquote l : Bytes), .ok) := by
    unfold jsonUnmarshal
    rw [hp]
    rfl
  rw [e, ← C74_literal l s h]
  constructor
  · intro h; injection h with h; injection h
  · intro h; rw [h]

/-- ` [ -2.5e+3 , "\u00e9"]` -/
example : ∃ a t b, asc " [ -2.5e+3 , \"\\u00e9\"]" = a ++ (t ++ b) ∧ Blank a ∧ Blank b ∧ JText 10000 (.arr [.num (asc "-2.5e+3"), .str (asc "\\u00e9")]) t := by
  have hb : Blank [32] := fun c h => Or.inl (List.mem_singleton.1 h)
  have h0 : Blank [] := fun c h => by cases h
  have dg (c : UInt8) (h : c ∈ asc "0123456789") : DigitSeq [c] := ⟨by simp, fun x hx => (List.mem_singleton.1 hx) ▸ h⟩
  refine ⟨[32], _, [], rfl, hb, h0, .arr 9999 _ _ (.more _ _ _ [32] (asc "-2.5e+3") [32] _ hb (.num _ _ ?_) hb (.one _ _ [32] _ [] hb (.str _ (asc "\\u00e9") ?_) h0))⟩
  · exact ⟨asc "-", asc "2", asc ".5", asc "e+3", rfl, Or.inr rfl, Or.inr ⟨dg 50 (by decide), by decide⟩, Or.inr ⟨[53], dg 53 (by decide), rfl⟩,
      Or.inr ⟨101, asc "+", [51], Or.inl rfl, Or.inr (Or.inl rfl), dg 51 (by decide), rfl⟩⟩
  · exact .code _ _ _ _ [] (by decide) .nil
/-- `\ud83d\ude00` is one character outside the basic plane. -/
example : LitMeans (asc "\\ud83d\\ude00\\n") [0xF0, 0x9F, 0x98, 0x80, 10] :=
  .pair _ _ _ _ _ _ _ _ 61 512 [0xF0, 0x9F, 0x98, 0x80] _ [10] ⟨13, 8, 3, 13, Or.inl rfl, Or.inl rfl, Or.inl rfl, Or.inl rfl, rfl⟩
    ⟨13, 14, 0, 0, Or.inl rfl, Or.inl rfl, Or.inl rfl, Or.inl rfl, rfl⟩ (by decide) (by decide)
    (.four 0 31 24 0 (by decide) (by decide) (by decide) (by decide) (by decide) (by unfold Scalar; decide)) (.esc 110 10 [] [] (by decide) .nil)
/-- `\ud83d` without partner, the escape of A, and a byte that is not UTF-8 -/
example : ReadAs (asc "\\ud83d\\u0041" ++ [0xFF]) [0xEF, 0xBF, 0xBD, 65, 0xEF, 0xBF, 0xBD] := by
  have no : NoChar [0xFF] := by
    intro r c u hc e
    rcases char_bytes hc with ⟨a, rfl, _, ha⟩ | ⟨hr, _⟩
    · injection e with e; subst e; exact absurd ha (by decide)
    · have := decodeRune_char hc u
      rw [← e, show decodeRune [0xFF] = (0xFFFD, 1) by decide] at this
      injection this with _ h4
      cases hc with
      | one a ha => omega
      | two | three | four => simp at h4
  refine .lone _ _ _ _ 0xD83D _ _ ⟨13, 8, 3, 13, Or.inl rfl, Or.inl rfl, Or.inl rfl, Or.inl rfl, rfl⟩ (by decide) (by decide) ?_
    (.code _ _ _ _ 65 [65] _ _ ⟨0, 0, 4, 1, Or.inl rfl, Or.inl rfl, Or.inl rfl, Or.inl rfl, rfl⟩ (.one 65 (by decide)) (.bad 0xFF [] [] no .nil))
  rintro ⟨_, a, b, c, d, r, t, e, h, h1, h2⟩
  have hr := hex4_getu4 h t
  have e : [48, 48, 52, 49, 255] = a :: b :: c :: d :: t := congrArg (List.drop 2) e
  rw [← e] at hr
  have : getu4 [48, 48, 52, 49, 255] = some 65 := by decide
  rw [this] at hr
  injection hr with hr
  omega
/-- A number with a superfluous zero -/
example (sha : Sha256) : jsonUnmarshal sha (.basic .u8) (7 : UInt8) (asc "01") = .val ((7 : UInt8), .failed) := by
  have : jsonParse (asc "01") = none := by decide +kernel
  unfold jsonUnmarshal
  rw [this]

end Verif
