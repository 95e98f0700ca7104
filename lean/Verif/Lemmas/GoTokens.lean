import Verif.Lemmas.CodegenText
import Verif.Lemmas.CodegenCompile
/-! Lemmas for C91: the tokens of the rendered templates. -/
namespace Verif
open Vectors

/-! ## Reading on -/

namespace LexSt

theorem run_append (s : LexSt) (a b : Bytes) : s.run (a ++ b) = ((s.run a).1 ++ ((s.run a).2.run b).1, ((s.run a).2.run b).2) := by
  induction a generalizing s with
  | nil => simp [run]
  | cons c a ih => simp [run, ih, List.append_assoc]

theorem run_cons (s : LexSt) (c : UInt8) (t : Bytes) : s.run (c :: t) = ((s.step c).1 ++ ((s.step c).2.run t).1, ((s.step c).2.run t).2) := rfl

theorem run_then {s s' s'' : LexSt} {a b : Bytes} {ts ts' : List Tok} (h : s.run a = (ts, s')) (h' : s'.run b = (ts', s'')) : s.run (a ++ b) = (ts ++ ts', s'') := by
  rw [run_append, h, h']

theorem ops_noWord : ∀ o ∈ goOps, ∀ c ∈ o, wordChar c = false := by decide +kernel
theorem op_word (o : Bytes) (c : UInt8) (hc : wordChar c = true) : o ++ [c] ∉ goOps := fun h => by
  have := ops_noWord _ h c (by simp)
  rw [hc] at this
  cases this
theorem op_not (c : UInt8) (hc : ∀ o ∈ goOps, o.getLast? ≠ some c) (o : Bytes) : o ++ [c] ∉ goOps := fun h => hc _ h (by simp)

theorem word_ne {c : UInt8} (hc : wordChar c = true) : c ≠ 10 ∧ c ≠ 32 ∧ c ≠ 9 ∧ c ≠ 13 ∧ c ≠ 34 ∧ c ≠ 92 := by
  refine ⟨?_, ?_, ?_, ?_, ?_, ?_⟩ <;> rintro rfl <;> revert hc <;> decide

/-- Not in a string -/
def Plain : LexSt → Prop
  | .str _ => False
  | .bad => False
  | _ => True

theorem fresh_word (s : LexSt) (c : UInt8) (hc : wordChar c = true) : s.fresh c = (s.flush.1, .word [c]) := by
  obtain ⟨h1, h2, h3, h4, h5, _⟩ := word_ne hc
  simp [fresh, h1, h2, h3, h4, hc]

theorem step_fresh_word (s : LexSt) (hs : s.Plain) (hw : ∀ w, s ≠ .word w) (c : UInt8) (hc : wordChar c = true) : s.step c = (s.flush.1, .word [c]) := by
  cases s with
  | idle b => exact fresh_word _ c hc
  | word w => exact absurd rfl (hw w)
  | op o => simp only [step, op_word o c hc, if_false]; exact fresh_word _ c hc
  | str t => exact hs.elim
  | bad => exact hs.elim

theorem run_more (w n : Bytes) (h : ∀ c ∈ n, wordChar c = true) : (LexSt.word w).run n = ([], .word (w ++ n)) := by
  induction n generalizing w with
  | nil => simp [run]
  | cons c n ih =>
    rw [run_cons]
    have h1 := h c (by simp)
    simp only [step, h1, if_true]
    rw [ih _ fun d hd => h d (by simp [hd])]
    simp

/-- A name after something else -/
theorem run_ident (s : LexSt) (hs : s.Plain) (hw : ∀ w, s ≠ .word w) (n : Bytes) (h : GoIdent n) : s.run n = (s.flush.1, .word n) := by
  obtain ⟨h1, h2⟩ := h
  match n, h1 with
  | c :: n, _ =>
    rw [run_cons, step_fresh_word s hs hw c (h2 c (by simp)), run_more _ _ fun d hd => h2 d (by simp [hd])]
    simp

theorem run_inString (t n : Bytes) (h : ∀ c ∈ n, wordChar c = true) : (LexSt.str t).run n = ([], .str (t ++ n)) := by
  induction n generalizing t with
  | nil => simp [run]
  | cons c n ih =>
    rw [run_cons]
    obtain ⟨h1, _, _, _, h5, h6⟩ := word_ne (h c (by simp))
    simp only [step, h1, h5, h6, if_false, decide_false, Bool.or_false, Bool.false_eq_true]
    rw [ih _ fun d hd => h d (by simp [hd])]
    simp

theorem fresh_flush (s : LexSt) (c : UInt8) : s.fresh c = (s.flush.1 ++ ((LexSt.idle s.flush.2).fresh c).1, ((LexSt.idle s.flush.2).fresh c).2) := by
  simp only [fresh, flush, List.nil_append]
  split
  · rfl
  split
  · simp
  split
  · simp
  split
  · simp
  split
  · simp
  simp

/-- What follows a name does not go on with it. -/
theorem run_afterWord {w : Bytes} {c : UInt8} {t : Bytes} {ts : List Tok} {s' : LexSt} (hc : wordChar c = false) (h : ∀ b : Bool, (LexSt.idle b).run (c :: t) = (ts, s')) :
    (LexSt.word w).run (c :: t) = (.word w :: ts, s') := by
  have h' := h (LexSt.word w).flush.2
  rw [run_cons] at h' ⊢
  rw [show (LexSt.word w).step c = LexSt.fresh (.word w) c by simp [step, hc], fresh_flush]
  have e : (LexSt.idle (LexSt.word w).flush.2).step c = (LexSt.idle (LexSt.word w).flush.2).fresh c := rfl
  rw [e] at h'
  simp only [Prod.mk.injEq] at h' ⊢
  refine ⟨?_, h'.2⟩
  rw [← h'.1, List.append_assoc]
  rfl

/-! ## Lines -/

theorem op_nl (o : Bytes) : o ++ [10] ∉ goOps := op_not 10 (by decide +kernel) o
theorem op_tab (o : Bytes) : o ++ [9] ∉ goOps := op_not 9 (by decide +kernel) o

theorem step_nl (s : LexSt) (hs : s.Plain) : s.step 10 = (s.flush.1 ++ (if s.flush.2 then [.op (txt! ";")] else []), .idle false) := by
  cases s with
  | idle b => rfl
  | word w => rw [show (LexSt.word w).step 10 = LexSt.fresh (.word w) 10 from rfl]; rfl
  | op o => simp only [step, op_nl o, if_false]; rfl
  | str t => exact hs.elim
  | bad => exact hs.elim
theorem step_tab (s : LexSt) (hs : s.Plain) : s.step 9 = (s.flush.1, .idle s.flush.2) := by
  cases s with
  | idle b => rfl
  | word w => rw [show (LexSt.word w).step 9 = LexSt.fresh (.word w) 9 from rfl]; rfl
  | op o => simp only [step, op_tab o, if_false]; rfl
  | str t => exact hs.elim
  | bad => exact hs.elim

/-- The semicolon -/
def nl (s : LexSt) : List Tok := s.flush.1 ++ (if s.flush.2 then [.op (txt! ";")] else [])

/-- Whole lines, beginning with a line end and without one at the end -/
def Lines (code : Bytes) (ts : List Tok) : Prop := ∀ s : LexSt, s.Plain → s.run (code ++ [10]) = (s.nl ++ ts, .idle false)

theorem lines_of {rest : Bytes} {ts : List Tok} (h : (LexSt.idle false).run (rest ++ [10]) = (ts, .idle false)) : Lines (10 :: rest) ts := by
  intro s hs
  rw [List.cons_append, run_cons, step_nl s hs, h]
  rfl

theorem after_nl (s : LexSt) : (s.step 10).2 = .idle false ∨ (s.step 10).2 = .bad := by
  cases s with
  | str t => exact .inr rfl
  | bad => exact .inr rfl
  | idle b => exact .inl (by rw [step_nl (.idle b) trivial])
  | word b => exact .inl (by rw [step_nl (.word b) trivial])
  | op b => exact .inl (by rw [step_nl (.op b) trivial])

theorem run_indented (s : LexSt) (t : Bytes) : s.run (t.flatMap fun c => if c = 10 then [10, 9] else [c]) = s.run t := by
  induction t generalizing s with
  | nil => rfl
  | cons c t ih =>
    rw [List.flatMap_cons]
    split
    · rename_i hc
      subst hc
      rw [List.cons_append, run_cons, List.cons_append, run_cons s, List.nil_append, run_cons]
      have : (s.step 10).2.step 9 = ([], (s.step 10).2) := by
        rcases after_nl s with h | h <;> rw [h] <;> rfl
      rw [this, ih]
      rfl
    · rw [List.cons_append, List.nil_append, run_cons, run_cons, ih]

theorem lines_indent {code : Bytes} {ts : List Tok} (h : Lines code ts) : Lines (indent code) ts := by
  intro s hs
  unfold indent
  rw [List.cons_append, run_cons, step_tab s hs, run_append, run_indented, ← run_append]
  dsimp only
  rw [h (.idle s.flush.2) trivial]
  simp only [nl, List.append_assoc]
  rfl

theorem lines_nil : Lines [] [] := by
  intro s hs
  rw [List.nil_append, run_cons, step_nl s hs]
  simp [run, nl]

theorem lines_append {a b : Bytes} {ts ts' : List Tok} (ha : Lines a ts) (hb : Lines b ts') : Lines (a ++ b) (ts ++ ts') := by
  intro s hs
  have h1 := ha s hs
  rw [run_append] at h1
  have hp : (s.run a).2.Plain := by
    cases h : (s.run a).2 with
    | idle b => trivial
    | word b => trivial
    | op b => trivial
    | str t =>
      rw [h] at h1
      simp only [Prod.mk.injEq] at h1
      exact absurd h1.2 (by simp [run, step])
    | bad =>
      rw [h] at h1
      simp only [Prod.mk.injEq] at h1
      exact absurd h1.2 (by simp [run, step])
  have h2 := hb _ hp
  have h3 : (s.run a).2.run [10] = ((s.run a).2.nl, .idle false) := by
    rw [run_cons, step_nl _ hp]
    simp [run, nl]
  rw [h3] at h1
  rw [List.append_assoc, run_append, h2]
  simp only [Prod.mk.injEq] at h1 ⊢
  rw [← List.append_assoc, ← List.append_assoc, h1.1]
  simp

/-- Whole lines between others -/
theorem run_lines {code rest : Bytes} {ts ts' : List Tok} {s s' : LexSt} (h : Lines code ts) (hs : s.Plain) (hr : (LexSt.idle false).run rest = (ts', s')) :
    s.run (code ++ 10 :: rest) = (s.nl ++ (ts ++ ts'), s') := by
  rw [show code ++ 10 :: rest = (code ++ [10]) ++ rest by simp, run_append, h s hs, hr, List.append_assoc]

/-! ## Types and numbers -/

/-- The tokens do not depend on what came before on the line. -/
def Alike (s s' : LexSt) : Prop := s = s' ∨ (∃ b, s = .idle b) ∧ ∃ b, s' = .idle b

theorem alike_step {s s' : LexSt} (h : Alike s s') (c : UInt8) (hc : c ≠ 10) : (s.step c).1 = (s'.step c).1 ∧ Alike (s.step c).2 (s'.step c).2 := by
  rcases h with rfl | ⟨⟨b, rfl⟩, b', rfl⟩
  · exact ⟨rfl, .inl rfl⟩
  · simp only [step, fresh, hc, if_false, flush]
    split
    · exact ⟨rfl, .inr ⟨⟨_, rfl⟩, _, rfl⟩⟩
    · exact ⟨rfl, .inl rfl⟩

theorem alike_run {s s' : LexSt} (h : Alike s s') (t : Bytes) (ht : ∀ c ∈ t, c ≠ 10) : (s.run t).1 = (s'.run t).1 ∧ Alike (s.run t).2 (s'.run t).2 := by
  induction t generalizing s s' with
  | nil => exact ⟨rfl, h⟩
  | cons c t ih =>
    obtain ⟨h1, h2⟩ := alike_step h c (ht c (by simp))
    obtain ⟨h3, h4⟩ := ih h2 fun d hd => ht d (by simp [hd])
    rw [run_cons, run_cons s']
    exact ⟨by simp only [h1, h3], h4⟩

theorem alike_flush {s s' : LexSt} (h : Alike s s') : s.flush.1 = s'.flush.1 := by
  rcases h with rfl | ⟨⟨b, rfl⟩, b', rfl⟩ <;> rfl

/-- A byte of a type, of a number or of an operator -/
def Inline (c : UInt8) : Prop := wordChar c = true ∨ c = 32 ∨ [c] ∈ goOps

theorem inline_ne {c : UInt8} (h : Inline c) : c ≠ 10 ∧ c ≠ 34 := by
  constructor <;> rintro rfl <;> revert h <;> unfold Inline <;> decide

/-- In a token or between tokens -/
def Solid : LexSt → Prop
  | .str _ => False
  | .bad => False
  | .op o => o ≠ []
  | _ => True

theorem solid_fresh {c : UInt8} (hc : Inline c) (s : LexSt) : (s.fresh c).2.Solid := by
  obtain ⟨h1, h2⟩ := inline_ne hc
  simp only [fresh, h1, h2, if_false]
  split
  · trivial
  split
  · trivial
  split
  · exact List.cons_ne_nil _ _
  rename_i h3 h4 h5
  rcases hc with h | h | h
  · exact absurd h h4
  · rw [h] at h3
    exact absurd rfl h3
  · exact absurd h h5

theorem solid_step {s : LexSt} (hs : s.Solid) {c : UInt8} (hc : Inline c) : (s.step c).2.Solid := by
  cases s with
  | idle b => exact solid_fresh hc _
  | word w =>
    simp only [step]
    split
    · trivial
    · exact solid_fresh hc _
  | op o =>
    simp only [step]
    split
    · show _ ++ _ ≠ []
      simp
    · exact solid_fresh hc _
  | str t => exact hs.elim
  | bad => exact hs.elim

theorem solid_run {s : LexSt} (hs : s.Solid) (t : Bytes) (ht : ∀ c ∈ t, Inline c) : (s.run t).2.Solid := by
  induction t generalizing s with
  | nil => exact hs
  | cons c t ih => exact ih (solid_step hs (ht c (by simp))) fun d hd => ht d (by simp [hd])

/-- `,` and `;` end everything. -/
theorem step_comma (c : UInt8) (hc : c = 44 ∨ c = 59) (s : LexSt) (hs : s.Solid) : s.step c = (s.flush.1, .op [c]) := by
  have h1 : ∀ s : LexSt, s.fresh c = (s.flush.1, .op [c]) := by
    intro s
    rcases hc with rfl | rfl <;> rfl
  have h2 : ∀ x ∈ goOps, x.getLast? = some c → x.length = 1 := by rcases hc with rfl | rfl <;> decide +kernel
  have hw : wordChar c = false := by rcases hc with rfl | rfl <;> rfl
  cases s with
  | idle b => exact h1 _
  | word w => simp only [step, hw, Bool.false_eq_true, if_false]; exact h1 _
  | op o =>
    have ho : o ++ [c] ∉ goOps := by
      intro h
      have := h2 _ h (by simp)
      have : o = [] := by simpa using this
      exact hs this
    simp only [step, ho, if_false]; exact h1 _
  | str t => exact hs.elim
  | bad => exact hs.elim

theorem inline_type {t : Bytes} (h : TypeText t) : ∀ c ∈ t, Inline c := by
  have hx : ∀ c ∈ (txt! ".*[](){}, "), c = 32 ∨ [c] ∈ goOps := by decide +kernel
  intro c hc
  rcases h c hc with h | h
  · exact .inl h
  · exact .inr (hx c h)

/-- A text in a line, and the comma after it -/
theorem run_piece {t : Bytes} (h : ∀ c ∈ t, Inline c) {c : UInt8} (hc : c = 44 ∨ c = 59) (b : Bool) : (LexSt.idle b).run (t ++ [c]) = (go t, .op [c]) := by
  have hs := solid_run (s := .idle b) trivial t h
  obtain ⟨h1, h2⟩ := alike_run (s := .idle b) (s' := .idle false) (.inr ⟨⟨_, rfl⟩, _, rfl⟩) t fun d hd => (inline_ne (h d hd)).1
  rw [run_append, run_cons, step_comma c hc _ hs, go, h1, alike_flush h2]
  simp [run]

/-- The same after a bracket -/
theorem run_elem {t : Bytes} (h : ∀ c ∈ t, Inline c) : (LexSt.op (txt! "]")).run (t ++ [44]) = (.op (txt! "]") :: go t, .op [44]) := by
  have hh : ∀ x ∈ goOps, x.head? = some 93 → x.length = 1 := by decide +kernel
  have h1 := run_piece h (.inl rfl) true
  have : ∃ d t', t ++ [44] = d :: t' := by
    cases t with
    | nil => exact ⟨44, [], rfl⟩
    | cons d t => exact ⟨d, t ++ [44], rfl⟩
  obtain ⟨d, t', e⟩ := this
  rw [e] at h1 ⊢
  have hd : txt! "]" ++ [d] ∉ goOps := fun hm => by
    have := hh _ hm rfl
    cases this
  rw [run_cons] at h1 ⊢
  rw [show (LexSt.op (txt! "]")).step d = LexSt.fresh (.op (txt! "]")) d by simp only [step, hd, if_false], fresh_flush]
  rw [show (LexSt.idle true).step d = LexSt.fresh (.idle true) d from rfl] at h1
  simp only [Prod.mk.injEq] at h1
  rw [show (LexSt.op (txt! "]")).flush = ([.op (txt! "]")], true) from rfl]
  dsimp only
  rw [List.append_assoc, h1.1, h1.2]
  rfl

end LexSt

/-! ## The fixed parts of the text -/

theorem go_lit0 : go (txt! "(*v.") = [.op (txt! "("), .op (txt! "*"), .word (txt! "v"), .op (txt! ".")] := by decide +kernel
theorem go_lit1 : go (txt! ")") = [.op (txt! ")")] := by decide +kernel
theorem go_lit2 : go (txt! "v.") = [.word (txt! "v"), .op (txt! ".")] := by decide +kernel
theorem go_lit3 : go (txt! "[i]") = [.op (txt! "["), .word (txt! "i"), .op (txt! "]")] := by decide +kernel
theorem go_lit4 : go (txt! "if") = [.word (txt! "if")] := by decide +kernel
theorem go_lit5 : go (txt! "; err != nil { return err; };") = [.op (txt! ";"), .word (txt! "err"), .op (txt! "!="), .word (txt! "nil"), .op (txt! "{"), .word (txt! "return"), .word (txt! "err"), .op (txt! ";"), .op (txt! "}"), .op (txt! ";")] := by decide +kernel
theorem go_lit6 : go (txt! "err = e.") = [.word (txt! "err"), .op (txt! "="), .word (txt! "e"), .op (txt! ".")] := by decide +kernel
theorem go_lit7 : go (txt! "(") = [.op (txt! "(")] := by decide +kernel
theorem go_lit8 : go (txt! "err =") = [.word (txt! "err"), .op (txt! "=")] := by decide +kernel
theorem go_lit9 : go (txt! ".MarshalABI(e)") = [.op (txt! "."), .word (txt! "MarshalABI"), .op (txt! "("), .word (txt! "e"), .op (txt! ")")] := by decide +kernel
theorem go_lit10 : go (txt! "length = len(") = [.word (txt! "length"), .op (txt! "="), .word (txt! "len"), .op (txt! "(")] := by decide +kernel
theorem go_lit11 : go (txt! "*") = [.op (txt! "*")] := by decide +kernel
theorem go_lit12 : go (txt! ");") = [.op (txt! ")"), .op (txt! ";")] := by decide +kernel
theorem go_lit13 : go (txt! "err = e.WriteVaruint(uint(length))") = [.word (txt! "err"), .op (txt! "="), .word (txt! "e"), .op (txt! "."), .word (txt! "WriteVaruint"), .op (txt! "("), .word (txt! "uint"), .op (txt! "("), .word (txt! "length"), .op (txt! ")"), .op (txt! ")")] := by decide +kernel
theorem go_lit14 : go (txt! "for i := 0; i < length; i++ {") = [.word (txt! "for"), .word (txt! "i"), .op (txt! ":="), .word (txt! "0"), .op (txt! ";"), .word (txt! "i"), .op (txt! "<"), .word (txt! "length"), .op (txt! ";"), .word (txt! "i"), .op (txt! "++"), .op (txt! "{")] := by decide +kernel
theorem go_lit15 : go (txt! "};") = [.op (txt! "}"), .op (txt! ";")] := by decide +kernel
theorem go_lit16 : go (txt! "for i := 0; i <") = [.word (txt! "for"), .word (txt! "i"), .op (txt! ":="), .word (txt! "0"), .op (txt! ";"), .word (txt! "i"), .op (txt! "<")] := by decide +kernel
theorem go_lit17 : go (txt! "; i++ {") = [.op (txt! ";"), .word (txt! "i"), .op (txt! "++"), .op (txt! "{")] := by decide +kernel
theorem go_lit18 : go (txt! "exists = v.") = [.word (txt! "exists"), .op (txt! "="), .word (txt! "v"), .op (txt! ".")] := by decide +kernel
theorem go_lit19 : go (txt! "!= nil;") = [.op (txt! "!="), .word (txt! "nil"), .op (txt! ";")] := by decide +kernel
theorem go_lit20 : go (txt! "err = e.WriteBool(exists)") = [.word (txt! "err"), .op (txt! "="), .word (txt! "e"), .op (txt! "."), .word (txt! "WriteBool"), .op (txt! "("), .word (txt! "exists"), .op (txt! ")")] := by decide +kernel
theorem go_lit21 : go (txt! "if exists {") = [.word (txt! "if"), .word (txt! "exists"), .op (txt! "{")] := by decide +kernel
theorem go_lit22 : go (txt! "} else { return errors.New(") = [.op (txt! "}"), .word (txt! "else"), .op (txt! "{"), .word (txt! "return"), .word (txt! "errors"), .op (txt! "."), .word (txt! "New"), .op (txt! "(")] := by decide +kernel
theorem go_lit23 : go (txt! "); };") = [.op (txt! ")"), .op (txt! ";"), .op (txt! "}"), .op (txt! ";")] := by decide +kernel
theorem go_lit24 : go (txt! "var tmp") = [.word (txt! "var"), .word (txt! "tmp")] := by decide +kernel
theorem go_lit25 : go (txt! ";") = [.op (txt! ";")] := by decide +kernel
theorem go_lit26 : go (txt! "tmp, err = d.") = [.word (txt! "tmp"), .op (txt! ","), .word (txt! "err"), .op (txt! "="), .word (txt! "d"), .op (txt! ".")] := by decide +kernel
theorem go_lit27 : go (txt! "()") = [.op (txt! "("), .op (txt! ")")] := by decide +kernel
theorem go_lit28 : go (txt! "= &tmp;") = [.op (txt! "="), .op (txt! "&"), .word (txt! "tmp"), .op (txt! ";")] := by decide +kernel
theorem go_lit29 : go (txt! ", err = d.") = [.op (txt! ","), .word (txt! "err"), .op (txt! "="), .word (txt! "d"), .op (txt! ".")] := by decide +kernel
theorem go_lit30 : go (txt! ".UnmarshalABI(d)") = [.op (txt! "."), .word (txt! "UnmarshalABI"), .op (txt! "("), .word (txt! "d"), .op (txt! ")")] := by decide +kernel
theorem go_lit31 : go (txt! "length, err = d.ReadVaruint()") = [.word (txt! "length"), .op (txt! ","), .word (txt! "err"), .op (txt! "="), .word (txt! "d"), .op (txt! "."), .word (txt! "ReadVaruint"), .op (txt! "("), .op (txt! ")")] := by decide +kernel
theorem go_lit32 : go (txt! "= make([]") = [.op (txt! "="), .word (txt! "make"), .op (txt! "("), .op (txt! "["), .op (txt! "]")] := by decide +kernel
theorem go_lit33 : go (txt! ", length);") = [.op (txt! ","), .word (txt! "length"), .op (txt! ")"), .op (txt! ";")] := by decide +kernel
theorem go_lit34 : go (txt! "for i := 0; i < int(length); i++ {") = [.word (txt! "for"), .word (txt! "i"), .op (txt! ":="), .word (txt! "0"), .op (txt! ";"), .word (txt! "i"), .op (txt! "<"), .word (txt! "int"), .op (txt! "("), .word (txt! "length"), .op (txt! ")"), .op (txt! ";"), .word (txt! "i"), .op (txt! "++"), .op (txt! "{")] := by decide +kernel
theorem go_lit35 : go (txt! "exists, err = d.ReadBool()") = [.word (txt! "exists"), .op (txt! ","), .word (txt! "err"), .op (txt! "="), .word (txt! "d"), .op (txt! "."), .word (txt! "ReadBool"), .op (txt! "("), .op (txt! ")")] := by decide +kernel
theorem go_lit36 : go (txt! "var err error;") = [.word (txt! "var"), .word (txt! "err"), .word (txt! "error"), .op (txt! ";")] := by decide +kernel
theorem go_lit37 : go (txt! "var exists bool;") = [.word (txt! "var"), .word (txt! "exists"), .word (txt! "bool"), .op (txt! ";")] := by decide +kernel
theorem go_lit38 : go (txt! "var length") = [.word (txt! "var"), .word (txt! "length")] := by decide +kernel
theorem go_lit39 : go (txt! "return err;") = [.word (txt! "return"), .word (txt! "err"), .op (txt! ";")] := by decide +kernel
theorem go_lit40 : go (txt! "func (v") = [.word (txt! "func"), .op (txt! "("), .word (txt! "v")] := by decide +kernel
theorem go_lit41 : go (txt! ") MarshalABI(e *abi.Encoder) error {") = [.op (txt! ")"), .word (txt! "MarshalABI"), .op (txt! "("), .word (txt! "e"), .op (txt! "*"), .word (txt! "abi"), .op (txt! "."), .word (txt! "Encoder"), .op (txt! ")"), .word (txt! "error"), .op (txt! "{")] := by decide +kernel
theorem go_lit42 : go (txt! "func (v *") = [.word (txt! "func"), .op (txt! "("), .word (txt! "v"), .op (txt! "*")] := by decide +kernel
theorem go_lit43 : go (txt! ") UnmarshalABI(d *abi.Decoder) error {") = [.op (txt! ")"), .word (txt! "UnmarshalABI"), .op (txt! "("), .word (txt! "d"), .op (txt! "*"), .word (txt! "abi"), .op (txt! "."), .word (txt! "Decoder"), .op (txt! ")"), .word (txt! "error"), .op (txt! "{")] := by decide +kernel
theorem go_lit44 : go (txt! "int") = [.word (txt! "int")] := by decide +kernel
theorem go_lit45 : go (txt! "uint") = [.word (txt! "uint")] := by decide +kernel
theorem lx_write : (LexSt.idle false).run (txt! "\tif err = e.Write") = ([.word (txt! "if"), .word (txt! "err"), .op (txt! "="), .word (txt! "e"), .op (txt! ".")], .word (txt! "Write")) := by decide +kernel
theorem lx_write_v : ∀ b : Bool, (LexSt.idle b).run (txt! "(v.") = ([.op (txt! "("), .word (txt! "v")], .op (txt! ".")) := by decide +kernel
theorem lx_write_pv : ∀ b : Bool, (LexSt.idle b).run (txt! "((*v.") = ([.op (txt! "("), .op (txt! "("), .op (txt! "*"), .word (txt! "v")], .op (txt! ".")) := by decide +kernel
theorem lx_write00 : ∀ b : Bool, (LexSt.idle b).run (txt! "); err != nil {\n\t\treturn err\n\t}\n") = ([.op (txt! ")"), .op (txt! ";"), .word (txt! "err"), .op (txt! "!="), .word (txt! "nil"), .op (txt! "{"), .word (txt! "return"), .word (txt! "err"), .op (txt! ";"), .op (txt! "}"), .op (txt! ";")], .idle false) := by decide +kernel
theorem lx_marshal00 : ∀ b : Bool, (LexSt.idle b).run (txt! ".MarshalABI(e); err != nil {\n\t\treturn err\n\t}\n") = ([.op (txt! "."), .word (txt! "MarshalABI"), .op (txt! "("), .word (txt! "e"), .op (txt! ")"), .op (txt! ";"), .word (txt! "err"), .op (txt! "!="), .word (txt! "nil"), .op (txt! "{"), .word (txt! "return"), .word (txt! "err"), .op (txt! ";"), .op (txt! "}"), .op (txt! ";")], .idle false) := by decide +kernel
theorem lx_unmarshal00 : ∀ b : Bool, (LexSt.idle b).run (txt! ".UnmarshalABI(d); err != nil {\n\t\treturn err\n\t}\n") = ([.op (txt! "."), .word (txt! "UnmarshalABI"), .op (txt! "("), .word (txt! "d"), .op (txt! ")"), .op (txt! ";"), .word (txt! "err"), .op (txt! "!="), .word (txt! "nil"), .op (txt! "{"), .word (txt! "return"), .word (txt! "err"), .op (txt! ";"), .op (txt! "}"), .op (txt! ";")], .idle false) := by decide +kernel
theorem lx_write01 : ∀ b : Bool, (LexSt.idle b).run (txt! "[i]); err != nil {\n\t\treturn err\n\t}\n") = ([.op (txt! "["), .word (txt! "i"), .op (txt! "]"), .op (txt! ")"), .op (txt! ";"), .word (txt! "err"), .op (txt! "!="), .word (txt! "nil"), .op (txt! "{"), .word (txt! "return"), .word (txt! "err"), .op (txt! ";"), .op (txt! "}"), .op (txt! ";")], .idle false) := by decide +kernel
theorem lx_marshal01 : ∀ b : Bool, (LexSt.idle b).run (txt! "[i].MarshalABI(e); err != nil {\n\t\treturn err\n\t}\n") = ([.op (txt! "["), .word (txt! "i"), .op (txt! "]"), .op (txt! "."), .word (txt! "MarshalABI"), .op (txt! "("), .word (txt! "e"), .op (txt! ")"), .op (txt! ";"), .word (txt! "err"), .op (txt! "!="), .word (txt! "nil"), .op (txt! "{"), .word (txt! "return"), .word (txt! "err"), .op (txt! ";"), .op (txt! "}"), .op (txt! ";")], .idle false) := by decide +kernel
theorem lx_unmarshal01 : ∀ b : Bool, (LexSt.idle b).run (txt! "[i].UnmarshalABI(d); err != nil {\n\t\treturn err\n\t}\n") = ([.op (txt! "["), .word (txt! "i"), .op (txt! "]"), .op (txt! "."), .word (txt! "UnmarshalABI"), .op (txt! "("), .word (txt! "d"), .op (txt! ")"), .op (txt! ";"), .word (txt! "err"), .op (txt! "!="), .word (txt! "nil"), .op (txt! "{"), .word (txt! "return"), .word (txt! "err"), .op (txt! ";"), .op (txt! "}"), .op (txt! ";")], .idle false) := by decide +kernel
theorem lx_write10 : ∀ b : Bool, (LexSt.idle b).run (txt! ")); err != nil {\n\t\treturn err\n\t}\n") = ([.op (txt! ")"), .op (txt! ")"), .op (txt! ";"), .word (txt! "err"), .op (txt! "!="), .word (txt! "nil"), .op (txt! "{"), .word (txt! "return"), .word (txt! "err"), .op (txt! ";"), .op (txt! "}"), .op (txt! ";")], .idle false) := by decide +kernel
theorem lx_marshal10 : ∀ b : Bool, (LexSt.idle b).run (txt! ").MarshalABI(e); err != nil {\n\t\treturn err\n\t}\n") = ([.op (txt! ")"), .op (txt! "."), .word (txt! "MarshalABI"), .op (txt! "("), .word (txt! "e"), .op (txt! ")"), .op (txt! ";"), .word (txt! "err"), .op (txt! "!="), .word (txt! "nil"), .op (txt! "{"), .word (txt! "return"), .word (txt! "err"), .op (txt! ";"), .op (txt! "}"), .op (txt! ";")], .idle false) := by decide +kernel
theorem lx_unmarshal10 : ∀ b : Bool, (LexSt.idle b).run (txt! ").UnmarshalABI(d); err != nil {\n\t\treturn err\n\t}\n") = ([.op (txt! ")"), .op (txt! "."), .word (txt! "UnmarshalABI"), .op (txt! "("), .word (txt! "d"), .op (txt! ")"), .op (txt! ";"), .word (txt! "err"), .op (txt! "!="), .word (txt! "nil"), .op (txt! "{"), .word (txt! "return"), .word (txt! "err"), .op (txt! ";"), .op (txt! "}"), .op (txt! ";")], .idle false) := by decide +kernel
theorem lx_write11 : ∀ b : Bool, (LexSt.idle b).run (txt! ")[i]); err != nil {\n\t\treturn err\n\t}\n") = ([.op (txt! ")"), .op (txt! "["), .word (txt! "i"), .op (txt! "]"), .op (txt! ")"), .op (txt! ";"), .word (txt! "err"), .op (txt! "!="), .word (txt! "nil"), .op (txt! "{"), .word (txt! "return"), .word (txt! "err"), .op (txt! ";"), .op (txt! "}"), .op (txt! ";")], .idle false) := by decide +kernel
theorem lx_marshal11 : ∀ b : Bool, (LexSt.idle b).run (txt! ")[i].MarshalABI(e); err != nil {\n\t\treturn err\n\t}\n") = ([.op (txt! ")"), .op (txt! "["), .word (txt! "i"), .op (txt! "]"), .op (txt! "."), .word (txt! "MarshalABI"), .op (txt! "("), .word (txt! "e"), .op (txt! ")"), .op (txt! ";"), .word (txt! "err"), .op (txt! "!="), .word (txt! "nil"), .op (txt! "{"), .word (txt! "return"), .word (txt! "err"), .op (txt! ";"), .op (txt! "}"), .op (txt! ";")], .idle false) := by decide +kernel
theorem lx_unmarshal11 : ∀ b : Bool, (LexSt.idle b).run (txt! ")[i].UnmarshalABI(d); err != nil {\n\t\treturn err\n\t}\n") = ([.op (txt! ")"), .op (txt! "["), .word (txt! "i"), .op (txt! "]"), .op (txt! "."), .word (txt! "UnmarshalABI"), .op (txt! "("), .word (txt! "d"), .op (txt! ")"), .op (txt! ";"), .word (txt! "err"), .op (txt! "!="), .word (txt! "nil"), .op (txt! "{"), .word (txt! "return"), .word (txt! "err"), .op (txt! ";"), .op (txt! "}"), .op (txt! ";")], .idle false) := by decide +kernel
theorem lx_other_v : (LexSt.idle false).run (txt! "\tif err = v.") = ([.word (txt! "if"), .word (txt! "err"), .op (txt! "="), .word (txt! "v")], .op (txt! ".")) := by decide +kernel
theorem lx_other_pv : (LexSt.idle false).run (txt! "\tif err = (*v.") = ([.word (txt! "if"), .word (txt! "err"), .op (txt! "="), .op (txt! "("), .op (txt! "*"), .word (txt! "v")], .op (txt! ".")) := by decide +kernel
theorem lx_read_v : (LexSt.idle false).run (txt! "\tif v.") = ([.word (txt! "if"), .word (txt! "v")], .op (txt! ".")) := by decide +kernel
theorem lx_read0 : ∀ b : Bool, (LexSt.idle b).run (txt! ", err = d.Read") = ([.op (txt! ","), .word (txt! "err"), .op (txt! "="), .word (txt! "d"), .op (txt! ".")], .word (txt! "Read")) := by decide +kernel
theorem lx_tmp0 : ∀ b : Bool, (LexSt.idle b).run (txt! " = &tmp\n") = ([.op (txt! "="), .op (txt! "&"), .word (txt! "tmp"), .op (txt! ";")], .idle false) := by decide +kernel
theorem lx_read1 : ∀ b : Bool, (LexSt.idle b).run (txt! "[i], err = d.Read") = ([.op (txt! "["), .word (txt! "i"), .op (txt! "]"), .op (txt! ","), .word (txt! "err"), .op (txt! "="), .word (txt! "d"), .op (txt! ".")], .word (txt! "Read")) := by decide +kernel
theorem lx_tmp1 : ∀ b : Bool, (LexSt.idle b).run (txt! "[i] = &tmp\n") = ([.op (txt! "["), .word (txt! "i"), .op (txt! "]"), .op (txt! "="), .op (txt! "&"), .word (txt! "tmp"), .op (txt! ";")], .idle false) := by decide +kernel
theorem lx_read_end : ∀ b : Bool, (LexSt.idle b).run (txt! "(); err != nil {\n\t\treturn err\n\t}\n") = ([.op (txt! "("), .op (txt! ")"), .op (txt! ";"), .word (txt! "err"), .op (txt! "!="), .word (txt! "nil"), .op (txt! "{"), .word (txt! "return"), .word (txt! "err"), .op (txt! ";"), .op (txt! "}"), .op (txt! ";")], .idle false) := by decide +kernel
theorem lx_read_tmp : (LexSt.idle false).run (txt! "if tmp, err = d.Read") = ([.word (txt! "if"), .word (txt! "tmp"), .op (txt! ","), .word (txt! "err"), .op (txt! "="), .word (txt! "d"), .op (txt! ".")], .word (txt! "Read")) := by decide +kernel
theorem lx_read_tmp_end : ∀ b : Bool, (LexSt.idle b).run (txt! "(); err != nil {\n\t\treturn err\n\t}\n\tv.") = ([.op (txt! "("), .op (txt! ")"), .op (txt! ";"), .word (txt! "err"), .op (txt! "!="), .word (txt! "nil"), .op (txt! "{"), .word (txt! "return"), .word (txt! "err"), .op (txt! ";"), .op (txt! "}"), .op (txt! ";"), .word (txt! "v")], .op (txt! ".")) := by decide +kernel
theorem lx_len : (LexSt.idle false).run (txt! "\tlength = len(v.") = ([.word (txt! "length"), .op (txt! "="), .word (txt! "len"), .op (txt! "("), .word (txt! "v")], .op (txt! ".")) := by decide +kernel
theorem lx_len_p : (LexSt.idle false).run (txt! "\tlength = len(*v.") = ([.word (txt! "length"), .op (txt! "="), .word (txt! "len"), .op (txt! "("), .op (txt! "*"), .word (txt! "v")], .op (txt! ".")) := by decide +kernel
theorem lx_len_end : ∀ b : Bool, (LexSt.idle b).run (txt! ")\n    if err = e.WriteVaruint(uint(length)); err != nil {\n\t\treturn err\n\t}\n\tfor i := 0; i < length; i++ {") = ([.op (txt! ")"), .op (txt! ";"), .word (txt! "if"), .word (txt! "err"), .op (txt! "="), .word (txt! "e"), .op (txt! "."), .word (txt! "WriteVaruint"), .op (txt! "("), .word (txt! "uint"), .op (txt! "("), .word (txt! "length"), .op (txt! ")"), .op (txt! ")"), .op (txt! ";"), .word (txt! "err"), .op (txt! "!="), .word (txt! "nil"), .op (txt! "{"), .word (txt! "return"), .word (txt! "err"), .op (txt! ";"), .op (txt! "}"), .op (txt! ";"), .word (txt! "for"), .word (txt! "i"), .op (txt! ":="), .word (txt! "0"), .op (txt! ";"), .word (txt! "i"), .op (txt! "<"), .word (txt! "length"), .op (txt! ";"), .word (txt! "i"), .op (txt! "++")], .op (txt! "{")) := by decide +kernel
theorem lx_close : (LexSt.idle false).run (txt! "\t}\n") = ([.op (txt! "}"), .op (txt! ";")], .idle false) := by decide +kernel
theorem lx_readlen : (LexSt.idle false).run (txt! "\tif length, err = d.ReadVaruint(); err != nil {\n\t\treturn err\n\t}\n\tv.") = ([.word (txt! "if"), .word (txt! "length"), .op (txt! ","), .word (txt! "err"), .op (txt! "="), .word (txt! "d"), .op (txt! "."), .word (txt! "ReadVaruint"), .op (txt! "("), .op (txt! ")"), .op (txt! ";"), .word (txt! "err"), .op (txt! "!="), .word (txt! "nil"), .op (txt! "{"), .word (txt! "return"), .word (txt! "err"), .op (txt! ";"), .op (txt! "}"), .op (txt! ";"), .word (txt! "v")], .op (txt! ".")) := by decide +kernel
theorem lx_make : ∀ b : Bool, (LexSt.idle b).run (txt! " = make([]") = ([.op (txt! "="), .word (txt! "make"), .op (txt! "("), .op (txt! "[")], .op (txt! "]")) := by decide +kernel
theorem lx_make_end : (LexSt.op (txt! ",")).run (txt! " length)\n\tfor i := 0; i < int(length); i++ {") = ([.op (txt! ","), .word (txt! "length"), .op (txt! ")"), .op (txt! ";"), .word (txt! "for"), .word (txt! "i"), .op (txt! ":="), .word (txt! "0"), .op (txt! ";"), .word (txt! "i"), .op (txt! "<"), .word (txt! "int"), .op (txt! "("), .word (txt! "length"), .op (txt! ")"), .op (txt! ";"), .word (txt! "i"), .op (txt! "++")], .op (txt! "{")) := by decide +kernel
theorem lx_for : (LexSt.idle false).run (txt! "\tfor i := 0; i < ") = ([.word (txt! "for"), .word (txt! "i"), .op (txt! ":="), .word (txt! "0"), .op (txt! ";"), .word (txt! "i"), .op (txt! "<")], .idle false) := by decide +kernel
theorem lx_for_end : (LexSt.op (txt! ";")).run (txt! " i++ {") = ([.op (txt! ";"), .word (txt! "i"), .op (txt! "++")], .op (txt! "{")) := by decide +kernel
theorem lx_exists : (LexSt.idle false).run (txt! "\texists = v.") = ([.word (txt! "exists"), .op (txt! "="), .word (txt! "v")], .op (txt! ".")) := by decide +kernel
theorem lx_exists0 : ∀ b : Bool, (LexSt.idle b).run (txt! " != nil\n\tif exists {") = ([.op (txt! "!="), .word (txt! "nil"), .op (txt! ";"), .word (txt! "if"), .word (txt! "exists")], .op (txt! "{")) := by decide +kernel
theorem lx_exists1 : ∀ b : Bool, (LexSt.idle b).run (txt! " != nil\n\tif err = e.WriteBool(exists); err != nil {\n\t\treturn err\n\t}\n\tif exists {") = ([.op (txt! "!="), .word (txt! "nil"), .op (txt! ";"), .word (txt! "if"), .word (txt! "err"), .op (txt! "="), .word (txt! "e"), .op (txt! "."), .word (txt! "WriteBool"), .op (txt! "("), .word (txt! "exists"), .op (txt! ")"), .op (txt! ";"), .word (txt! "err"), .op (txt! "!="), .word (txt! "nil"), .op (txt! "{"), .word (txt! "return"), .word (txt! "err"), .op (txt! ";"), .op (txt! "}"), .op (txt! ";"), .word (txt! "if"), .word (txt! "exists")], .op (txt! "{")) := by decide +kernel
theorem lx_else : (LexSt.idle false).run (txt! "\t} else {\n\t\treturn errors.New(\"encountered nil for non-optional field: ") = ([.op (txt! "}"), .word (txt! "else"), .op (txt! "{"), .word (txt! "return"), .word (txt! "errors"), .op (txt! "."), .word (txt! "New"), .op (txt! "(")], .str (txt! "encountered nil for non-optional field: ")) := by decide +kernel
theorem lx_else_end : (LexSt.idle true).run (txt! ")\n\t}\n") = ([.op (txt! ")"), .op (txt! ";"), .op (txt! "}"), .op (txt! ";")], .idle false) := by decide +kernel
theorem lx_readbool : (LexSt.idle false).run (txt! "\tif exists, err = d.ReadBool(); err != nil {\n\t\treturn err\n\t}\n\tif exists {") = ([.word (txt! "if"), .word (txt! "exists"), .op (txt! ","), .word (txt! "err"), .op (txt! "="), .word (txt! "d"), .op (txt! "."), .word (txt! "ReadBool"), .op (txt! "("), .op (txt! ")"), .op (txt! ";"), .word (txt! "err"), .op (txt! "!="), .word (txt! "nil"), .op (txt! "{"), .word (txt! "return"), .word (txt! "err"), .op (txt! ";"), .op (txt! "}"), .op (txt! ";"), .word (txt! "if"), .word (txt! "exists")], .op (txt! "{")) := by decide +kernel
theorem lx_func : (LexSt.idle false).run (txt! "\nfunc (v ") = ([.word (txt! "func"), .op (txt! "("), .word (txt! "v")], .idle true) := by decide +kernel
theorem lx_funcp : (LexSt.idle false).run (txt! "\nfunc (v *") = ([.word (txt! "func"), .op (txt! "("), .word (txt! "v")], .op (txt! "*")) := by decide +kernel
theorem lx_marshal_head00 : ∀ b : Bool, (LexSt.idle b).run (txt! ") MarshalABI(e *abi.Encoder) error {\n\tvar err error") = ([.op (txt! ")"), .word (txt! "MarshalABI"), .op (txt! "("), .word (txt! "e"), .op (txt! "*"), .word (txt! "abi"), .op (txt! "."), .word (txt! "Encoder"), .op (txt! ")"), .word (txt! "error"), .op (txt! "{"), .word (txt! "var"), .word (txt! "err")], .word (txt! "error")) := by decide +kernel
theorem lx_unmarshal_head00 : ∀ b : Bool, (LexSt.idle b).run (txt! ") UnmarshalABI(d *abi.Decoder) error {\n\tvar err error") = ([.op (txt! ")"), .word (txt! "UnmarshalABI"), .op (txt! "("), .word (txt! "d"), .op (txt! "*"), .word (txt! "abi"), .op (txt! "."), .word (txt! "Decoder"), .op (txt! ")"), .word (txt! "error"), .op (txt! "{"), .word (txt! "var"), .word (txt! "err")], .word (txt! "error")) := by decide +kernel
theorem lx_marshal_head01 : ∀ b : Bool, (LexSt.idle b).run (txt! ") MarshalABI(e *abi.Encoder) error {\n\tvar err error\n\tvar length int") = ([.op (txt! ")"), .word (txt! "MarshalABI"), .op (txt! "("), .word (txt! "e"), .op (txt! "*"), .word (txt! "abi"), .op (txt! "."), .word (txt! "Encoder"), .op (txt! ")"), .word (txt! "error"), .op (txt! "{"), .word (txt! "var"), .word (txt! "err"), .word (txt! "error"), .op (txt! ";"), .word (txt! "var"), .word (txt! "length")], .word (txt! "int")) := by decide +kernel
theorem lx_unmarshal_head01 : ∀ b : Bool, (LexSt.idle b).run (txt! ") UnmarshalABI(d *abi.Decoder) error {\n\tvar err error\n\tvar length uint") = ([.op (txt! ")"), .word (txt! "UnmarshalABI"), .op (txt! "("), .word (txt! "d"), .op (txt! "*"), .word (txt! "abi"), .op (txt! "."), .word (txt! "Decoder"), .op (txt! ")"), .word (txt! "error"), .op (txt! "{"), .word (txt! "var"), .word (txt! "err"), .word (txt! "error"), .op (txt! ";"), .word (txt! "var"), .word (txt! "length")], .word (txt! "uint")) := by decide +kernel
theorem lx_marshal_head10 : ∀ b : Bool, (LexSt.idle b).run (txt! ") MarshalABI(e *abi.Encoder) error {\n\tvar err error\n\tvar exists bool") = ([.op (txt! ")"), .word (txt! "MarshalABI"), .op (txt! "("), .word (txt! "e"), .op (txt! "*"), .word (txt! "abi"), .op (txt! "."), .word (txt! "Encoder"), .op (txt! ")"), .word (txt! "error"), .op (txt! "{"), .word (txt! "var"), .word (txt! "err"), .word (txt! "error"), .op (txt! ";"), .word (txt! "var"), .word (txt! "exists")], .word (txt! "bool")) := by decide +kernel
theorem lx_unmarshal_head10 : ∀ b : Bool, (LexSt.idle b).run (txt! ") UnmarshalABI(d *abi.Decoder) error {\n\tvar err error\n\tvar exists bool") = ([.op (txt! ")"), .word (txt! "UnmarshalABI"), .op (txt! "("), .word (txt! "d"), .op (txt! "*"), .word (txt! "abi"), .op (txt! "."), .word (txt! "Decoder"), .op (txt! ")"), .word (txt! "error"), .op (txt! "{"), .word (txt! "var"), .word (txt! "err"), .word (txt! "error"), .op (txt! ";"), .word (txt! "var"), .word (txt! "exists")], .word (txt! "bool")) := by decide +kernel
theorem lx_marshal_head11 : ∀ b : Bool, (LexSt.idle b).run (txt! ") MarshalABI(e *abi.Encoder) error {\n\tvar err error\n\tvar exists bool\n\tvar length int") = ([.op (txt! ")"), .word (txt! "MarshalABI"), .op (txt! "("), .word (txt! "e"), .op (txt! "*"), .word (txt! "abi"), .op (txt! "."), .word (txt! "Encoder"), .op (txt! ")"), .word (txt! "error"), .op (txt! "{"), .word (txt! "var"), .word (txt! "err"), .word (txt! "error"), .op (txt! ";"), .word (txt! "var"), .word (txt! "exists"), .word (txt! "bool"), .op (txt! ";"), .word (txt! "var"), .word (txt! "length")], .word (txt! "int")) := by decide +kernel
theorem lx_unmarshal_head11 : ∀ b : Bool, (LexSt.idle b).run (txt! ") UnmarshalABI(d *abi.Decoder) error {\n\tvar err error\n\tvar exists bool\n\tvar length uint") = ([.op (txt! ")"), .word (txt! "UnmarshalABI"), .op (txt! "("), .word (txt! "d"), .op (txt! "*"), .word (txt! "abi"), .op (txt! "."), .word (txt! "Decoder"), .op (txt! ")"), .word (txt! "error"), .op (txt! "{"), .word (txt! "var"), .word (txt! "err"), .word (txt! "error"), .op (txt! ";"), .word (txt! "var"), .word (txt! "exists"), .word (txt! "bool"), .op (txt! ";"), .word (txt! "var"), .word (txt! "length")], .word (txt! "uint")) := by decide +kernel
theorem lx_return : (LexSt.idle false).run (txt! "\treturn err\n}\n") = ([.word (txt! "return"), .word (txt! "err"), .op (txt! ";"), .op (txt! "}"), .op (txt! ";")], .idle false) := by decide +kernel

/-! ## The statements of a field -/

theorem methodName_eq (m : Method) : methodName (some m) = m.goName := by
  cases m with
  | bytes => rfl
  | basic b => cases b <;> rfl
theorem methodName_none (o : Option Method) : methodName o = [] ↔ o = none := by
  cases o with
  | none => exact ⟨fun _ => rfl, fun _ => rfl⟩
  | some m =>
    refine ⟨fun h => ?_, nofun⟩
    cases m with
    | bytes => cases h
    | basic b => cases b <;> cases h
theorem goName_word (m : Method) : ∀ c ∈ m.goName, wordChar c = true := by
  cases m with
  | bytes => decide
  | basic b => cases b <;> decide

open LexSt

macro "same_tokens" : tactic => `(tactic| simp only [checked, Ref.source, go_lit0, go_lit1, go_lit2, go_lit3, go_lit4, go_lit5, go_lit6, go_lit7, go_lit8, go_lit9, go_lit10, go_lit11, go_lit12, go_lit13, go_lit14, go_lit15, go_lit16, go_lit17, go_lit18, go_lit19, go_lit20, go_lit21, go_lit22, go_lit23, go_lit24, go_lit25, go_lit26, go_lit27, go_lit28, go_lit29, go_lit30, go_lit31, go_lit32, go_lit33, go_lit34, go_lit35, go_lit36, go_lit37, go_lit38, go_lit39, go_lit40, go_lit41, go_lit42, go_lit43, go_lit44, go_lit45, List.append_assoc, List.cons_append, List.nil_append, List.append_nil, if_true, if_false, Bool.false_eq_true,
  Bool.and_false, Bool.and_true, Bool.or_true, Bool.or_false])

/-- codegen.go:43-52 -/
theorem lines_write (n : Bytes) (hn : GoIdent n) (m : Method) (p i : Bool) :
    Lines (txt! "\n\tif err = e.Write" ++ (m.goName ++ (txt! "(" ++ ((if p then txt! "(*" else []) ++ (txt! "v." ++ (n ++ ((if p then txt! ")" else []) ++ ((if i then txt! "[i]" else []) ++
      txt! "); err != nil {\n\t\treturn err\n\t}")))))))) ((WStmt.write m ⟨p, i⟩).source n) := by
  refine lines_of (rest := txt! "\tif err = e.Write" ++ _) ?_
  have h1 := fun (l : Bytes) (ts : List Tok) (h : (LexSt.word (txt! "Write" ++ m.goName)).run l = (ts, .idle false)) => run_then lx_write (run_then (run_more (txt! "Write") m.goName (goName_word m)) h)
  have hv := run_ident (.op (txt! ".")) trivial (by simp) n hn
  cases p <;> cases i
  · have := h1 _ _ (run_then (run_afterWord rfl lx_write_v) (run_then hv (run_afterWord rfl lx_write00)))
    simp only [WStmt.source]
    same_tokens
    simpa [LexSt.flush] using this
  · have := h1 _ _ (run_then (run_afterWord rfl lx_write_v) (run_then hv (run_afterWord rfl lx_write01)))
    simp only [WStmt.source]
    same_tokens
    simpa [LexSt.flush] using this
  · have := h1 _ _ (run_then (run_afterWord rfl lx_write_pv) (run_then hv (run_afterWord rfl lx_write10)))
    simp only [WStmt.source]
    same_tokens
    simpa [LexSt.flush] using this
  · have := h1 _ _ (run_then (run_afterWord rfl lx_write_pv) (run_then hv (run_afterWord rfl lx_write11)))
    simp only [WStmt.source]
    same_tokens
    simpa [LexSt.flush] using this

/-- codegen.go:70-78 -/
theorem lines_marshal (n : Bytes) (hn : GoIdent n) (p i : Bool) :
    Lines (txt! "\n\tif err = " ++ ((if p then txt! "(*" else []) ++ (txt! "v." ++ (n ++ ((if p then txt! ")" else []) ++ ((if i then txt! "[i]" else []) ++
      txt! ".MarshalABI(e); err != nil {\n\t\treturn err\n\t}")))))) ((WStmt.marshal ⟨p, i⟩).source n) := by
  refine lines_of (rest := txt! "\tif err = " ++ _) ?_
  have hv := run_ident (.op (txt! ".")) trivial (by simp) n hn
  cases p <;> cases i
  · have := run_then lx_other_v (run_then hv (run_afterWord rfl lx_marshal00))
    simp only [WStmt.source]
    same_tokens
    simpa [LexSt.flush] using this
  · have := run_then lx_other_v (run_then hv (run_afterWord rfl lx_marshal01))
    simp only [WStmt.source]
    same_tokens
    simpa [LexSt.flush] using this
  · have := run_then lx_other_pv (run_then hv (run_afterWord rfl lx_marshal10))
    simp only [WStmt.source]
    same_tokens
    simpa [LexSt.flush] using this
  · have := run_then lx_other_pv (run_then hv (run_afterWord rfl lx_marshal11))
    simp only [WStmt.source]
    same_tokens
    simpa [LexSt.flush] using this

/-- codegen.go:80-88 -/
theorem lines_unmarshal (n : Bytes) (hn : GoIdent n) (type : Bytes) (p i : Bool) :
    Lines (txt! "\n\tif err = " ++ ((if p then txt! "(*" else []) ++ (txt! "v." ++ (n ++ ((if p then txt! ")" else []) ++ ((if i then txt! "[i]" else []) ++
      txt! ".UnmarshalABI(d); err != nil {\n\t\treturn err\n\t}")))))) ((RStmt.unmarshal ⟨p, i⟩).source n type) := by
  refine lines_of (rest := txt! "\tif err = " ++ _) ?_
  have hv := run_ident (.op (txt! ".")) trivial (by simp) n hn
  cases p <;> cases i
  · have := run_then lx_other_v (run_then hv (run_afterWord rfl lx_unmarshal00))
    simp only [RStmt.source]
    same_tokens
    simpa [LexSt.flush] using this
  · have := run_then lx_other_v (run_then hv (run_afterWord rfl lx_unmarshal01))
    simp only [RStmt.source]
    same_tokens
    simpa [LexSt.flush] using this
  · have := run_then lx_other_pv (run_then hv (run_afterWord rfl lx_unmarshal10))
    simp only [RStmt.source]
    same_tokens
    simpa [LexSt.flush] using this
  · have := run_then lx_other_pv (run_then hv (run_afterWord rfl lx_unmarshal11))
    simp only [RStmt.source]
    same_tokens
    simpa [LexSt.flush] using this

/-- Types with a method of their own are declared in one line. -/
theorem run_tmp {type : Bytes} {m : Method} (h : methodOf type = some m) :
    (LexSt.idle false).run (txt! "\tvar tmp " ++ (type ++ txt! "\n\t")) = (.word (txt! "var") :: .word (txt! "tmp") :: (go type ++ [.op (txt! ";")]), .idle false) := by
  have hall : ∀ t ∈ methodNames, (LexSt.idle false).run (txt! "\tvar tmp " ++ (t ++ txt! "\n\t")) = (.word (txt! "var") :: .word (txt! "tmp") :: (go t ++ [.op (txt! ";")]), .idle false) := by
    decide +kernel
  refine hall type ?_
  by_contra hn
  rw [methodOf_none type hn] at h
  cases h

/-- codegen.go:54-68 -/
theorem lines_read (n : Bytes) (hn : GoIdent n) (type : Bytes) (m : Method) (hm : methodOf type = some m) (p i : Bool) :
    Lines (txt! "\n\t" ++ ((if p then txt! "var tmp " ++ (type ++ txt! "\n\t") else []) ++ (txt! "if " ++
      ((if p then txt! "tmp" else txt! "v." ++ (n ++ (if i then txt! "[i]" else []))) ++ (txt! ", err = d.Read" ++ (m.goName ++
      (txt! "(); err != nil {\n\t\treturn err\n\t}" ++ (if p then txt! "\n\tv." ++ (n ++ ((if i then txt! "[i]" else []) ++ txt! " = &tmp")) else [])))))))) ((RStmt.read m p i).source n type) := by
  refine lines_of (rest := txt! "\t" ++ _) ?_
  have hv := run_ident (.op (txt! ".")) trivial (by simp) n hn
  have hw := run_more (txt! "Read") m.goName (goName_word m)
  have ht := run_tmp hm
  cases p <;> cases i
  · have := run_then lx_read_v (run_then hv (run_then (run_afterWord rfl lx_read0) (run_then hw (run_afterWord rfl lx_read_end))))
    simp only [RStmt.source]
    same_tokens
    simpa [LexSt.flush] using this
  · have := run_then lx_read_v (run_then hv (run_then (run_afterWord rfl lx_read1) (run_then hw (run_afterWord rfl lx_read_end))))
    simp only [RStmt.source]
    same_tokens
    simpa [LexSt.flush] using this
  · have := run_then ht (run_then lx_read_tmp (run_then hw (run_then (run_afterWord rfl lx_read_tmp_end) (run_then hv (run_afterWord rfl lx_tmp0)))))
    simp only [RStmt.source]
    same_tokens
    simpa [LexSt.flush] using this
  · have := run_then ht (run_then lx_read_tmp (run_then hw (run_then (run_afterWord rfl lx_read_tmp_end) (run_then hv (run_afterWord rfl lx_tmp1)))))
    simp only [RStmt.source]
    same_tokens
    simpa [LexSt.flush] using this

/-- codegen.go:90-98 -/
theorem lines_writeSlice (n : Bytes) (hn : GoIdent n) (p : Bool) {code : Bytes} {body : WStmt} (hc : Lines code (body.source n)) :
    Lines (txt! "\n\tlength = len(" ++ ((if p then txt! "*" else []) ++ (txt! "v." ++ (n ++
      (txt! ")\n    if err = e.WriteVaruint(uint(length)); err != nil {\n\t\treturn err\n\t}\n\tfor i := 0; i < length; i++ {" ++ (indent code ++ txt! "\n\t}"))))))
      ((WStmt.slice p body).source n) := by
  refine lines_of (rest := txt! "\tlength = len(" ++ _) ?_
  have hv := run_ident (.op (txt! ".")) trivial (by simp) n hn
  have hb := run_lines (s := .op (txt! "{")) (lines_indent hc) trivial lx_close
  cases p
  · have := run_then lx_len (run_then hv (run_then (run_afterWord rfl lx_len_end) hb))
    simp only [WStmt.source]
    same_tokens
    simpa [LexSt.flush, LexSt.nl, Tok.ends] using this
  · have := run_then lx_len_p (run_then hv (run_then (run_afterWord rfl lx_len_end) hb))
    simp only [WStmt.source]
    same_tokens
    simpa [LexSt.flush, LexSt.nl, Tok.ends] using this

/-- codegen.go:100-108 -/
theorem lines_readSlice (n : Bytes) (hn : GoIdent n) (type : Bytes) (ht : ∀ c ∈ type, Inline c) {code : Bytes} {body : RStmt} (hc : Lines code (body.source n type)) :
    Lines (txt! "\n\tif length, err = d.ReadVaruint(); err != nil {\n\t\treturn err\n\t}\n\tv." ++ (n ++
      (txt! " = make([]" ++ (type ++ (txt! ", length)\n\tfor i := 0; i < int(length); i++ {" ++ (indent code ++ txt! "\n\t}")))))) ((RStmt.slice type body).source n type) := by
  refine lines_of (rest := txt! "\tif length, err = d.ReadVaruint(); err != nil {\n\t\treturn err\n\t}\n\tv." ++ _) ?_
  have hv := run_ident (.op (txt! ".")) trivial (by simp) n hn
  have hb := run_lines (s := .op (txt! "{")) (lines_indent hc) trivial lx_close
  have := run_then lx_readlen (run_then hv (run_then (run_afterWord rfl lx_make) (run_then (run_elem ht) (run_then lx_make_end hb))))
  simp only [RStmt.source]
  same_tokens
  simpa [LexSt.flush, LexSt.nl, Tok.ends] using this

theorem word_digit : ∀ d < 10, wordChar (digitChar d) = true := by decide
theorem word_fmtNatAux (k n : Nat) (acc : Bytes) (h : ∀ c ∈ acc, wordChar c = true) : ∀ c ∈ fmtNatAux k n acc, wordChar c = true := by
  induction k generalizing n acc with
  | zero => exact h
  | succ k ih =>
    unfold fmtNatAux
    split
    · intro c hc
      rcases List.mem_cons.1 hc with rfl | hc
      · exact word_digit n (by omega)
      · exact h c hc
    · refine ih _ _ fun c hc => ?_
      rcases List.mem_cons.1 hc with rfl | hc
      · exact word_digit _ (Nat.mod_lt _ (by omega))
      · exact h c hc
theorem word_fmtNat (n : Nat) : ∀ c ∈ fmtNat n, wordChar c = true := word_fmtNatAux (n + 1) n [] nofun
theorem inline_fmtInt (i : Int) : ∀ c ∈ fmtInt i, Inline c := by
  unfold fmtInt
  split
  · intro c hc
    rcases List.mem_cons.1 hc with rfl | hc
    · exact .inr (.inr (by decide +kernel))
    · exact .inl (word_fmtNat _ c hc)
  · exact fun c hc => .inl (word_fmtNat _ c hc)

/-- codegen.go:110-114, 116-120 -/
theorem lines_array {code : Bytes} {ts : List Tok} (hc : Lines code ts) (k : Int) :
    Lines (txt! "\n\tfor i := 0; i < " ++ (fmtInt k ++ (txt! "; i++ {" ++ (indent code ++ txt! "\n\t}")))) (go (txt! "for i := 0; i <") ++ go (fmtInt k) ++ go (txt! "; i++ {") ++ ts ++ go (txt! "};")) := by
  refine lines_of (rest := txt! "\tfor i := 0; i < " ++ _) ?_
  have hb := run_lines (s := .op (txt! "{")) (lines_indent hc) trivial lx_close
  have := run_then lx_for (run_then (run_piece (inline_fmtInt k) (.inr rfl) false) (run_then lx_for_end hb))
  same_tokens
  simpa [LexSt.flush, LexSt.nl, Tok.ends] using this

/-- codegen.go:122-136 -/
theorem lines_writeOptional (n : Bytes) (hn : GoIdent n) (o : Bool) {code : Bytes} {body : WStmt} (hc : Lines code (body.source n)) :
    Lines (txt! "\n\texists = v." ++ (n ++ (txt! " != nil" ++
      ((if o then txt! "\n\tif err = e.WriteBool(exists); err != nil {\n\t\treturn err\n\t}" else []) ++ (txt! "\n\tif exists {" ++ (indent code ++ (txt! "\n\t}" ++
      (if !o then txt! " else {\n\t\treturn errors.New(\"encountered nil for non-optional field: " ++ (n ++ txt! "\")\n\t}") else [])))))))) ((WStmt.optional o body).source n) := by
  refine lines_of (rest := txt! "\texists = v." ++ _) ?_
  have hv := run_ident (.op (txt! ".")) trivial (by simp) n hn
  cases o
  · have hs : (LexSt.str (txt! "encountered nil for non-optional field: " ++ n)).run (txt! "\")\n\t}\n") =
        ([.str (txt! "encountered nil for non-optional field: " ++ n), .op (txt! ")"), .op (txt! ";"), .op (txt! "}"), .op (txt! ";")], .idle false) := by
      rw [run_cons]
      have := lx_else_end
      simp only [step, if_true, this, List.cons_append, List.nil_append]
    have hb := run_lines (s := .op (txt! "{")) (lines_indent hc) trivial (run_then lx_else (run_then (run_inString _ n hn.2) hs))
    have := run_then lx_exists (run_then hv (run_then (run_afterWord rfl lx_exists0) hb))
    simp only [WStmt.source]
    same_tokens
    simpa [LexSt.flush, LexSt.nl, Tok.ends] using this
  · have hb := run_lines (s := .op (txt! "{")) (lines_indent hc) trivial lx_close
    have := run_then lx_exists (run_then hv (run_then (run_afterWord rfl lx_exists1) hb))
    simp only [WStmt.source]
    same_tokens
    simpa [LexSt.flush, LexSt.nl, Tok.ends] using this

/-- codegen.go:138-145 -/
theorem lines_readOptional (n type : Bytes) {code : Bytes} {body : RStmt} (hc : Lines code (body.source n type)) :
    Lines (txt! "\n\tif exists, err = d.ReadBool(); err != nil {\n\t\treturn err\n\t}\n\tif exists {" ++ (indent code ++ txt! "\n\t}")) ((RStmt.optional body).source n type) := by
  refine lines_of (rest := txt! "\tif exists, err = d.ReadBool(); err != nil {\n\t\treturn err\n\t}\n\tif exists {" ++ _) ?_
  have hb := run_lines (s := .op (txt! "{")) (lines_indent hc) trivial lx_close
  have := run_then lx_readbool hb
  simp only [RStmt.source]
  same_tokens
  simpa [LexSt.flush, LexSt.nl, Tok.ends] using this

end Verif
