import Verif.Lemmas.GoTokens
/-! Lemmas for C91: the generated text. -/
namespace Verif
open Vectors LexSt

theorem writeCode_wrap (n : Bytes) (hn : GoIdent n) (f : CgField) (c0 : WStmt) (code : Bytes) (l0 : Lines code (c0.source n)) :
    ∃ code', ((f.wrap n f.isSlice writeSliceTemplate code).bind fun code => (f.wrap n f.isArray writeArrayTemplate code).bind fun code => f.wrap n (f.isOptional || f.isPtr) writeOptionalTemplate code) = some code' ∧
      Lines code' (WStmt.source n (
        let c := if f.isSlice then .slice f.isPtr c0 else c0
        let c := if f.isArray then .array f.arrayLen c else c
        if f.isOptional || f.isPtr then .optional f.isOptional c else c)) := by
  dsimp only
  have h1 : ∃ code', f.wrap n f.isSlice writeSliceTemplate code = some code' ∧ Lines code' (WStmt.source n (if f.isSlice = true then .slice f.isPtr c0 else c0)) := by
    unfold CgField.wrap
    split
    · exact ⟨_, render_writeSlice n f _, lines_writeSlice n hn _ l0⟩
    · exact ⟨_, rfl, l0⟩
  generalize (if f.isSlice = true then WStmt.slice f.isPtr c0 else c0) = c1 at h1 ⊢
  obtain ⟨code1, e1, l1⟩ := h1
  rw [e1]
  dsimp only [Option.bind_some]
  have h2 : ∃ code', f.wrap n f.isArray writeArrayTemplate code1 = some code' ∧ Lines code' (WStmt.source n (if f.isArray = true then .array f.arrayLen c1 else c1)) := by
    unfold CgField.wrap
    split
    · exact ⟨_, render_writeArray n f _, lines_array l1 _⟩
    · exact ⟨_, rfl, l1⟩
  generalize (if f.isArray = true then WStmt.array f.arrayLen c1 else c1) = c2 at h2 ⊢
  obtain ⟨code2, e2, l2⟩ := h2
  rw [e2]
  dsimp only [Option.bind_some]
  unfold CgField.wrap
  split
  · exact ⟨_, render_writeOptional n f _, lines_writeOptional n hn _ l2⟩
  · exact ⟨_, rfl, l2⟩

/-- codegen.go:258-277 -/
theorem writeCode_lines (n : Bytes) (hn : GoIdent n) (f : CgField) : ∃ code, writeCode n f = some code ∧ Lines code ((genWrite f).source n) := by
  unfold writeCode genWrite
  cases hm : methodOf f.type with
  | none =>
    rw [if_pos (show methodName none = [] from rfl), render_writeOther]
    exact writeCode_wrap n hn f _ _ (lines_marshal n hn _ _)
  | some m =>
    rw [if_neg (by rw [methodName_none]; nofun), render_write, hm, methodName_eq]
    exact writeCode_wrap n hn f _ _ (lines_write n hn m _ _)

theorem readCode_wrap (n : Bytes) (hn : GoIdent n) (f : CgField) (ht : ∀ c ∈ f.type, Inline c) (c0 : RStmt) (code : Bytes) (l0 : Lines code (c0.source n f.type)) :
    ∃ code', ((f.wrap n f.isSlice readSliceTemplate code).bind fun code => (f.wrap n f.isArray readArrayTemplate code).bind fun code => f.wrap n (f.isOptional) readOptionalTemplate code) = some code' ∧
      Lines code' (RStmt.source n f.type (
        let c := if f.isSlice then .slice f.type c0 else c0
        let c := if f.isArray then .array f.arrayLen c else c
        if f.isOptional then .optional c else c)) := by
  dsimp only
  have h1 : ∃ code', f.wrap n f.isSlice readSliceTemplate code = some code' ∧ Lines code' (RStmt.source n f.type (if f.isSlice = true then .slice f.type c0 else c0)) := by
    unfold CgField.wrap
    split
    · exact ⟨_, render_readSlice n f _, lines_readSlice n hn _ ht l0⟩
    · exact ⟨_, rfl, l0⟩
  generalize (if f.isSlice = true then RStmt.slice f.type c0 else c0) = c1 at h1 ⊢
  obtain ⟨code1, e1, l1⟩ := h1
  rw [e1]
  dsimp only [Option.bind_some]
  have h2 : ∃ code', f.wrap n f.isArray readArrayTemplate code1 = some code' ∧ Lines code' (RStmt.source n f.type (if f.isArray = true then .array f.arrayLen c1 else c1)) := by
    unfold CgField.wrap
    split
    · exact ⟨_, render_readArray n f _, lines_array l1 _⟩
    · exact ⟨_, rfl, l1⟩
  generalize (if f.isArray = true then RStmt.array f.arrayLen c1 else c1) = c2 at h2 ⊢
  obtain ⟨code2, e2, l2⟩ := h2
  rw [e2]
  dsimp only [Option.bind_some]
  unfold CgField.wrap
  split
  · exact ⟨_, render_readOptional n f _, lines_readOptional n _ l2⟩
  · exact ⟨_, rfl, l2⟩

/-- codegen.go:288-306 -/
theorem readCode_lines (n : Bytes) (hn : GoIdent n) (f : CgField) (ht : ∀ c ∈ f.type, Inline c) : ∃ code, readCode n f = some code ∧ Lines code ((genRead f).source n f.type) := by
  unfold readCode genRead
  cases hm : methodOf f.type with
  | none =>
    rw [if_pos (show methodName none = [] from rfl), render_readOther]
    exact readCode_wrap n hn f ht _ _ (lines_unmarshal n hn _ _ _)
  | some m =>
    rw [if_neg (by rw [methodName_none]; nofun), render_read, hm, methodName_eq]
    exact readCode_wrap n hn f ht _ _ (lines_read n hn f.type m hm _ _)

/-! ## The functions -/

theorem run_marshal (S : Bytes) (hS : GoIdent S) (d : FnDecls) {code : Bytes} {ts : List Tok} (hc : Lines code ts) :
    (LexSt.idle false).run (txt! "\nfunc (v " ++ (S ++ (txt! ") MarshalABI(e *abi.Encoder) error {\n\tvar err error" ++ ((if d.usesExists then txt! "\n\tvar exists bool" else []) ++
      ((if d.usesLength then txt! "\n\tvar length int" else []) ++ (code ++ txt! "\n\treturn err\n}\n")))))) = (marshalSource S d ts, .idle false) := by
  have hv := run_ident (.idle true) trivial (by simp) S hS
  have hb := fun s hs => run_lines (s := s) hc hs lx_return
  obtain ⟨x, l⟩ := d
  cases x <;> cases l
  · have := run_then lx_func (run_then hv (run_then (run_afterWord rfl lx_marshal_head00) (hb _ trivial)))
    simp only [marshalSource, fnBody]
    same_tokens
    simpa [LexSt.flush, LexSt.nl, Tok.ends, midKeywords] using this
  · have := run_then lx_func (run_then hv (run_then (run_afterWord rfl lx_marshal_head01) (hb _ trivial)))
    simp only [marshalSource, fnBody]
    same_tokens
    simpa [LexSt.flush, LexSt.nl, Tok.ends, midKeywords] using this
  · have := run_then lx_func (run_then hv (run_then (run_afterWord rfl lx_marshal_head10) (hb _ trivial)))
    simp only [marshalSource, fnBody]
    same_tokens
    simpa [LexSt.flush, LexSt.nl, Tok.ends, midKeywords] using this
  · have := run_then lx_func (run_then hv (run_then (run_afterWord rfl lx_marshal_head11) (hb _ trivial)))
    simp only [marshalSource, fnBody]
    same_tokens
    simpa [LexSt.flush, LexSt.nl, Tok.ends, midKeywords] using this

theorem run_unmarshal (S : Bytes) (hS : GoIdent S) (d : FnDecls) {code : Bytes} {ts : List Tok} (hc : Lines code ts) :
    (LexSt.idle false).run (txt! "\nfunc (v *" ++ (S ++ (txt! ") UnmarshalABI(d *abi.Decoder) error {\n\tvar err error" ++ ((if d.usesExists then txt! "\n\tvar exists bool" else []) ++
      ((if d.usesLength then txt! "\n\tvar length uint" else []) ++ (code ++ txt! "\n\treturn err\n}\n")))))) = (unmarshalSource S d ts, .idle false) := by
  have hv := run_ident (.op (txt! "*")) trivial (by simp) S hS
  have hb := fun s hs => run_lines (s := s) hc hs lx_return
  obtain ⟨x, l⟩ := d
  cases x <;> cases l
  · have := run_then lx_funcp (run_then hv (run_then (run_afterWord rfl lx_unmarshal_head00) (hb _ trivial)))
    simp only [unmarshalSource, fnBody]
    same_tokens
    simpa [LexSt.flush, LexSt.nl, Tok.ends, midKeywords] using this
  · have := run_then lx_funcp (run_then hv (run_then (run_afterWord rfl lx_unmarshal_head01) (hb _ trivial)))
    simp only [unmarshalSource, fnBody]
    same_tokens
    simpa [LexSt.flush, LexSt.nl, Tok.ends, midKeywords] using this
  · have := run_then lx_funcp (run_then hv (run_then (run_afterWord rfl lx_unmarshal_head10) (hb _ trivial)))
    simp only [unmarshalSource, fnBody]
    same_tokens
    simpa [LexSt.flush, LexSt.nl, Tok.ends, midKeywords] using this
  · have := run_then lx_funcp (run_then hv (run_then (run_afterWord rfl lx_unmarshal_head11) (hb _ trivial)))
    simp only [unmarshalSource, fnBody]
    same_tokens
    simpa [LexSt.flush, LexSt.nl, Tok.ends, midKeywords] using this

/-- The code of all fields -/
theorem codes_lines {α : Type} (code : α → Option Bytes) (src : α → List Tok) : (l : List α) → (∀ f ∈ l, ∃ c, code f = some c ∧ Lines c (src f)) →
    ∃ cs, l.mapM code = some cs ∧ cs.length = l.length ∧ Lines cs.flatten (l.flatMap src)
  | [], _ => ⟨[], rfl, rfl, lines_nil⟩
  | f :: l, h => by
    obtain ⟨c, h1, h2⟩ := h f (by simp)
    obtain ⟨cs, h3, h4, h5⟩ := codes_lines code src l fun g hg => h g (by simp [hg])
    refine ⟨c :: cs, ?_, by simp [h4], ?_⟩
    · rw [List.mapM_cons, h1, h3]
      rfl
    · rw [List.flatten_cons, List.flatMap_cons]
      exact lines_append h2 h5

theorem zip_codes (l : List (Bytes × CgField)) (cs : List Bytes) (h : cs.length = l.length) : (l.zipWith (fun f c => (f.1, f.2, c)) cs).map (fun f => f.2.2) = cs := by
  induction l generalizing cs with
  | nil => cases cs <;> simp_all
  | cons f l ih =>
    match cs, h with
    | c :: cs, h => simp [ih cs (by simpa using h)]

theorem genText_tokens (S : Bytes) (hS : GoIdent S) (l : List (Bytes × CgField)) (hl : ∀ f ∈ l, GoIdent f.1 ∧ ∀ c ∈ f.2.type, Inline c) : ∃ text, genText S l = some text ∧
    goTokens text = some (marshalSource S (writeDecls (l.map Prod.snd)) (l.flatMap fun f => (genWrite f.2).source f.1) ++
      unmarshalSource S (readDecls (l.map Prod.snd)) (l.flatMap fun f => (genRead f.2).source f.1 f.2.type)) := by
  obtain ⟨ws, h1, h2, h3⟩ := codes_lines (fun f : Bytes × CgField => writeCode f.1 f.2) (fun f => (genWrite f.2).source f.1) l fun f hf => writeCode_lines f.1 (hl f hf).1 f.2
  obtain ⟨rs, h4, h5, h6⟩ := codes_lines (fun f : Bytes × CgField => readCode f.1 f.2) (fun f => (genRead f.2).source f.1 f.2.type) l fun f hf => readCode_lines f.1 (hl f hf).1 f.2 (hl f hf).2
  unfold genText
  rw [h1, h4]
  simp only [Option.bind_eq_bind, Option.bind_some, render_marshal, render_unmarshal, zip_codes l _ h2, zip_codes l _ h5]
  refine ⟨_, rfl, ?_⟩
  have e1 := run_marshal S hS (writeDecls (l.map Prod.snd)) h3
  have e2 := run_unmarshal S hS (readDecls (l.map Prod.snd)) h6
  have e3 := run_then e1 (run_then (show (LexSt.idle false).run [10] = ([], .idle false) from rfl) (run_then e2 (show (LexSt.idle false).run [10] = ([], .idle false) from rfl)))
  unfold goTokens
  simp only [List.append_assoc, List.cons_append, List.nil_append, List.append_nil] at e3 ⊢
  rw [e3]

theorem cutArray_rest {acc s n r : Bytes} (h : cutArray acc s = some (n, r)) : ∀ c ∈ r, c ∈ s := by
  induction s generalizing acc with
  | nil => cases h
  | cons d s ih =>
    unfold cutArray at h
    split at h
    · cases h
      intro c hc
      simp [hc]
    · intro c hc
      simp [ih h c hc]

theorem cgField_rest {s : Bytes} {tag : Tag} {f : CgField} (h : cgField s tag = some f) : ∀ c ∈ f.type, c ∈ s := by
  have key : ∀ (s : Bytes) (p o : Bool), ∀ c ∈ (match s with
      | 91 :: 93 :: s => ({ type := s, isPtr := p, isOptional := o, isSlice := true, isArray := false, arrayLen := 0 } : CgField)
      | 91 :: s =>
        match cutArray [] s with
        | some (n, s) => { type := s, isPtr := p, isOptional := o, isSlice := false, isArray := true, arrayLen := (parseInt 64 n).1 }
        | none => { type := 91 :: s, isPtr := p, isOptional := o, isSlice := false, isArray := true, arrayLen := 0 }
      | s => { type := s, isPtr := p, isOptional := o, isSlice := false, isArray := false, arrayLen := 0 }).type, c ∈ s := by
    intro s p o c hc
    split at hc
    · simp [hc]
    · split at hc
      · rename_i h
        simp [cutArray_rest h c hc]
      · exact hc
    · exact hc
  unfold cgField at h
  split at h
  rename_i e
  dsimp only at h
  split at h
  · cases h
  · cases h
    intro c hc
    have := key _ _ _ c hc
    split at e
    · cases e
      simp [this]
    · cases e
      exact this

end Verif
