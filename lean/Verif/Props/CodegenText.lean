import Verif.Lemmas.GoText
/-! C91: the text that GenUnmarshalFn returns is the two functions of Model/Codegen, written in Go. -/
namespace Verif
open Vectors LexSt

/-- For every struct type with these names and fields, `l` being what the generator makes of the fields: the text divides into the tokens of MarshalABI and UnmarshalABI with the statements of
`genWrite` and `genRead`, field by field. -/
theorem C91_text (S : Bytes) (hS : GoIdent S) (fields : List (Bytes × Bytes × Tag)) (hf : ∀ f ∈ fields, GoIdent f.1 ∧ TypeText f.2.1) (l : List (Bytes × CgField))
    (hl : List.Forall₂ (fun f g => g.1 = f.1 ∧ cgField f.2.1 f.2.2 = some g.2) fields l) : ∃ text, genUnmarshalFn S fields = some text ∧
    goTokens text = some (marshalSource S (writeDecls (l.map Prod.snd)) (l.flatMap fun f => (genWrite f.2).source f.1) ++
      unmarshalSource S (readDecls (l.map Prod.snd)) (l.flatMap fun f => (genRead f.2).source f.1 f.2.type)) := by
  have h1 : (fields.mapM fun f => do
      let cg ← cgField f.2.1 f.2.2
      pure (f.1, cg)) = some l ∧ ∀ g ∈ l, GoIdent g.1 ∧ ∀ c ∈ g.2.type, Inline c := by
    induction hl with
    | nil => exact ⟨rfl, nofun⟩
    | @cons f g fields l h hl ih =>
      obtain ⟨i1, i2⟩ := ih fun g hg => hf g (by simp [hg])
      refine ⟨?_, ?_⟩
      · rw [List.mapM_cons, h.2, i1]
        obtain ⟨n, c⟩ := g
        obtain rfl : n = f.1 := h.1
        rfl
      · intro g' hg'
        rcases List.mem_cons.1 hg' with rfl | hg'
        · obtain ⟨h2, h3⟩ := hf f (by simp)
          exact ⟨h.1 ▸ h2, fun c hc => inline_type h3 c (cgField_rest h.2 c hc)⟩
        · exact i2 g' hg'
  unfold genUnmarshalFn
  rw [h1.1]
  exact genText_tokens S hS l h1.2

/-- The type is a pointer as reflect prints it. -/
def PointerText (t : Bytes) : Prop := t.head? = some 42

/-- The generator panics exactly on optional fields that are not pointers. -/
theorem C91_panics (S : Bytes) (hS : GoIdent S) (fields : List (Bytes × Bytes × Tag)) (hf : ∀ f ∈ fields, GoIdent f.1 ∧ TypeText f.2.1) :
    genUnmarshalFn S fields = none ↔ ∃ f ∈ fields, f.2.2 = .optional ∧ ¬ PointerText f.2.1 := by
  have h1 : ∀ f : Bytes × Bytes × Tag, cgField f.2.1 f.2.2 = none ↔ f.2.2 = .optional ∧ ¬ PointerText f.2.1 := by
    intro f
    unfold cgField PointerText
    split
    rename_i e
    dsimp only
    split at e
    · cases e
      simp [*]
    · cases e
      rename_i hx
      have : f.2.1.head? ≠ some 42 := by
        intro h
        cases hs : f.2.1 with
        | nil => rw [hs] at h; cases h
        | cons c r =>
          rw [hs] at h
          cases h
          exact hx r hs
      by_cases ho : f.2.2 = .optional <;> simp [ho, this]
  have h2 : (∃ l : List (Bytes × CgField), List.Forall₂ (fun f g => g.1 = f.1 ∧ cgField f.2.1 f.2.2 = some g.2) fields l) ∨
      (∃ f ∈ fields, cgField f.2.1 f.2.2 = none) ∧ (fields.mapM fun f => do
        let cg ← cgField f.2.1 f.2.2
        pure (f.1, cg)) = none := by
    clear hf
    induction fields with
    | nil => exact .inl ⟨[], .nil⟩
    | cons f fields ih =>
      cases hc : cgField f.2.1 f.2.2 with
      | none => exact .inr ⟨⟨f, by simp, hc⟩, by rw [List.mapM_cons, hc]; rfl⟩
      | some g =>
        rcases ih with ⟨l, hl⟩ | ⟨⟨f', hm, hn⟩, e⟩
        · exact .inl ⟨(f.1, g) :: l, .cons ⟨rfl, hc⟩ hl⟩
        · refine .inr ⟨⟨f', by simp [hm], hn⟩, ?_⟩
          rw [List.mapM_cons, hc, e]
          rfl
  rcases h2 with ⟨l, hl⟩ | ⟨⟨f, hm, hn⟩, e⟩
  · obtain ⟨text, ht⟩ := C91_text S hS fields hf l hl
    rw [ht.1]
    refine ⟨nofun, ?_⟩
    rintro ⟨f, hm, h⟩
    have h' := (h1 f).2 h
    clear hf ht
    induction hl with
    | nil => cases hm
    | cons hg _ ih =>
      rcases List.mem_cons.1 hm with rfl | hm
      · rw [h'] at hg
        exact absurd hg.2 nofun
      · exact ih hm
  · refine ⟨fun _ => ⟨f, hm, (h1 f).1 hn⟩, fun _ => ?_⟩
    unfold genUnmarshalFn
    rw [e]
    rfl

/-- The fields of a struct type of Model/Reflect under these names -/
def Fields.described : Fields → List Bytes → List (Bytes × Bytes × Tag)
  | .cons _ tag t fs, n :: ns => (n, t.goString, tag) :: fs.described ns
  | _, _ => []

theorem goString_text (t : Ty) : TypeText t.goString := by
  have app : ∀ {a b : Bytes}, TypeText a → TypeText b → TypeText (a ++ b) := fun ha hb c hc => by
    rcases List.mem_append.1 hc with h | h
    · exact ha c h
    · exact hb c h
  have T : ∀ b : Bytes, (b.all fun c => wordChar c || (txt! ".*[](){}, ").contains c) = true → TypeText b := by
    intro b h c hc
    have := List.all_eq_true.1 h c hc
    simpa using this
  induction t using Ty.goString.induct with
  | case1 b => cases b <;> exact T _ (by decide +kernel)
  | case2 | case3 | case8 | case12 => exact T (asc "main.T") (by decide +kernel)
  | case4 | case5 => exact T _ (by decide +kernel)
  | case6 c => cases c <;> exact T _ (by decide +kernel)
  | case7 t ih => exact app (a := [42]) (T _ (by decide +kernel)) ih
  | case9 t h ih =>
    rw [Ty.goString]
    · exact app (T _ (by decide +kernel)) ih
    · exact h
  | case10 n t ih => exact app (a := [91]) (T _ (by decide +kernel)) (app (fun c hc => .inl (word_fmtNat n c hc)) (app (a := [93]) (T _ (by decide +kernel)) ih))
  | case11 k v ihk ihv => exact app (app (T _ (by decide +kernel)) ihk) (app (a := [93]) (T _ (by decide +kernel)) ihv)

/-- The struct types of C60: what the theorems there say of `genWrite` and `genRead` they say of this text. -/
theorem C91_struct (S : Bytes) (hS : GoIdent S) (fs : Fields) (names : List Bytes) (hn : ∀ n ∈ names, GoIdent n) (hlen : names.length = fs.count) (l : List CgField) (hl : fs.cgFields = some l) :
    ∃ text, genUnmarshalFn S (fs.described names) = some text ∧
    goTokens text = some (marshalSource S (writeDecls l) ((names.zip l).flatMap fun f => (genWrite f.2).source f.1) ++
      unmarshalSource S (readDecls l) ((names.zip l).flatMap fun f => (genRead f.2).source f.1 f.2.type)) := by
  have key : (∀ f ∈ fs.described names, GoIdent f.1 ∧ TypeText f.2.1) ∧
      List.Forall₂ (fun f g => g.1 = f.1 ∧ cgField f.2.1 f.2.2 = some g.2) (fs.described names) (names.zip l) ∧ (names.zip l).map Prod.snd = l := by
    clear hS
    induction names generalizing fs l with
    | nil =>
      match fs, hlen with
      | .nil, _ =>
        cases hl
        exact ⟨nofun, .nil, rfl⟩
    | cons n names ih =>
      match fs, hlen with
      | .cons vis tag t fs, hlen =>
        unfold Fields.cgFields at hl
        cases h1 : cgField t.goString tag with
        | none => rw [h1] at hl; cases hl
        | some g =>
          cases h2 : fs.cgFields with
          | none => rw [h1, h2] at hl; cases hl
          | some r =>
            rw [h1, h2] at hl
            cases hl
            obtain ⟨i1, i2, i3⟩ := ih fs (fun m hm => hn m (by simp [hm])) (by simpa [Fields.count] using hlen) r h2
            refine ⟨?_, .cons ⟨rfl, h1⟩ i2, by simp [i3]⟩
            intro f hf
            rcases List.mem_cons.1 hf with rfl | hf
            · exact ⟨hn n (by simp), goString_text t⟩
            · exact i1 f hf
  have := C91_text S hS _ key.1 _ key.2.1
  rw [key.2.2] at this
  exact this

/-! ## Examples -/

/-- struct { A uint64; B *[]chain.Name `eosio:"optional"` } -/
def textSample : List (Bytes × Bytes × Tag) := [(asc "A", asc "uint64", .none), (asc "B", asc "*[]chain.Name", .optional)]
example : ∀ f ∈ textSample, GoIdent f.1 ∧ TypeText f.2.1 := by unfold GoIdent TypeText; decide +kernel
example : ∃ l : List (Bytes × CgField), l.length = 2 ∧ List.Forall₂ (fun f g => g.1 = f.1 ∧ cgField f.2.1 f.2.2 = some g.2) textSample l := by
  obtain ⟨a, ha⟩ := Option.isSome_iff_exists.1 (show (cgField (asc "uint64") .none).isSome = true by decide +kernel)
  obtain ⟨b, hb⟩ := Option.isSome_iff_exists.1 (show (cgField (asc "*[]chain.Name") .optional).isSome = true by decide +kernel)
  exact ⟨[(asc "A", a), (asc "B", b)], rfl, .cons ⟨rfl, ha⟩ (.cons ⟨rfl, hb⟩ .nil)⟩
example : ∃ fs : Fields, ∃ l, fs.count = 2 ∧ fs.cgFields = some l := by
  obtain ⟨l, hl⟩ := Option.isSome_iff_exists.1
    (show (Fields.cgFields (.cons .exported .none (.basic .u64) (.cons .exported .optional (.ptr (.slice (.chain .name))) .nil))).isSome = true by decide +kernel)
  exact ⟨_, l, rfl, hl⟩
example : GoIdent (asc "Sample") := by unfold GoIdent; decide
/-- struct { A uint64 }: the text itself -/
example : genUnmarshalFn (asc "T") [(asc "A", asc "uint64", .none)] = some (txt! "\nfunc (v T) MarshalABI(e *abi.Encoder) error {\n\tvar err error\n\tif err = e.WriteUint64(v.A); err != nil {\n\t\treturn err\n\t}\n\treturn err\n}\n\n\nfunc (v *T) UnmarshalABI(d *abi.Decoder) error {\n\tvar err error\n\tif v.A, err = d.ReadUint64(); err != nil {\n\t\treturn err\n\t}\n\treturn err\n}\n") := by
  decide +kernel

end Verif
