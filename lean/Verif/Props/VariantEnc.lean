import Verif.Props.Fields
/-! C44: values of variant fields cannot be encoded again. -/
namespace Verif

/-- No member carries a tag. -/
def Fields.Untagged : Fields → Prop
  | .nil => True
  | .cons _ tag _ fs => tag = .none ∧ fs.Untagged

theorem writes_match {p q : Enc (Option Err)} {bs : Bytes} (h : (do match ← p with | some e => pure (some e) | none => q : Enc (Option Err)).Writes bs) :
    (∃ b, p.Writes b) ∧ ∃ b, q.Writes b := by
  unfold Enc.Writes at h
  rw [Enc.run_bind] at h
  cases hp : p.run with
  | ok e o =>
    rw [hp] at h
    cases e with
    | some e => cases h
    | none =>
      refine ⟨⟨o, hp⟩, ?_⟩
      cases hq : q.run with
      | ok e o' =>
        simp only [EOut.bind, hq] at h
        cases e with
        | none => exact ⟨o', hq⟩
        | some e => cases h
      | panic => simp only [EOut.bind, hq] at h; cases h
      | diverge => simp only [EOut.bind, hq] at h; cases h
  | panic => rw [hp] at h; cases h
  | diverge => rw [hp] at h; cases h

/-- A struct is encoded only if every member is. -/
theorem members_write : (fs : Fields) → fs.Pointers → fs.Untagged → (v : fs.Val) → (bs : Bytes) → (encodeFields chainEncoder fs v).Writes bs →
    ∀ m ∈ fs.members v, ∃ b, (encode m.1 m.2).Writes b
  | .nil, _, _, _, _, _ => fun m hm => nomatch hm
  | .cons vis tag t fs, hp, hu, (x, xs), bs, h => by
    obtain ⟨h1, _, h2⟩ := hp
    obtain ⟨h3, h4⟩ := hu
    subst h1 h3
    have h := writes_match (p := encodeWith chainEncoder t x) (q := encodeFields chainEncoder fs xs) h
    obtain ⟨⟨b, hb⟩, b', hb'⟩ := h
    intro m hm
    rcases List.mem_cons.1 hm with hm | hm
    · subst hm; exact ⟨b, hb⟩
    · exact members_write fs h2 h4 xs b' hb' m hm

theorem nil_never (t : Ty) (bs : Bytes) : ¬ (encode (.ptr t) (none : Option t.Val)).Writes bs := by
  cases t <;> intro h <;> cases h

/-- What DecodeVariant returns for a variant with two or more alternatives can never be encoded: the encoder has no case for variants and the other
members are nil. -/
theorem C44_violated (fs : Fields) (hp : fs.Pointers) (hu : fs.Untagged) (h2 : 2 ≤ fs.types.length) (old v : fs.Val) (fin : Err) (bs r : Bytes)
    (h : (decodeVariant (.struct fs) old).runE fin bs = .ok (v, none) r) (out : Bytes) : ¬ (encode (.struct fs) v).Writes out := by
  cases bs with
  | nil => cases h
  | cons b bs =>
    obtain ⟨_, h⟩ := C43_variant_selected fs old v fin b bs r h
    intro hw
    have hl : (fs.members v).length = fs.types.length := by rw [← members_types fs v, List.length_map]
    obtain ⟨j, hj, hjl⟩ : ∃ j, j ≠ b.toNat ∧ j < (fs.members v).length := by
      by_cases h0 : b.toNat = 0
      · exact ⟨1, by omega, by omega⟩
      · exact ⟨0, by omega, by omega⟩
    have hz := h j _ hj (List.getElem?_eq_getElem hjl)
    obtain ⟨o, ho⟩ := members_write fs hp hu v out hw _ (List.getElem_mem hjl)
    have hptr : ∀ (fs : Fields) (hp : fs.Pointers) (v : fs.Val), ∀ m ∈ fs.members v, ∃ u, m.1 = .ptr u := by
      intro fs
      induction fs using Fields.rec (motive_1 := fun _ => True) <;> try trivial
      · intro _ _ m hm; nomatch hm
      · rename_i ih
        intro hp v m hm
        rcases List.mem_cons.1 hm with hm | hm
        · subst hm; exact hp.2.1
        · exact ih hp.2.2 _ m hm
    obtain ⟨u, hu⟩ := hptr fs hp v _ (List.getElem_mem hjl)
    generalize (fs.members v)[j] = m at hz ho hu
    obtain ⟨t, x⟩ := m
    simp only at hz ho hu
    subst hu
    subst hz
    exact nil_never u o ho

/-- So a struct with such a field cannot be encoded either. -/
theorem C44_violated_field (ms fs : Fields) (x : ms.Val) (xs : fs.Val) (h : ∀ out, ¬ (encode (.struct ms) x).Writes out) (out : Bytes) :
    ¬ (encode (withField .variant (.struct ms) fs) ((x, xs) : ms.Val × fs.Val)).Writes out := by
  intro hw
  obtain ⟨⟨b, hb⟩, _⟩ := writes_match (p := encodeWith chainEncoder (.struct ms) x) (q := encodeFields chainEncoder fs xs) hw
  exact h b hb

/-- struct { A *uint8 } -/
def singleVariant : Fields := .cons .exported .none (.ptr (.basic .u8)) .nil

/-- With a single alternative the value can be encoded, but without the index. -/
theorem C44_violated_single :
    (decodeVariant (.struct singleVariant) ((none, ()) : Option UInt8 × Unit)).run [0, 5] = .ok (((some 5, ()) : Option UInt8 × Unit), none) [] ∧
    (encode (.struct singleVariant) ((some 5, ()) : Option UInt8 × Unit)).Writes [5] := by
  decide +kernel

/-- The hypotheses are met by a variant of a uint8 and a uint16. -/
example : sampleVariant.Pointers ∧ sampleVariant.Untagged ∧ 2 ≤ sampleVariant.types.length :=
  ⟨⟨rfl, ⟨_, rfl⟩, rfl, ⟨_, rfl⟩, trivial⟩, ⟨rfl, rfl, trivial⟩, Nat.le_refl _⟩

end Verif
