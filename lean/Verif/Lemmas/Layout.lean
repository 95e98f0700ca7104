import Verif.Spec.Layout
import Verif.Spec.Panics
import Mathlib.Tactic.Ring
/-! # Sizes and alignments of the model -/
namespace Verif

theorem roundUp_unique {n a o : Nat} (h1 : n ≤ o) (h2 : a ∣ o) (h3 : o < n + a) : roundUp n a = o := by
  obtain ⟨q, rfl⟩ := h2
  have ha : 0 < a := by omega
  unfold roundUp
  have : (n + a - 1) / a = q := by
    rw [Nat.div_eq_iff ha]
    constructor
    · rw [Nat.mul_comm]; omega
    · have : q * a = a * q := Nat.mul_comm ..
      omega
  rw [this, Nat.mul_comm]

theorem roundUp_spec (n : Nat) {a : Nat} (ha : 0 < a) : n ≤ roundUp n a ∧ a ∣ roundUp n a ∧ roundUp n a < n + a := by
  unfold roundUp
  have h1 := Nat.div_add_mod (n + a - 1) a
  have h2 := Nat.mod_lt (n + a - 1) ha
  rw [Nat.mul_comm] at h1
  exact ⟨by omega, ⟨_, Nat.mul_comm ..⟩, by omega⟩

/-- The end with the byte for a last field of size zero -/
def padded (l : List (Nat × Nat)) (e : Nat) : Nat := if l.getLast?.map Prod.fst = some 0 ∧ e > 0 then e + 1 else e

def topAlign (al : Nat) (l : List (Nat × Nat)) : Nat := l.foldl (fun m f => max m f.2) al

theorem topAlign_ge (l : List (Nat × Nat)) : ∀ al, al ≤ topAlign al l ∧ (∀ f ∈ l, f.2 ≤ topAlign al l) ∧ (topAlign al l = al ∨ ∃ f ∈ l, f.2 = topAlign al l) := by
  induction l with
  | nil => exact fun al => ⟨Nat.le_refl _, (fun _ h => nomatch h), .inl rfl⟩
  | cons f l ih =>
    intro al
    obtain ⟨h1, h2, h3⟩ := ih (max al f.2)
    have e : topAlign al (f :: l) = topAlign (max al f.2) l := rfl
    rw [e]
    refine ⟨by omega, ?_, ?_⟩
    · intro g hg
      rcases List.mem_cons.1 hg with rfl | hg
      · omega
      · exact h2 g hg
    · rcases h3 with h3 | ⟨g, hg, h3⟩
      · rcases Nat.le_total al f.2 with h | h
        · exact .inr ⟨f, List.mem_cons_self, by rw [h3]; omega⟩
        · exact .inl (by rw [h3]; omega)
      · exact .inr ⟨g, List.mem_cons_of_mem _ hg, h3⟩

theorem topAlign_unique {l : List (Nat × Nat)} {a : Nat} (h1 : ∀ f ∈ l, f.2 ≤ a) (h2 : a = 1 ∨ ∃ f ∈ l, f.2 = a) (h3 : 0 < a) : topAlign 1 l = a := by
  obtain ⟨g1, g2, g3⟩ := topAlign_ge l 1
  apply Nat.le_antisymm
  · rcases g3 with g3 | ⟨f, hf, g3⟩
    · omega
    · rw [← g3]; exact h1 f hf
  · rcases h2 with h2 | ⟨f, hf, h2⟩
    · omega
    · rw [← h2]; exact g2 f hf

theorem structLayout_iff {l : List (Nat × Nat)} {s a : Nat} : StructLayout l s a ↔ ∃ e, Placed 0 l e ∧ a = topAlign 1 l ∧ s = roundUp (padded l e) a := by
  constructor
  · rintro ⟨e, p, h1, rfl, h2, h3, h4, h5, h6, h7⟩
    exact ⟨e, h1, (topAlign_unique h2 h3 h4).symm, (roundUp_unique h6 h5 h7).symm⟩
  · rintro ⟨e, h1, rfl, rfl⟩
    obtain ⟨g1, g2, g3⟩ := topAlign_ge l 1
    obtain ⟨r1, r2, r3⟩ := roundUp_spec (padded l e) (a := topAlign 1 l) (by omega)
    exact ⟨e, _, h1, rfl, g2, g3, by omega, r2, r1, r3⟩

theorem placed_words (n : Nat) : ∀ k, Placed (8 * k) (List.replicate n (8, 8)) (8 * (k + n)) := by
  induction n with
  | zero => exact fun k => .nil _
  | succ n ih =>
    intro k
    refine .cons (o := 8 * k) (Nat.le_refl _) ⟨k, rfl⟩ (by omega) ?_
    have := ih (k + 1)
    rwa [show k + 1 + n = k + (n + 1) by omega, show 8 * (k + 1) = 8 * k + 8 by omega] at this

theorem placed_unique {e e₁ e₂ : Nat} {l : List (Nat × Nat)} (h₁ : Placed e l e₁) (h₂ : Placed e l e₂) : e₁ = e₂ := by
  induction h₁ with
  | nil => cases h₂; rfl
  | cons a1 a2 a3 _ ih =>
    cases h₂ with
    | cons b1 b2 b3 b4 =>
      have := (roundUp_unique a1 a2 a3).symm.trans (roundUp_unique b1 b2 b3)
      subst this
      exact ih b4

theorem stringWords_layout {s a : Nat} (h : StructLayout stringWords s a) : s = 16 ∧ a = 8 := by
  obtain ⟨e, h1, rfl, rfl⟩ := structLayout_iff.1 h
  have := placed_unique h1 (placed_words 2 0)
  subst this
  decide
theorem sliceWords_layout {s a : Nat} (h : StructLayout sliceWords s a) : s = 24 ∧ a = 8 := by
  obtain ⟨e, h1, rfl, rfl⟩ := structLayout_iff.1 h
  have := placed_unique h1 (placed_words 3 0)
  subst this
  decide

theorem decl_layout (c : ChainTy) : c.decl.layout = (c.size, c.align) := by cases c <;> decide
theorem basic_layout {b : Basic} {w : Nat} (h : b.width = some w) : (b.size, b.align) = (w, w) := by cases b <;> cases h <;> rfl

mutual
/-- The model has the sizes and alignments of the specification. -/
theorem layout_has : {t : Ty} → {s a : Nat} → t.Has s a → t.layout = (s, a)
  | _, _, _, .word h => by rw [Ty.layout]; exact basic_layout h
  | _, _, _, .string h => by obtain ⟨rfl, rfl⟩ := stringWords_layout h; rfl
  | _, _, _, .named (b := b) h => (show (Ty.named b).layout = (Ty.basic b).layout from rfl).trans (layout_has h)
  | _, _, _, .unsupported => rfl
  | _, _, _, .bytes h => by obtain ⟨rfl, rfl⟩ := sliceWords_layout h; rfl
  | _, _, _, .slice h => by obtain ⟨rfl, rfl⟩ := sliceWords_layout h; rfl
  | _, _, _, .chain h => (decl_layout _).symm.trans (layout_has h)
  | _, _, _, .ptr => rfl
  | _, _, _, .map => rfl
  | _, _, _, .array h => by rw [Ty.layout, layout_has h]
  | _, _, _, .struct h hs => by
    obtain ⟨e, h1, rfl, rfl⟩ := structLayout_iff.1 hs
    rw [Ty.layout]
    exact layout_have h _ _ _ h1
theorem layout_have : {fs : Fields} → {l : List (Nat × Nat)} → fs.Have l → ∀ e e' al, Placed e l e' → fs.layout e al = (roundUp (padded l e') (topAlign al l), topAlign al l)
  | _, _, .nil, e, e', al, hp => by cases hp; rfl
  | _, _, .cons (fs := .nil) h hn, e, e', al, hp => by
    cases hn
    cases hp with
    | cons h1 h2 h3 h4 =>
      cases h4
      rw [Fields.layout, layout_has h, ← roundUp_unique h1 h2 h3]
      simp only [padded, topAlign, List.foldl, List.getLast?_singleton, Option.map_some, Option.some.injEq]
  | _, _, .cons (fs := .cons vis tag t fs) (s := s) (a := a) (l := l) h hn, e, e', al, hp => by
    cases hp with
    | cons h1 h2 h3 h4 =>
      have ih := layout_have hn _ _ (max al a) h4
      rw [Fields.layout, layout_has h]
      show Fields.layout (.cons vis tag t fs) (roundUp e a + s) (max al a) = _
      rw [roundUp_unique h1 h2 h3]
      refine ih.trans ?_
      cases hn with
      | cons _ _ => rfl
end

theorem align_pos_basic (b : Basic) : 0 < b.align := by cases b <;> decide
theorem align_pos_chain (c : ChainTy) : 0 < c.align := by cases c <;> decide

theorem structLayout_exists (l : List (Nat × Nat)) (h : ∀ f ∈ l, 0 < f.2) : ∃ s a, 0 < a ∧ StructLayout l s a := by
  have hp : ∀ (l : List (Nat × Nat)), (∀ f ∈ l, 0 < f.2) → ∀ e, ∃ e', Placed e l e' := by
    intro l
    induction l with
    | nil => exact fun _ e => ⟨e, .nil e⟩
    | cons f l ih =>
      intro h e
      obtain ⟨r1, r2, r3⟩ := roundUp_spec e (h f List.mem_cons_self)
      obtain ⟨e', h'⟩ := ih (fun g hg => h g (List.mem_cons_of_mem _ hg)) (roundUp e f.2 + f.1)
      exact ⟨e', .cons r1 r2 r3 h'⟩
  obtain ⟨e, he⟩ := hp l h 0
  have := (topAlign_ge l 1).1
  exact ⟨_, _, by omega, structLayout_iff.2 ⟨e, he, rfl, rfl⟩⟩

theorem basic_has (b : Basic) : ∃ s a, 0 < a ∧ (Ty.basic b).Has s a := by
  by_cases hb : b = .string
  · subst hb
    obtain ⟨s, a, h0, h⟩ := structLayout_exists stringWords (by decide)
    exact ⟨s, a, h0, .string h⟩
  · cases b <;> first | exact absurd rfl hb | exact ⟨_, _, by decide, .word rfl⟩

theorem slice_has (t : Ty) : ∃ s a, 0 < a ∧ (Ty.slice t).Has s a ∧ Ty.bytes.Has s a := by
  obtain ⟨s, a, h0, h⟩ := structLayout_exists sliceWords (by decide)
  exact ⟨s, a, h0, .slice h, .bytes h⟩

theorem fieldsOf_have : (l : List Ty) → (∀ t ∈ l, ∃ s a, 0 < a ∧ t.Has s a) → ∃ l', (∀ f ∈ l', 0 < f.2) ∧ (fieldsOf l).Have l'
  | [], _ => ⟨[], (fun _ h => nomatch h), .nil⟩
  | t :: l, h => by
    obtain ⟨s, a, h0, h1⟩ := h t List.mem_cons_self
    obtain ⟨l', h2, h3⟩ := fieldsOf_have l fun u hu => h u (List.mem_cons_of_mem _ hu)
    exact ⟨(s, a) :: l', List.forall_mem_cons.2 ⟨h0, h2⟩, .cons h1 h3⟩
theorem struct_has {l : List Ty} (h : ∀ t ∈ l, ∃ s a, 0 < a ∧ t.Has s a) : ∃ s a, 0 < a ∧ (Ty.struct (fieldsOf l)).Has s a := by
  obtain ⟨l', h1, h2⟩ := fieldsOf_have l h
  obtain ⟨s, a, h0, h3⟩ := structLayout_exists l' h1
  exact ⟨s, a, h0, .struct h2 h3⟩

theorem bytes_has : ∃ s a, 0 < a ∧ Ty.bytes.Has s a := (slice_has .bytes).elim fun s h => h.elim fun a h => ⟨s, a, h.1, h.2.2⟩
theorem of_slice (t : Ty) : ∃ s a, 0 < a ∧ (Ty.slice t).Has s a := (slice_has t).elim fun s h => h.elim fun a h => ⟨s, a, h.1, h.2.1⟩
theorem of_array (n : Nat) {t : Ty} (h : ∃ s a, 0 < a ∧ t.Has s a) : ∃ s a, 0 < a ∧ (Ty.array n t).Has s a := h.elim fun s h => h.elim fun a h => ⟨n * s, a, h.1, .array h.2⟩
theorem of_decl {c : ChainTy} (h : ∃ s a, 0 < a ∧ c.decl.Has s a) : ∃ s a, 0 < a ∧ (Ty.chain c).Has s a := h.elim fun s h => h.elim fun a h => ⟨s, a, h.1, .chain h.2⟩
theorem of_named (b : Basic) : ∃ s a, 0 < a ∧ (Ty.named b).Has s a := (basic_has b).elim fun s h => h.elim fun a h => ⟨s, a, h.1, .named h.2⟩

theorem chain_has (c : ChainTy) : ∃ s a, 0 < a ∧ (Ty.chain c).Has s a := by
  have u64 : ∀ c : ChainTy, c.decl = .basic .u64 → ∃ s a, 0 < a ∧ (Ty.chain c).Has s a := fun c h => of_decl (h ▸ basic_has _)
  have name := u64 .name rfl
  have symbol := u64 .symbol rfl
  have sec : ∃ s a, 0 < a ∧ (Ty.chain .timePointSec).Has s a := of_decl (basic_has _)
  have bytes : ∃ s a, 0 < a ∧ (Ty.chain .bytes).Has s a := of_decl bytes_has
  have asset : ∃ s a, 0 < a ∧ (Ty.chain .asset).Has s a := of_decl (struct_has (l := [.basic .i64, .chain .symbol]) (by simp [basic_has, symbol]))
  have header : ∃ s a, 0 < a ∧ (Ty.chain .transactionHeader).Has s a :=
    of_decl (struct_has (l := [.chain .timePointSec, .basic .u16, .basic .u32, .basic .uint, .basic .u8, .basic .uint]) (by simp [basic_has, sec]))
  cases c with
  | asset => exact asset
  | bytes => exact bytes
  | transactionHeader => exact header
  | blob => exact of_decl bytes_has
  | checksum160 => exact of_decl (of_array _ (basic_has _))
  | checksum256 => exact of_decl (of_array _ (basic_has _))
  | checksum512 => exact of_decl (of_array _ (basic_has _))
  | uint128 => exact of_decl (struct_has (l := [.basic .u64, .basic .u64]) (by simp [basic_has]))
  | int128 => exact of_decl (struct_has (l := [.basic .u64, .basic .u64]) (by simp [basic_has]))
  | float128 => exact of_decl (struct_has (l := [.array 16 (.basic .u8)]) (by simp [of_array _ (basic_has .u8)]))
  | extendedAsset => exact of_decl (struct_has (l := [.chain .asset, .chain .name]) (by simp [asset, name]))
  | publicKey => exact of_decl (struct_has (l := [.named .u8, .bytes]) (by simp [of_named, bytes_has]))
  | signature => exact of_decl (struct_has (l := [.named .u8, .bytes]) (by simp [of_named, bytes_has]))
  | permissionLevel => exact of_decl (struct_has (l := [.chain .name, .chain .name]) (by simp [name]))
  | action => exact of_decl (struct_has (l := [.chain .name, .chain .name, .slice (.chain .permissionLevel), .chain .bytes]) (by simp [name, of_slice, bytes]))
  | transactionExtension => exact of_decl (struct_has (l := [.basic .u16, .chain .bytes]) (by simp [basic_has, bytes]))
  | transaction => exact of_decl (struct_has (l := [.chain .transactionHeader, .slice (.chain .action), .slice (.chain .action), .slice (.chain .transactionExtension)]) (by simp [header, of_slice]))
  | _ => exact of_decl (basic_has _)

mutual
/-- The specification gives every type written out in full a size. -/
theorem has_exists : (t : Ty) → t.Steady → ∃ s a, 0 < a ∧ t.Has s a
  | .basic b, _ => basic_has b
  | .named b, _ => of_named b
  | .unsupported, _ => ⟨16, 8, by decide, .unsupported⟩
  | .bytes, _ => bytes_has
  | .chain c, _ => chain_has c
  | .ptr _, _ => ⟨8, 8, by decide, .ptr⟩
  | .slice t, _ => of_slice t
  | .array n t, h => of_array n (has_exists t h)
  | .map _ _, _ => ⟨8, 8, by decide, .map⟩
  | .struct fs, h => by
    obtain ⟨l, h1, h2⟩ := have_exists fs h
    obtain ⟨s, a, h0, h3⟩ := structLayout_exists l h1
    exact ⟨s, a, h0, .struct h2 h3⟩
  | .ref _ _ _, h => nomatch h
theorem have_exists : (fs : Fields) → fs.Steady → ∃ l, (∀ f ∈ l, 0 < f.2) ∧ fs.Have l
  | .nil, _ => ⟨[], (fun _ h => nomatch h), .nil⟩
  | .cons _ _ t fs, h => by
    obtain ⟨s, a, h0, h1⟩ := has_exists t h.2.2.1
    obtain ⟨l', h2, h3⟩ := have_exists fs h.2.2.2
    exact ⟨(s, a) :: l', List.forall_mem_cons.2 ⟨h0, h2⟩, .cons h1 h3⟩
end

end Verif
