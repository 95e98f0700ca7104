import Verif.Spec.EmbedTakes
import Verif.Props.Embed
import Verif.Props.MethodTakes
/-! # C120: exactly which bytes are accepted for types with structs that embed a type of package chain -/
namespace Verif

theorem embedTakes_skip (vis : Vis) (tag : Tag) (t : Ty) (fs : Fields) (e : Bool) (emb : List Bool) (x : t.Val) (xs : fs.Val) (w : Bytes) (he : ¬ (e && t.hasMethods) = true) :
    (Fields.cons vis tag t fs).EmbedTakes (e :: emb) ((x, xs) : t.Val × fs.Val) w ↔ x = t.zero ∧ fs.EmbedTakes emb xs w := by
  cases e with
  | false => cases t <;> exact Iff.rfl
  | true =>
    cases t
    case chain => exact absurd rfl he
    case ptr t => cases t <;> first | exact absurd rfl he | exact Iff.rfl
    all_goals exact Iff.rfl

theorem unmarshalNil_never (c : ChainTy) (fin : Err) (bs r : Bytes) : c.unmarshalNil.runE fin bs ≠ .ok none r := fun h => by
  obtain ⟨_, e, he, _⟩ := unmarshalNil_like c c.zero h
  cases he

theorem unmarshalPromoted_exactly : (fs : Fields) → (emb : List Bool) → fs.promoters emb = 1 → (fs.unmarshalPromoted emb fs.zero).Exactly (fs.EmbedTakes emb)
  | .nil, _, h => by cases h
  | .cons _ _ _ _, [], h => by cases h
  | .cons vis tag t fs, e :: emb, h => by
    by_cases he : (e && t.hasMethods) = true
    · have he' : e = true ∧ t.hasMethods = true := by simpa using he
      obtain ⟨rfl, ht⟩ := he'
      cases t
      case chain c =>
        refine ((C80_chain c c.zero (clean_zero (.chain c))).map (g := fun y => ((y, fs.zero) : c.Val × fs.Val)) (fun _ => rfl) fun _ _ => ⟨_, _, rfl⟩).iff fun v w => ?_
        obtain ⟨x, xs⟩ : c.Val × fs.Val := v
        constructor
        · rintro ⟨b, hb, h⟩
          cases h
          exact ⟨rfl, hb⟩
        · rintro ⟨h1, h2⟩
          cases h1
          exact ⟨x, h2, rfl⟩
      case ptr t =>
        cases t
        case chain c =>
          intro fin bs v r
          constructor
          · intro h'
            have h' : (Dec.bind c.unmarshalNil fun p => Dec.ret ((((none : Option c.Val), fs.zero) : Option c.Val × fs.Val), p)).runE fin bs = .ok (v, none) r := h'
            obtain ⟨a, ha, e⟩ := map_run h'
            cases e
            exact absurd ha (unmarshalNil_never c fin bs r)
          · rintro ⟨w, _, h⟩
            exact h.elim
        all_goals cases ht
      all_goals cases ht
    · have h1 : fs.promoters emb = 1 := by
        simp only [Fields.promoters, if_neg he] at h
        omega
      have ih := unmarshalPromoted_exactly fs emb h1
      intro fin bs v r
      obtain ⟨x, xs⟩ : t.Val × fs.Val := v
      have hm := (ih.map (f := fun p => Dec.ret (((t.zero, p.1) : t.Val × fs.Val), p.2)) (g := fun y => ((t.zero, y) : t.Val × fs.Val)) (fun _ => rfl) fun _ _ => ⟨_, _, rfl⟩) fin bs (x, xs) r
      refine (iff_of_eq (congrArg (fun d : Dec ((t.Val × fs.Val) × Option Err) => d.runE fin bs = .ok ((x, xs), none) r) (unmarshalPromoted_skip vis tag t fs e emb t.zero fs.zero he))).trans (hm.trans ?_)
      constructor
      · rintro ⟨w, hw, b, hb, h⟩
        cases h
        exact ⟨w, hw, (embedTakes_skip vis tag t fs e emb t.zero xs w he).2 ⟨rfl, hb⟩⟩
      · rintro ⟨w, hw, h⟩
        obtain ⟨h1, h2⟩ := (embedTakes_skip vis tag t fs e emb x xs w he).1 h
        exact ⟨w, hw, xs, h2, by rw [h1]⟩

theorem embedding_exact (emb : Nat → List Bool) : (embedding emb).Exact (embedAccepted emb) := by
  intro i t
  cases t
  case struct fs =>
    by_cases h : fs.bare.promoters (emb i) = 1
    · have h1 : embedAccepted emb i (.struct fs) = some (fs.bare.EmbedTakes (emb i)) := if_pos h
      have h2 : (embedding emb i (.struct fs)).unmarshal = some (fs.bare.unmarshalPromoted (emb i)) := congrArg TypeMethods.unmarshal (if_pos h)
      rw [h1]
      exact ⟨_, h2, unmarshalPromoted_exactly fs.bare (emb i) h⟩
    · have h1 : embedAccepted emb i (.struct fs) = none := if_neg h
      have h2 : (embedding emb i (.struct fs)).unmarshal = none := congrArg TypeMethods.unmarshal (if_neg h)
      rw [h1]
      exact h2
  all_goals rfl

/-- Decode into a new variable of a type with such structs at any depth -/
theorem C120_decode (emb : Nat → List Bool) (t : MTy) (ht : t.Strait) : (decodeM (embedding emb) t .decode t.bare.zero).Exactly (t.Takes (embedAccepted emb) .decode) :=
  C117_decode _ _ (embedding_exact emb) t ht

/-- A declared struct itself: what the embedded type accepts, and nothing for the other fields -/
theorem C120_struct (emb : Nat → List Bool) (i : Nat) (fs : MFields) (h : fs.bare.promoters (emb i) = 1) :
    (decodeM (embedding emb) (.own i (.struct fs)) .decode fs.bare.zero).Exactly (fs.bare.EmbedTakes (emb i)) := by
  have h2 : (embedding emb i (.struct fs)).unmarshal = some (fs.bare.unmarshalPromoted (emb i)) := congrArg TypeMethods.unmarshal (if_pos h)
  have : decodeM (embedding emb) (.own i (.struct fs)) .decode fs.bare.zero = fs.bare.unmarshalPromoted (emb i) fs.bare.zero :=
    (decodeM_own (embedding emb) i (.struct fs) .decode fs.bare.zero).trans (by rw [h2])
  exact this ▸ unmarshalPromoted_exactly fs.bare (emb i) h

/-- DecodeVariant with such alternatives -/
theorem C120_variant (emb : Nat → List Bool) (ts : List MTy) (ht : ∀ t ∈ ts, t.Strait) (old : (variantFields ts).bare.Val) :
    (decodeVariantM (embedding emb) (.struct (variantFields ts)) old).Exactly fun v w => ∃ (idx : UInt8) (t : MTy) (x : t.bare.Val) (b : Bytes),
      w = idx :: b ∧ ts[idx.toNat]? = some t ∧ Chosen t x ts idx.toNat v ∧ t.Takes (embedAccepted emb) .decode x b :=
  C117_variant _ _ (embedding_exact emb) ts ht old

/-! ### Examples -/

/-- struct { A uint8; chain.Name } and struct { A uint8; *chain.Name }, the second field embedded -/
def withName : MFields := .cons .none (.plain (.basic .u8)) (.cons .none (.plain (.chain .name)) .nil)
def withPointer : MFields := .cons .none (.plain (.basic .u8)) (.cons .none (.plain (.ptr (.chain .name))) .nil)

def secondEmbedded : Nat → List Bool := fun _ => [false, true]

example : withName.bare.promoters (secondEmbedded 0) = 1 ∧ withPointer.bare.promoters (secondEmbedded 0) = 1 := ⟨rfl, rfl⟩
example : (MTy.slice (.own 0 (.struct withName))).Strait := ⟨nofun, nofun, trivial, nofun, trivial, trivial⟩
/-- The nine bytes of the fields of one struct are not what is accepted: the first eight are the name, the last one is not read -/
example : (decodeM (embedding secondEmbedded) (.own 0 (.struct withName)) .decode withName.bare.zero).run [7, 1, 0, 0, 0, 0, 0, 0, 0] =
    .ok (((0, 263, ()) : UInt8 × UInt64 × Unit), none) [0] := rfl
/-- With an embedded pointer, nothing is accepted at all -/
example (fin : Err) (bs r : Bytes) (v : withPointer.bare.Val) :
    (decodeM (embedding secondEmbedded) (.own 0 (.struct withPointer)) .decode withPointer.bare.zero).runE fin bs ≠ .ok (v, none) r := fun h => by
  obtain ⟨w, _, _, h⟩ := (C120_struct secondEmbedded 0 withPointer rfl fin bs v r).1 h
  exact h

end Verif
