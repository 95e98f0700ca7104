import Verif.Lemmas.MethodTakes
import Verif.Props.Takes
import Verif.Props.MethodVariants
/-! # C117: exactly which bytes Decode accepts for types with methods -/
namespace Verif

/-- Decode(&x) for a new variable x: what is accepted, as what, and where the reading ends -/
theorem C117_decode (M : Program) (A : Accepted) (hM : M.Exact A) (t : MTy) (ht : t.Strait) : (decodeM M t .decode t.bare.zero).Exactly (t.Takes A .decode) := decodeM_exactly hM t ht .decode

/-- DecodeVariant into a struct of pointers to the alternatives, whatever it holds -/
theorem C117_variant (M : Program) (A : Accepted) (hM : M.Exact A) (ts : List MTy) (ht : ∀ t ∈ ts, t.Strait) (old : (variantFields ts).bare.Val) :
    (decodeVariantM M (.struct (variantFields ts)) old).Exactly fun v w => ∃ (idx : UInt8) (t : MTy) (x : t.bare.Val) (b : Bytes),
      w = idx :: b ∧ ts[idx.toNat]? = some t ∧ Chosen t x ts idx.toNat v ∧ t.Takes A .decode x b := by
  intro fin bs a r
  cases bs with
  | nil =>
    refine (iff_of_eq (congrArg (fun o : Out ((variantFields ts).bare.Val × Option Err) => o = .ok (a, none) r) (decodeVariantM_nil M (.struct (variantFields ts)) old fin))).trans ?_
    constructor
    · intro h; cases h
    · rintro ⟨w, h, idx, t, x, b, rfl, _⟩
      cases h
  | cons idx bs =>
    refine (iff_of_eq (congrArg (fun o : Out ((variantFields ts).bare.Val × Option Err) => o = .ok (a, none) r) (decodeVariantM_cons M (.struct (variantFields ts)) old fin idx bs))).trans ?_
    cases hi : ts[idx.toNat]? with
    | none =>
      have key := variantM_struct M (variantFields ts) idx.toNat old
      rw [count_variantFields, if_pos (List.getElem?_eq_none_iff.mp hi)] at key
      refine (iff_of_eq (congrArg (fun o : Out ((variantFields ts).bare.Val × Option Err) => o = .ok (a, none) r) (congrArg (fun d => Dec.runE fin d bs) key))).trans ?_
      constructor
      · intro h; cases h
      · rintro ⟨w, h, idx', t, x, b, rfl, h1, _⟩
        cases h
        rw [hi] at h1
        cases h1
    | some t =>
      obtain ⟨hlt, hm⟩ := List.getElem?_eq_some_iff.mp hi
      obtain ⟨c, h1, h2⟩ := clear_exactly (M := M) ts idx.toNat t hi old
      have key := variantM_struct M (variantFields ts) idx.toNat old
      rw [count_variantFields, if_neg (by omega), h1] at key
      refine (iff_of_eq (congrArg (fun o : Out ((variantFields ts).bare.Val × Option Err) => o = .ok (a, none) r) (congrArg (fun d => Dec.runE fin d bs) key))).trans ?_
      refine (h2 (decodeM_exactly hM t (ht t (hm ▸ List.getElem_mem hlt)) .decode) fin bs a r).trans ⟨?_, ?_⟩
      · rintro ⟨w, rfl, z, hc, hz⟩
        exact ⟨idx :: w, rfl, idx, t, z, w, rfl, hi, hc, hz⟩
      · rintro ⟨w, h, idx', t', x, b, rfl, h3, hc, hz⟩
        cases h
        rw [hi] at h3
        cases h3
        exact ⟨b, rfl, x, hc, hz⟩

/-- Accepted byte strings have one meaning, and none is a proper prefix of another. -/
theorem C117_prefix_free (M : Program) (A : Accepted) (hM : M.Exact A) (t : MTy) (ht : t.Strait) (v v' : t.bare.Val) (w r : Bytes) (h1 : t.Takes A .decode v w) (h2 : t.Takes A .decode v' (w ++ r)) :
    r = [] ∧ v = v' := exactly_prefix (C117_decode M A hM t ht) h1 h2

/-! ### An example -/

/-- The program of Props/Methods: any byte is A + 1 -/
def oneMore : Accepted := fun _ t =>
  match t with
  | .struct (.cons .none (.plain (.basic .u8)) .nil) => some fun v bs => bs = [(show UInt8 × Unit from v).1 + 1]
  | _ => none

theorem shifting_exact : (shifting .value).Exact oneMore := by
  intro i t
  unfold oneMore
  split
  · next f hf =>
    split at hf
    · cases hf
      refine ⟨_, rfl, ?_⟩
      refine (readByte_exactly.map (g := fun b => ((b - 1, ()) : UInt8 × Unit)) (fun _ => rfl) fun _ _ => ⟨_, _, rfl⟩).iff fun v w => ?_
      obtain ⟨a, u⟩ : UInt8 × Unit := v
      constructor
      · rintro ⟨b, rfl, h⟩
        cases h
        show [b] = [b - 1 + 1]
        rw [UInt8.sub_add_cancel]
      · intro h
        exact ⟨a + 1, h, by rw [UInt8.add_sub_cancel]⟩
    · cases hf
  · next hf =>
    split at hf
    · cases hf
    · next h =>
      unfold shifting
      split
      · exact absurd rfl h
      · rfl

example : nestedBytes.Strait := ⟨nofun, ⟨nofun, nofun, trivial, trivial⟩, nofun, ⟨nofun, nofun, trivial, trivial⟩, nofun, ⟨nofun, nofun, trivial, trivial⟩, trivial⟩
example : ∀ t ∈ eitherOr, t.Strait := by
  intro t h
  simp only [eitherOr, List.mem_cons, List.not_mem_nil, or_false] at h
  rcases h with rfl | rfl
  · exact ⟨nofun, nofun, trivial, trivial⟩
  · trivial
/-- The number of elements need not be minimal, the presence byte not 1 -/
example : (decodeM (shifting .value) nestedBytes .decode nestedBytes.bare.zero).run [0x81, 0, 6, 8, 2, 1, 77] =
    .ok (((some [(5, ())], some (7, ()), (0, ()), ()) : Option (List (UInt8 × Unit)) × Option (UInt8 × Unit) × (UInt8 × Unit) × Unit), none) [77] := rfl

end Verif
