import Verif.Lemmas.AbiBuiltin
/-! # Leaving out the entries that are not fields -/
namespace Verif

theorem restricts_nil {v w : AV} (h : Restricts v w) : v = .nil ↔ w = .nil := by
  cases h with
  | same => rfl
  | slice _ => exact ⟨(fun h => nomatch h), (fun h => nomatch h)⟩
  | map _ => exact ⟨(fun h => nomatch h), (fun h => nomatch h)⟩

/-- Like `Members`, entry by entry. -/
inductive Pointwise (a : Abi) (B : Bytes → AV → Bytes → Prop) : List AbiField → List (Bytes × AV) → Bytes → Prop
  | nil : Pointwise a B [] [] []
  | cons {f : AbiField} {fs : List AbiField} {m : List (Bytes × AV)} {x : AV} {b1 b2 : Bytes} : Wire a B true f.type x b1 → Pointwise a B fs m b2 →
    Pointwise a B (f :: fs) ((f.name, x) :: m) (b1 ++ b2)

theorem pointwise_names {a : Abi} {B : Bytes → AV → Bytes → Prop} {fs : List AbiField} {m : List (Bytes × AV)} {bs : Bytes} (h : Pointwise a B fs m bs) :
    m.map Prod.fst = fs.map AbiField.name := by
  induction h with
  | nil => rfl
  | cons _ _ ih => simp [ih]

theorem pointwise_members {a : Abi} {B : Bytes → AV → Bytes → Prop} {fs : List AbiField} {m : List (Bytes × AV)} {bs : Bytes} (h : Pointwise a B fs m bs) :
    ∀ pre : List (Bytes × AV), ((pre ++ m).map Prod.fst).Nodup → Members a B true fs (pre ++ m) bs := by
  induction h with
  | nil => intro _ _; exact .nil
  | @cons f fs m x b1 b2 hw _ ih =>
    intro pre hn
    have h2 := ih (pre ++ [(f.name, x)])
    rw [List.append_assoc, List.singleton_append] at h2
    refine .cons (.inl ⟨rfl, pre, m, rfl, fun e he e' => ?_⟩) hw (h2 hn)
    rw [List.map_append, List.nodup_append] at hn
    exact hn.2.2 f.name (List.mem_map.2 ⟨e, he, e'⟩) f.name (by simp) rfl

section
variable {a : Abi} {B : Bytes → AV → Bytes → Prop} (hd : a.DistinctFields)
include hd

mutual
theorem wire_exact {n : Bytes} {v : AV} {bs : Bytes} (h : Wire a B false n v bs) : ∃ w, Restricts v w ∧ Wire a B true n w bs := by
  match h with
  | .absent hs => exact ⟨_, .same, .absent hs⟩
  | .present hs hv hb =>
    obtain ⟨w, h1, h2⟩ := body_exact hb
    exact ⟨w, h1, .present hs (fun e => hv ((restricts_nil h1).2 e)) h2⟩
  | .plain hs hv hb =>
    obtain ⟨w, h1, h2⟩ := body_exact hb
    exact ⟨w, h1, .plain hs (fun e => hv ((restricts_nil h1).2 e)) h2⟩
theorem body_exact {b : Bytes} {arr : Bool} {v : AV} {bs : Bytes} (h : Body a B false b arr v bs) : ∃ w, Restricts v w ∧ Body a B true b arr w bs := by
  match h with
  | .one hi =>
    obtain ⟨w, h1, h2⟩ := inner_exact hi
    exact ⟨w, h1, .one h2⟩
  | .many hc hi =>
    obtain ⟨ys, h1, h2, h3⟩ := items_exact hi
    exact ⟨.slice ys, .slice h1, .many (by rw [h3]; exact hc) h2⟩
theorem items_exact {b : Bytes} {xs : List AV} {bs : Bytes} (h : Items a B false b xs bs) : ∃ ys, RestrictsAll xs ys ∧ Items a B true b ys bs ∧ ys.length = xs.length := by
  match h with
  | .nil => exact ⟨[], .nil, .nil, rfl⟩
  | .cons hx hxs =>
    obtain ⟨y, h1, h2⟩ := inner_exact hx
    obtain ⟨ys, h3, h4, h5⟩ := items_exact hxs
    exact ⟨y :: ys, .cons h1 h3, .cons h2 h4, by simp [h5]⟩
theorem inner_exact {b : Bytes} {v : AV} {bs : Bytes} (h : Inner a B false b v bs) : ∃ w, Restricts v w ∧ Inner a B true b w bs := by
  match h with
  | .alias hi hw =>
    obtain ⟨w, h1, h2⟩ := wire_exact hw
    exact ⟨w, h1, .alias hi h2⟩
  | .struct hf hm _ =>
    obtain ⟨m', h1, h2⟩ := members_exact hm
    have hn : (m'.map Prod.fst).Nodup := by rw [pointwise_names h2]; exact hd _ _ hf
    exact ⟨.map m', .map h1, .struct hf (pointwise_members h2 [] hn) fun _ => ⟨pointwise_names h2, hn⟩⟩
  | .variant hi hv ht hc hw =>
    obtain ⟨w, h1, h2⟩ := wire_exact hw
    exact ⟨_, .slice (.cons .same (.cons h1 .nil)), .variant hi hv ht hc h2⟩
  | .builtin hi hb => exact ⟨_, .same, .builtin hi hb⟩
  | .hollow hs hf hb => exact ⟨_, .same, .hollow hs hf hb⟩
theorem members_exact {fs : List AbiField} {m : List (Bytes × AV)} {bs : Bytes} (h : Members a B false fs m bs) : ∃ m', RestrictsEntries m m' ∧ Pointwise a B fs m' bs := by
  match h with
  | .nil => exact ⟨[], .nil, .nil⟩
  | .cons (f := f) he hw hm =>
    obtain ⟨w, h1, h2⟩ := wire_exact hw
    obtain ⟨m', h3, h4⟩ := members_exact hm
    exact ⟨(f.name, w) :: m', .cons he h1 h3, .cons h2 h4⟩
end
end

/-! A value in exact form is also a value. -/

mutual
theorem wire_loose {a : Abi} {B : Bytes → AV → Bytes → Prop} {n : Bytes} {v : AV} {bs : Bytes} (h : Wire a B true n v bs) : Wire a B false n v bs := by
  match h with
  | .absent hs => exact .absent hs
  | .present hs hv hb => exact .present hs hv (body_loose hb)
  | .plain hs hv hb => exact .plain hs hv (body_loose hb)
theorem body_loose {a : Abi} {B : Bytes → AV → Bytes → Prop} {b : Bytes} {arr : Bool} {v : AV} {bs : Bytes} (h : Body a B true b arr v bs) : Body a B false b arr v bs := by
  match h with
  | .one hi => exact .one (inner_loose hi)
  | .many hc hi => exact .many hc (items_loose hi)
theorem items_loose {a : Abi} {B : Bytes → AV → Bytes → Prop} {b : Bytes} {xs : List AV} {bs : Bytes} (h : Items a B true b xs bs) : Items a B false b xs bs := by
  match h with
  | .nil => exact .nil
  | .cons hx hxs => exact .cons (inner_loose hx) (items_loose hxs)
theorem inner_loose {a : Abi} {B : Bytes → AV → Bytes → Prop} {b : Bytes} {v : AV} {bs : Bytes} (h : Inner a B true b v bs) : Inner a B false b v bs := by
  match h with
  | .alias hi hw => exact .alias hi (wire_loose hw)
  | .struct hf hm _ => exact .struct hf (members_loose hm) (fun e => nomatch e)
  | .variant hi hv ht hc hw => exact .variant hi hv ht hc (wire_loose hw)
  | .builtin hi hb => exact .builtin hi hb
  | .hollow hs hf hb => exact .hollow hs hf hb
theorem members_loose {a : Abi} {B : Bytes → AV → Bytes → Prop} {fs : List AbiField} {m : List (Bytes × AV)} {bs : Bytes} (h : Members a B true fs m bs) :
    Members a B false fs m bs := by
  match h with
  | .nil => exact .nil
  | .cons he hw hm => exact .cons he (wire_loose hw) (members_loose hm)
end

theorem noShort_resolves {a : Abi} {n : Bytes} (h : a.NoShort n) : ∃ ts, resolve a n = .val ts := by
  cases hr : resolve a n with
  | val ts => exact ⟨ts, rfl⟩
  | panic =>
    obtain ⟨m, h1, h2⟩ := (C46_panics_iff a n).1 hr
    exact absurd h2 (h m h1)
  | diverge => exact absurd hr (C46_terminates a n).1

end Verif
