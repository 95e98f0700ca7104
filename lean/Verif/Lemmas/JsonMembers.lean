import Verif.Lemmas.JsonTypes
/-! # Any value marshals to JSON; the members of an object can be reordered -/
namespace Verif

theorem Pan.bind_eq {α β : Type} {p : Pan α} {f : α → Pan β} {b : β} (h : p.bind f = .val b) : ∃ a, p = .val a ∧ f a = .val b := by
  cases p with
  | val a => exact ⟨a, rfl, h⟩
  | panic w => cases h

theorem fine_each {α : Type} (f : α → Pan JVal) (n : Nat) (hf : ∀ x j, f x = .val j → j.Fine n) : (xs : List α) → (js : List JVal) → panEach f xs = .val js → fineList n js
  | [], js, h => by
    have h : Pan.val [] = .val js := h
    injection h with h; subst h; trivial
  | x :: xs, js, h => by
    obtain ⟨y, h1, h⟩ := Pan.bind_eq (f := fun y => (panEach f xs).bind fun ys => Pan.val (y :: ys)) h
    obtain ⟨ys, h2, h⟩ := Pan.bind_eq h
    injection h with h; subst h
    exact ⟨hf x y h1, fine_each f n hf xs ys h2⟩

theorem lit_plain (s : Bytes) (h : ∀ c ∈ s, 48 ≤ c.toNat ∧ c ≠ 92) : StrLit s := by
  induction s with
  | nil => exact .nil
  | cons c s ih =>
    have hc := h c (by simp)
    exact .char c s (by omega) (by rintro rfl; revert hc; decide) hc.2 (ih fun x hx => h x (by simp [hx]))

theorem sigStruct_fine (s : Sig) (n : Nat) (h : 1 ≤ n) : (sigStruct s).Fine n :=
  ⟨h, lit_plain _ (by decide), ⟨_, rfl⟩, lit_plain _ (by decide), lit_escape _, trivial⟩

mutual
theorem marshal_fine : (t : JTy) → (n : Nat) → (addr : Bool) → (v : t.Val) → (j : JVal) → t.depth ≤ n → t.marshal addr v = .val j → j.Fine n
  | .basic b, n, addr, v, j, _, h => by
    have h : Pan.val (b.marshal v) = .val j := h
    injection h with h; subst h
    cases b with
    | bool => trivial
    | string => exact lit_escape v
    | _ => exact ⟨_, rfl⟩
  | .text x, n, addr, v, j, hd, h => by
    have h : x.marshalJSON addr v = .val j := h
    unfold TextTy.marshalJSON at h
    split at h
    · injection h with h; subst h
      exact sigStruct_fine _ n hd
    · obtain ⟨s, _, h⟩ := Pan.bind_eq h
      injection h with h; subst h
      exact lit_escape s
  | .uint64, n, addr, v, j, _, h => by
    obtain ⟨j', h1, _, h3, _⟩ := writeUint_print v
    have h : Pan.val (compactJSON (writeUintJSON v)) = .val j := h
    injection h with h
    rw [← h.symm.trans h1] at h3
    exact h3 n
  | .blockNum, n, addr, v, j, _, h => by
    obtain ⟨j', h1, _, h3, _⟩ := writeUint_print (UInt32.toUInt64 v)
    have h : Pan.val (compactJSON (writeUintJSON (UInt32.toUInt64 v))) = .val j := h
    injection h with h
    rw [← h.symm.trans h1] at h3
    exact h3 n
  | .ptr t, n, addr, v, j, hd, h => by
    change Option t.Val at v
    cases v with
    | none =>
      have h : Pan.val JVal.null = .val j := h
      injection h with h; subst h; trivial
    | some x => exact marshal_fine t n true x j hd h
  | .slice t, n, addr, v, j, hd, h => by
    change Option (List t.Val) at v
    have hd : t.depth + 1 ≤ n := hd
    cases v with
    | none =>
      have h : Pan.val JVal.null = .val j := h
      injection h with h; subst h; trivial
    | some xs =>
      obtain ⟨ys, h1, h⟩ := Pan.bind_eq (p := panEach (t.marshal true) xs) (f := fun ys => Pan.val (JVal.arr ys)) h
      injection h with h; subst h
      exact ⟨by omega, fine_each _ _ (fun x j => marshal_fine t (n - 1) true x j (by omega)) xs ys h1⟩
  | .struct fs, n, addr, v, j, hd, h => by
    have hd : fs.depth + 1 ≤ n := hd
    obtain ⟨ms, h1, h⟩ := Pan.bind_eq (p := fs.marshal addr v) (f := fun ms => Pan.val (JVal.obj ms)) h
    injection h with h; subst h
    exact ⟨by omega, fields_fine fs (n - 1) addr v ms (by omega) h1⟩
theorem fields_fine : (fs : JFields) → (n : Nat) → (addr : Bool) → (v : fs.Val) → (ms : List (Bytes × JVal)) → fs.depth ≤ n → fs.marshal addr v = .val ms →
    fineMembers n ms
  | .nil, n, addr, v, ms, _, h => by
    have h : Pan.val [] = .val ms := h
    injection h with h; subst h; trivial
  | .cons key om t fs, n, addr, v, ms, hd, h => by
    obtain ⟨x, xs⟩ : t.Val × fs.Val := v
    have hd1 : t.depth ≤ n := Nat.le_trans (Nat.le_max_left _ _) hd
    have hd2 : fs.depth ≤ n := Nat.le_trans (Nat.le_max_right _ _) hd
    have h : (if om && t.isEmpty x then fs.marshal addr xs
      else (t.marshal addr x).bind fun y => (fs.marshal addr xs).bind fun ys => .val ((escapeStr key, y) :: ys)) = .val ms := h
    split at h
    · exact fields_fine fs n addr xs ms hd2 h
    · obtain ⟨y, h1, h⟩ := Pan.bind_eq h
      obtain ⟨ys, h2, h⟩ := Pan.bind_eq h
      injection h with h; subst h
      exact ⟨lit_escape key, marshal_fine t n addr x y hd1 h1, fields_fine fs n addr xs ys hd2 h2⟩
end

/-! ## Members -/

theorem findIdx_none (p : Bytes → Bool) : (fs : JFields) → (∀ k ∈ fs.keys, p k = false) → fs.findIdx p = none
  | .nil, _ => rfl
  | .cons key om t fs, h => by
    rw [JFields.findIdx, h key (by simp [JFields.keys]), findIdx_none p fs fun k hk => h k (by simp [JFields.keys, hk])]
    rfl
theorem find_unknown (fs : JFields) (k : Bytes) (h : ∀ key ∈ fs.keys, foldKey key ≠ foldKey k) : fs.find k = none := by
  unfold JFields.find
  rw [findIdx_none _ fs (fun key hk => by simp only [beq_eq_false_iff_ne]; rintro rfl; exact h key hk rfl)]
  exact findIdx_none _ fs fun key hk => by simpa using h key hk

theorem members_skip (sha : Sha256) (fs : JFields) (k : Bytes) (j : JVal) (b : List (Bytes × JVal)) (h : fs.find (unquote k) = none) :
    (a : List (Bytes × JVal)) → (v : fs.Val) → membersFrom (fs.set sha) (a ++ (k, j) :: b) v = membersFrom (fs.set sha) (a ++ b) v
  | [], v => by
    have e : fs.set sha v (unquote k) j = .val (v, .ok) := by simp [JFields.set, h]
    rw [List.nil_append, List.nil_append, members_cons, e, Pan.bind_val, if_neg (by simp)]
    cases membersFrom (fs.set sha) b v with
    | val r => rfl
    | panic w => rfl
  | (k', j') :: a, v => by
    rw [List.cons_append, List.cons_append, members_cons, members_cons]
    congr 1
    funext p
    rw [members_skip sha fs k j b h a p.1]

theorem and_ok {a b : JErr} (h : a.and b = .ok) : a = .ok ∧ b = .ok := by
  cases a <;> cases b <;> simp_all [JErr.and]

theorem members_ok {α : Type} {set : α → Bytes → JVal → Pan (α × JErr)} {k : Bytes} {j : JVal} {v w : α} {ms : List (Bytes × JVal)}
    (h : membersFrom set ((k, j) :: ms) v = .val (w, .ok)) : ∃ u, set v (unquote k) j = .val (u, .ok) ∧ membersFrom set ms u = .val (w, .ok) := by
  rw [members_cons] at h
  obtain ⟨⟨u, e⟩, h1, h⟩ := Pan.bind_eq h
  dsimp only at h
  split at h
  · injection h with h; injection h with _ h; cases h
  · obtain ⟨⟨w', e'⟩, h2, h⟩ := Pan.bind_eq h
    injection h with h
    injection h with ha hb
    obtain ⟨rfl, he⟩ := and_ok hb
    dsimp only at he ha
    subst he; subst ha
    exact ⟨u, h1, h2⟩

theorem at_comm (sha : Sha256) : (fs : JFields) → (i k : Nat) → i ≠ k → (v u w : fs.Val) → (a b : JVal) → fs.unmarshalAt sha i v a = .val (u, .ok) →
    fs.unmarshalAt sha k u b = .val (w, .ok) → ∃ u', fs.unmarshalAt sha k v b = .val (u', .ok) ∧ fs.unmarshalAt sha i u' a = .val (w, .ok)
  | .nil, i, k, _, v, u, w, a, b, _, _ => ⟨w, rfl, rfl⟩
  | .cons key om t fs, 0, 0, h, _, _, _, _, _, _, _ => absurd rfl h
  | .cons key om t fs, 0, k + 1, _, v, u, w, a, b, h1, h2 => by
    obtain ⟨x, xs⟩ : t.Val × fs.Val := v
    obtain ⟨⟨y, e⟩, g1, g2⟩ := Pan.bind_eq (p := t.unmarshal sha x a) (f := fun r => Pan.val (((r.1, xs) : t.Val × fs.Val), r.2)) h1
    injection g2 with g2
    injection g2 with ga gb
    change e = .ok at gb
    subst ga; subst gb
    obtain ⟨⟨ys, e⟩, g3, g4⟩ := Pan.bind_eq (p := fs.unmarshalAt sha k xs b) (f := fun r => Pan.val (((y, r.1) : t.Val × fs.Val), r.2)) h2
    injection g4 with g4
    injection g4 with ga gb
    change e = .ok at gb
    subst ga; subst gb
    refine ⟨((x, ys) : t.Val × fs.Val), ?_, ?_⟩
    · show (fs.unmarshalAt sha k xs b).bind _ = _
      rw [g3]; rfl
    · show (t.unmarshal sha x a).bind _ = _
      rw [g1]; rfl
  | .cons key om t fs, i + 1, 0, _, v, u, w, a, b, h1, h2 => by
    obtain ⟨x, xs⟩ : t.Val × fs.Val := v
    obtain ⟨⟨ys, e⟩, g1, g2⟩ := Pan.bind_eq (p := fs.unmarshalAt sha i xs a) (f := fun r => Pan.val (((x, r.1) : t.Val × fs.Val), r.2)) h1
    injection g2 with g2
    injection g2 with ga gb
    change e = .ok at gb
    subst ga; subst gb
    obtain ⟨⟨y, e⟩, g3, g4⟩ := Pan.bind_eq (p := t.unmarshal sha x b) (f := fun r => Pan.val (((r.1, ys) : t.Val × fs.Val), r.2)) h2
    injection g4 with g4
    injection g4 with ga gb
    change e = .ok at gb
    subst ga; subst gb
    refine ⟨((y, xs) : t.Val × fs.Val), ?_, ?_⟩
    · show (t.unmarshal sha x b).bind _ = _
      rw [g3]; rfl
    · show (fs.unmarshalAt sha i xs a).bind _ = _
      rw [g1]; rfl
  | .cons key om t fs, i + 1, k + 1, hne, v, u, w, a, b, h1, h2 => by
    obtain ⟨x, xs⟩ : t.Val × fs.Val := v
    obtain ⟨⟨ys, e⟩, g1, g2⟩ := Pan.bind_eq (p := fs.unmarshalAt sha i xs a) (f := fun r => Pan.val (((x, r.1) : t.Val × fs.Val), r.2)) h1
    injection g2 with g2
    injection g2 with ga gb
    change e = .ok at gb
    subst ga; subst gb
    obtain ⟨⟨zs, e⟩, g3, g4⟩ := Pan.bind_eq (p := fs.unmarshalAt sha k ys b) (f := fun r => Pan.val (((x, r.1) : t.Val × fs.Val), r.2)) h2
    injection g4 with g4
    injection g4 with ga gb
    change e = .ok at gb
    subst ga; subst gb
    obtain ⟨us, e1, e2⟩ := at_comm sha fs i k (by omega) xs ys zs a b g1 g3
    refine ⟨((x, us) : t.Val × fs.Val), ?_, ?_⟩
    · show (fs.unmarshalAt sha k xs b).bind _ = _
      rw [e1]; rfl
    · show (fs.unmarshalAt sha i us a).bind _ = _
      rw [e2]; rfl

theorem set_comm (sha : Sha256) (fs : JFields) (k l : Bytes) (a b : JVal) (hkl : fs.find k = none ∨ fs.find k ≠ fs.find l) (v u w : fs.Val)
    (h1 : fs.set sha v k a = .val (u, .ok)) (h2 : fs.set sha u l b = .val (w, .ok)) :
    ∃ u', fs.set sha v l b = .val (u', .ok) ∧ fs.set sha u' k a = .val (w, .ok) := by
  cases hk : fs.find k with
  | none =>
    have e : ∀ v, fs.set sha v k a = .val (v, .ok) := fun v => by simp [JFields.set, hk]
    rw [e] at h1
    injection h1 with h1; injection h1 with h1
    subst h1
    exact ⟨w, h2, e w⟩
  | some i =>
    cases hl : fs.find l with
    | none =>
      have e : ∀ v, fs.set sha v l b = .val (v, .ok) := fun v => by simp [JFields.set, hl]
      rw [e] at h2
      injection h2 with h2; injection h2 with h2
      subst h2
      exact ⟨v, e v, h1⟩
    | some m =>
      rw [set_of hk] at h1
      rw [set_of hl] at h2
      have hne : i ≠ m := by
        rintro rfl
        rcases hkl with h | h
        · rw [hk] at h; cases h
        · exact h (hk.trans hl.symm)
      obtain ⟨u', e1, e2⟩ := at_comm sha fs i m hne v u w a b h1 h2
      exact ⟨u', (set_of hl).trans e1, (set_of hk).trans e2⟩

/-- No two members are for the same field. -/
def JFields.Apart (fs : JFields) (ms : List (Bytes × JVal)) : Prop :=
  ms.Pairwise fun p q => fs.find (unquote p.1) = none ∨ fs.find (unquote p.1) ≠ fs.find (unquote q.1)

theorem findIdx_some (p : Bytes → Bool) : (fs : JFields) → (i : Nat) → fs.findIdx p = some i → ∃ key, fs.keys[i]? = some key ∧ p key = true
  | .nil, i, h => by cases h
  | .cons key om t fs, i, h => by
    rw [JFields.findIdx] at h
    split at h
    · rename_i hp
      injection h with h; subst h
      exact ⟨key, rfl, hp⟩
    · obtain ⟨j, hj, rfl⟩ := Option.map_eq_some_iff.mp h
      obtain ⟨k, h1, h2⟩ := findIdx_some p fs j hj
      exact ⟨k, by simpa [JFields.keys] using h1, h2⟩
theorem find_fold (fs : JFields) (k : Bytes) (i : Nat) (h : fs.find k = some i) : ∃ key, fs.keys[i]? = some key ∧ foldKey key = foldKey k := by
  unfold JFields.find at h
  split at h
  · rename_i hi
    injection h with h; subst h
    obtain ⟨key, h1, h2⟩ := findIdx_some _ fs _ hi
    exact ⟨key, h1, by rw [eq_of_beq h2]⟩
  · obtain ⟨key, h1, h2⟩ := findIdx_some _ fs _ h
    exact ⟨key, h1, eq_of_beq h2⟩
theorem apart_of_fold (fs : JFields) (ms : List (Bytes × JVal)) (h : ms.Pairwise fun p q => foldKey (unquote p.1) ≠ foldKey (unquote q.1)) : fs.Apart ms := by
  refine h.imp fun {p q} hne => ?_
  cases hp : fs.find (unquote p.1) with
  | none => exact Or.inl rfl
  | some i =>
    refine Or.inr fun e => hne ?_
    obtain ⟨a, a1, a2⟩ := find_fold fs _ i hp
    obtain ⟨b, b1, b2⟩ := find_fold fs _ i e.symm
    rw [a1] at b1
    injection b1 with b1
    rw [← a2, b1, b2]

theorem members_perm (sha : Sha256) (fs : JFields) {ms ms' : List (Bytes × JVal)} (hp : ms.Perm ms') :
    fs.Apart ms → ∀ v w, membersFrom (fs.set sha) ms v = .val (w, .ok) → membersFrom (fs.set sha) ms' v = .val (w, .ok) := by
  have symm : ∀ p q : Bytes × JVal, (fs.find (unquote p.1) = none ∨ fs.find (unquote p.1) ≠ fs.find (unquote q.1)) →
      (fs.find (unquote q.1) = none ∨ fs.find (unquote q.1) ≠ fs.find (unquote p.1)) := by
    intro p q h
    by_cases hq : fs.find (unquote q.1) = none
    · exact Or.inl hq
    · refine Or.inr fun e => ?_
      rcases h with h | h
      · exact hq (e.trans h)
      · exact h e.symm
  induction hp with
  | nil => intro _ v w h; exact h
  | cons p hp ih =>
    intro ha v w h
    obtain ⟨u, h1, h2⟩ := members_ok h
    exact members_step h1 (by simp) (ih (List.pairwise_cons.mp ha).2 u w h2)
  | swap p q ms =>
    intro ha v w h
    obtain ⟨u, h1, h2⟩ := members_ok h
    obtain ⟨x, h3, h4⟩ := members_ok h2
    obtain ⟨u', e1, e2⟩ := set_comm sha fs _ _ _ _ ((List.pairwise_cons.mp ha).1 p (by simp)) v u x h1 h3
    exact members_step e1 (by simp) (members_step e2 (by simp) h4)
  | trans hp _ ih1 ih2 =>
    intro ha v w h
    exact ih2 ((hp.pairwise_iff (fun {p q} h => symm p q h)).mp ha) v w (ih1 ha v w h)

end Verif
