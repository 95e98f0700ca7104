import Verif.Spec.JsonRead
import Verif.Lemmas.JsonMembers
/-! # Reading documents, declaratively -/
namespace Verif

theorem Pan.bind_iff {α β : Type} {p : Pan α} {f : α → Pan β} {b : β} : p.bind f = .val b ↔ ∃ a, p = .val a ∧ f a = .val b :=
  ⟨Pan.bind_eq, fun ⟨a, h1, h2⟩ => by rw [h1]; exact h2⟩

/-! ## Leaves -/

theorem storeUint_iff {α : Type} (bits : Nat) (hb : bits ≤ 64) (conv : Nat → α) (toNat : α → Nat) (h1 : ∀ n, n < 2 ^ bits → toNat (conv n) = n)
    (h2 : ∀ a, conv (toNat a) = a) (old new : α) (j : JVal) : storeUint bits conv old j = (new, .ok) ↔ ReadsNat bits toNat old j new := by
  have hp : 2 ^ bits ≤ 2 ^ 64 := Nat.pow_le_pow_right (by decide) hb
  unfold ReadsNat
  cases j with
  | null => simp [storeUint, eq_comm]
  | num l =>
    simp only [storeUint, reduceCtorEq, false_and, false_or, JVal.num.injEq]
    constructor
    · intro h
      split at h
      · rename_i n hn
        split at h
        · rename_i hlt
          obtain ⟨e1, e2, e3, e4⟩ := (parseUint_iff 64 l n).mp hn
          injection h with h _
          subst h
          exact ⟨l, rfl, e1, e2, by rw [h1 n hlt, e4], by rw [← e4]; exact hlt⟩
        · injection h with _ h; cases h
      · injection h with _ h; cases h
    · rintro ⟨l', rfl, e1, e2, e3, e4⟩
      rw [(parseUint_iff 64 l _).mpr ⟨e1, e2, by omega, rfl⟩]
      dsimp only
      rw [if_pos e4, e3, h2]
  | bool b => simp [storeUint]
  | str l => simp [storeUint]
  | arr l => simp [storeUint]
  | obj l => simp [storeUint]

theorem basic_iff (b : JBasic) (old new : b.Val) (j : JVal) : b.unmarshal old j = (new, .ok) ↔ b.Reads old j new := by
  cases b with
  | bool =>
    show _ ↔ (j = .null ∧ new = old) ∨ j = .bool new
    cases j with
    | bool b =>
      constructor
      · intro h; injection h with h _; exact Or.inr (congrArg JVal.bool h)
      · rintro (⟨h, _⟩ | h)
        · cases h
        · injection h with h; exact congrArg (·, JErr.ok) h
    | _ => simp [JBasic.unmarshal, eq_comm]
  | string =>
    show _ ↔ (j = .null ∧ new = old) ∨ ∃ l, j = .str l ∧ new = unquote l
    cases j with
    | str l =>
      constructor
      · intro h; injection h with h _; exact Or.inr ⟨l, rfl, h.symm⟩
      · rintro (⟨h, _⟩ | ⟨l', h, h'⟩)
        · cases h
        · injection h with h; subst h; exact congrArg (·, JErr.ok) h'.symm
    | _ => simp [JBasic.unmarshal, eq_comm]
  | u8 => exact storeUint_iff 8 (by decide) _ UInt8.toNat (fun n h => by simp; omega) (fun a => UInt8.ofNat_toNat) old new j
  | u16 => exact storeUint_iff 16 (by decide) _ UInt16.toNat (fun n h => by simp; omega) (fun a => UInt16.ofNat_toNat) old new j
  | u32 => exact storeUint_iff 32 (by decide) _ UInt32.toNat (fun n h => by simp; omega) (fun a => UInt32.ofNat_toNat) old new j
  | uint => exact storeUint_iff 64 (by decide) _ UInt64.toNat (fun n h => by simp; omega) (fun a => UInt64.ofNat_toNat) old new j

theorem ofMethod_iff {α : Type} (p : Pan (α × Option Err)) (a : α) : ofMethod p = .val (a, .ok) ↔ p = .val (a, none) := by
  unfold ofMethod
  rw [Pan.bind_iff]
  constructor
  · rintro ⟨⟨x, e⟩, rfl, h⟩
    injection h with h
    injection h with h1 h2
    dsimp only at h1 h2
    subst h1
    cases e with
    | none => rfl
    | some e => rw [if_neg (by simp)] at h2; cases h2
  · rintro rfl
    exact ⟨_, rfl, rfl⟩
theorem text_iff (sha : Sha256) (x : TextTy) (old new : x.Val) (j : JVal) : x.unmarshalJSON sha old j = .val (new, .ok) ↔
    (j = .null ∧ new = x.null old) ∨ ∃ l, j = .str l ∧ x.unmarshal sha old (unquote l) = .val (new, none) := by
  cases j with
  | null => simp [TextTy.unmarshalJSON, eq_comm]
  | str l => simp [TextTy.unmarshalJSON, ofMethod_iff]
  | num l => simp [TextTy.unmarshalJSON]
  | bool b => simp [TextTy.unmarshalJSON]
  | arr l => simp [TextTy.unmarshalJSON]
  | obj l => simp [TextTy.unmarshalJSON]

/-! ## Arrays -/

theorem apartList_mem : {xs : List JVal} → apartList xs → ∀ x ∈ xs, x.Apart
  | [], _, _, h => by cases h
  | _ :: _, h, x, hx => by
    rcases List.mem_cons.mp hx with rfl | hx
    · exact h.1
    · exact apartList_mem h.2 x hx
theorem apartMembers_mem : {ms : List (Bytes × JVal)} → apartMembers ms → ∀ m ∈ ms, m.2.Apart
  | [], _, _, h => by cases h
  | (_, _) :: _, h, m, hm => by
    rcases List.mem_cons.mp hm with rfl | hm
    · exact h.1
    · exact apartMembers_mem h.2 m hm

theorem elems_iff {α : Type} {dec : α → JVal → Pan (α × JErr)} {R : α → JVal → α → Prop} (zero : α) :
    (js : List JVal) → (∀ o, ∀ j ∈ js, ∀ n, dec o j = .val (n, .ok) ↔ R o j n) → (old xs : List α) →
      (elemsFrom dec zero js old = .val (xs, .ok) ↔ xs.length = js.length ∧ ∀ i j x, js[i]? = some j → xs[i]? = some x → R (old.getD i zero) j x)
  | [], _, old, xs => by
    rw [elemsFrom]
    constructor
    · intro h; injection h with h; injection h with h _; subst h
      exact ⟨rfl, fun i j x h => by simp at h⟩
    · rintro ⟨h, _⟩
      have : xs = [] := List.length_eq_zero_iff.mp h
      subst this; rfl
  | j :: js, H, old, xs => by
    have ih := elems_iff zero js (fun o j' hj n => H o j' (by simp [hj]) n) old.tail
    rw [elemsFrom, Pan.bind_iff]
    constructor
    · rintro ⟨⟨x, e⟩, h1, h⟩
      dsimp only at h
      split at h
      · injection h with h; injection h with _ h; cases h
      · obtain ⟨⟨ys, e'⟩, h2, h⟩ := Pan.bind_eq h
        injection h with h
        injection h with ha hb
        obtain ⟨rfl, he⟩ := and_ok hb
        dsimp only at he ha
        subst he; subst ha
        obtain ⟨hl, hr⟩ := (ih ys).mp h2
        refine ⟨by simp [hl], fun i k y hk hy => ?_⟩
        cases i with
        | zero =>
          simp only [List.getElem?_cons_zero, Option.some.injEq] at hk hy
          subst hk; subst hy
          have := (H _ _ (by simp) _).mp h1
          cases old <;> exact this
        | succ i =>
          simp only [List.getElem?_cons_succ] at hk hy
          have := hr i k y hk hy
          cases old with
          | nil => simpa using this
          | cons o old => simpa using this
    · rintro ⟨hl, hr⟩
      cases xs with
      | nil => simp at hl
      | cons x xs =>
        refine ⟨(x, .ok), (H _ _ (by simp) _).mpr ?_, ?_⟩
        · have := hr 0 j x rfl rfl
          cases old <;> exact this
        · dsimp only
          rw [if_neg (by simp), (ih xs).mpr ⟨by simpa using hl, fun i k y hk hy => ?_⟩]
          · rfl
          · have := hr (i + 1) k y (by simpa using hk) (by simpa using hy)
            cases old with
            | nil => simpa using this
            | cons o old => simpa using this

/-! ## Objects -/

theorem reads_congr (sha : Sha256) {l l' : Bytes → Option JVal} : (fs : JFields) → (∀ k ∈ fs.keys, l k = l' k) → (v w : fs.Val) → (fs.Reads sha l v w ↔ fs.Reads sha l' v w)
  | .nil, _, _, _ => Iff.rfl
  | .cons key om t fs, h, v, w => by
    obtain ⟨x, xs⟩ : t.Val × fs.Val := v
    obtain ⟨y, ys⟩ : t.Val × fs.Val := w
    show (_ ∧ fs.Reads sha l xs ys) ↔ (_ ∧ fs.Reads sha l' xs ys)
    have e := h key (by simp [JFields.keys])
    rw [reads_congr sha fs (fun k hk => h k (by simp [JFields.keys, hk])) xs ys, e]
theorem reads_none (sha : Sha256) : (fs : JFields) → (v w : fs.Val) → (fs.Reads sha (fun _ => none) v w ↔ w = v)
  | .nil, _, _ => ⟨fun _ => rfl, fun _ => trivial⟩
  | .cons key om t fs, v, w => by
    obtain ⟨x, xs⟩ : t.Val × fs.Val := v
    obtain ⟨y, ys⟩ : t.Val × fs.Val := w
    show (y = x ∧ fs.Reads sha _ xs ys) ↔ ((y, ys) : t.Val × fs.Val) = (x, xs)
    rw [reads_none sha fs xs ys, Prod.mk.injEq]

/-- One member read first -/
def JFields.AtIff (sha : Sha256) (fs : JFields) : Prop :=
  ∀ (i : Nat) (l l' : Bytes → Option JVal) (v w : fs.Val) (j : JVal), j.Apart → i < fs.keys.length →
    (∀ key, fs.keys[i]? = some key → l key = some j ∧ l' key = none) → (∀ n key, n ≠ i → fs.keys[n]? = some key → l key = l' key) →
    ((∃ u, fs.unmarshalAt sha i v j = .val (u, .ok) ∧ fs.Reads sha l' u w) ↔ fs.Reads sha l v w)

theorem memberOf_cons (k : Bytes) (j : JVal) (ms : List (Bytes × JVal)) (key : Bytes) :
    memberOf ((k, j) :: ms) key = if foldKey (unquote k) = foldKey key then some j else memberOf ms key := by
  unfold memberOf
  by_cases h : foldKey (unquote k) = foldKey key
  · rw [if_pos h, List.find?_cons_of_pos (by simp [h])]; rfl
  · rw [if_neg h, List.find?_cons_of_neg (by simp [h])]
theorem findIdx_ne_none (p : Bytes → Bool) : (fs : JFields) → (k : Bytes) → k ∈ fs.keys → p k = true → fs.findIdx p ≠ none
  | .nil, _, h, _ => by cases h
  | .cons key om t fs, k, h, hp => by
    rw [JFields.findIdx]
    split
    · simp
    · rename_i hn
      rcases List.mem_cons.mp h with rfl | h
      · exact absurd hp hn
      · simpa using findIdx_ne_none p fs k h hp
theorem find_none (fs : JFields) (k : Bytes) (h : fs.find k = none) : ∀ key ∈ fs.keys, foldKey key ≠ foldKey k := by
  intro key hk e
  unfold JFields.find at h
  split at h
  · cases h
  · exact findIdx_ne_none _ fs key hk (by simp [e]) h

theorem members_iff (sha : Sha256) (fs : JFields) (hfs : fs.keys.Pairwise fun a b => foldKey a ≠ foldKey b) (H : fs.AtIff sha) :
    (ms : List (Bytes × JVal)) → (ms.Pairwise fun p q => foldKey (unquote p.1) ≠ foldKey (unquote q.1)) → (∀ m ∈ ms, m.2.Apart) → (v w : fs.Val) →
      (membersFrom (fs.set sha) ms v = .val (w, .ok) ↔ fs.Reads sha (memberOf ms) v w)
  | [], _, _, v, w => by
    rw [membersFrom]
    refine Iff.trans ?_ (reads_none sha fs v w).symm
    constructor
    · intro h; injection h with h; injection h with h _; exact h.symm
    · rintro rfl; rfl
  | (k, j) :: ms, hd, hj, v, w => by
    obtain ⟨hd1, hd2⟩ := List.pairwise_cons.mp hd
    have ih := members_iff sha fs hfs H ms hd2 fun m hm => hj m (by simp [hm])
    have hstep : membersFrom (fs.set sha) ((k, j) :: ms) v = .val (w, .ok) ↔
        ∃ u, fs.set sha v (unquote k) j = .val (u, .ok) ∧ fs.Reads sha (memberOf ms) u w := by
      constructor
      · intro h
        obtain ⟨u, h1, h2⟩ := members_ok h
        exact ⟨u, h1, (ih u w).mp h2⟩
      · rintro ⟨u, h1, h2⟩
        exact members_step h1 (by simp) ((ih u w).mpr h2)
    rw [hstep]
    cases hf : fs.find (unquote k) with
    | none =>
      have hno := find_none fs _ hf
      have e : fs.set sha v (unquote k) j = .val (v, .ok) := by simp [JFields.set, hf]
      rw [e]
      refine Iff.trans ?_ (reads_congr sha (l := memberOf ms) fs (fun key hk => ?_) v w)
      · constructor
        · rintro ⟨u, h, h2⟩
          injection h with h; injection h with h _; subst h; exact h2
        · exact fun h => ⟨v, rfl, h⟩
      · rw [memberOf_cons, if_neg (fun e => hno key hk e.symm)]
    | some i =>
      obtain ⟨key, hk1, hk2⟩ := find_fold fs _ i hf
      rw [set_of hf]
      refine H i (memberOf ((k, j) :: ms)) (memberOf ms) v w j (hj (k, j) (by simp)) ?_ ?_ ?_
      · exact (List.getElem?_eq_some_iff.mp hk1).1
      · intro key' h
        rw [hk1] at h; injection h with h; subst h
        refine ⟨by rw [memberOf_cons, if_pos hk2.symm], ?_⟩
        unfold memberOf
        rw [Option.map_eq_none_iff, List.find?_eq_none]
        intro m hm
        have := hd1 m hm
        rw [← hk2] at this
        simpa using fun e => this e.symm
      · intro n key' hn h
        rw [memberOf_cons, if_neg]
        intro e
        obtain ⟨a1, a2⟩ := List.getElem?_eq_some_iff.mp h
        obtain ⟨b1, b2⟩ := List.getElem?_eq_some_iff.mp hk1
        have hpw := List.pairwise_iff_getElem.mp hfs
        have hne : foldKey fs.keys[n] ≠ foldKey fs.keys[i] := by
          rcases Nat.lt_or_gt_of_ne hn with h | h
          · exact hpw n i a1 b1 h
          · exact (hpw i n b1 a1 h).symm
        rw [a2, b2, hk2] at hne
        exact hne e.symm

mutual
theorem reads_iff (sha : Sha256) : (t : JTy) → t.Apart → (old new : t.Val) → (j : JVal) → j.Apart → (t.unmarshal sha old j = .val (new, .ok) ↔ t.Reads sha old j new)
  | .basic b, _, old, new, j, _ => by
    show Pan.val (b.unmarshal old j) = .val (new, .ok) ↔ b.Reads old j new
    rw [← basic_iff b old new j]
    exact ⟨fun h => by injection h, fun h => congrArg _ h⟩
  | .text x, _, old, new, j, _ => text_iff sha x old new j
  | .uint64, _, old, new, j, _ => by
    show ofMethod (.val (Uint64.unmarshalJSON old j.print)) = .val (new, .ok) ↔ Uint64.unmarshalJSON old j.print = (new, none)
    refine (ofMethod_iff _ _).trans ⟨fun h => by injection h, fun h => congrArg _ h⟩
  | .blockNum, _, old, new, j, _ => by
    show ofMethod (.val (BlockNum.unmarshalJSON old j.print)) = .val (new, .ok) ↔ BlockNum.unmarshalJSON old j.print = (new, none)
    refine (ofMethod_iff _ _).trans ⟨fun h => by injection h, fun h => congrArg _ h⟩
  | .ptr t, ha, old, new, j, hj => by
    have ih := reads_iff sha t ha (Option.getD (α := t.Val) old t.zero)
    have key : j ≠ .null → (((t.unmarshal sha (Option.getD (α := t.Val) old t.zero) j).bind fun r => Pan.val ((some r.1 : Option t.Val), r.2)) =
        .val ((new, .ok) : Option t.Val × JErr) ↔ (j = .null ∧ new = (none : Option t.Val)) ∨
          (j ≠ .null ∧ ∃ x, new = (some x : Option t.Val) ∧ t.Reads sha (Option.getD (α := t.Val) old t.zero) j x)) := by
      intro hn
      rw [Pan.bind_iff]
      constructor
      · rintro ⟨⟨x, e⟩, h1, h⟩
        injection h with h
        injection h with h2 h3
        dsimp only at h2 h3
        subst h3
        exact Or.inr ⟨hn, x, h2.symm, (ih x j hj).mp h1⟩
      · rintro (⟨h, _⟩ | ⟨_, x, h, hr⟩)
        · exact absurd h hn
        · exact ⟨(x, .ok), (ih x j hj).mpr hr, by rw [h]⟩
    cases j with
    | null =>
      show Pan.val ((none : Option t.Val), JErr.ok) = .val ((new, .ok) : Option t.Val × JErr) ↔ (JVal.null = .null ∧ new = (none : Option t.Val)) ∨
          (JVal.null ≠ .null ∧ ∃ x, new = (some x : Option t.Val) ∧ t.Reads sha (Option.getD (α := t.Val) old t.zero) .null x)
      constructor
      · intro h; injection h with h; injection h with h _; exact Or.inl ⟨rfl, h.symm⟩
      · rintro (⟨_, h⟩ | ⟨h, _⟩)
        · rw [h]
        · exact absurd rfl h
    | bool b => exact key (by simp)
    | num l => exact key (by simp)
    | str l => exact key (by simp)
    | arr l => exact key (by simp)
    | obj l => exact key (by simp)
  | .slice t, ha, old, new, j, hj => by
    have no : ∀ j, (∀ js, j ≠ JVal.arr js) → j ≠ .null → (Pan.val ((old, JErr.saved) : Option (List t.Val) × JErr) = .val ((new, .ok) : Option (List t.Val) × JErr) ↔
        (j = .null ∧ new = (none : Option (List t.Val))) ∨ ∃ js xs, j = .arr js ∧ new = (some xs : Option (List t.Val)) ∧ xs.length = js.length ∧
          ∀ i j x, js[i]? = some j → xs[i]? = some x → t.Reads sha ((Option.getD (α := List t.Val) old []).getD i t.zero) j x) := by
      intro j h1 h2
      constructor
      · intro h; injection h with h; injection h with _ h; cases h
      · rintro (⟨h, _⟩ | ⟨js, _, h, _⟩)
        · exact absurd h h2
        · exact absurd h (h1 js)
    cases j with
    | null =>
      show Pan.val ((none : Option (List t.Val)), JErr.ok) = .val ((new, .ok) : Option (List t.Val) × JErr) ↔ (JVal.null = .null ∧ new = (none : Option (List t.Val))) ∨ _
      constructor
      · intro h; injection h with h; injection h with h _; exact Or.inl ⟨rfl, h.symm⟩
      · rintro (⟨_, h⟩ | ⟨js, _, h, _⟩)
        · rw [h]
        · cases h
    | bool b => exact no _ (by simp) (by simp)
    | num l => exact no _ (by simp) (by simp)
    | str l => exact no _ (by simp) (by simp)
    | obj l => exact no _ (by simp) (by simp)
    | arr js =>
      have ih := elems_iff (R := t.Reads sha) t.zero js (fun o j' hj' n => reads_iff sha t ha o n j' (apartList_mem hj j' hj')) (Option.getD (α := List t.Val) old [])
      show ((elemsFrom (t.unmarshal sha) t.zero js (Option.getD (α := List t.Val) old [])).bind fun r => Pan.val ((some r.1 : Option (List t.Val)), r.2)) =
        .val ((new, .ok) : Option (List t.Val) × JErr) ↔ (JVal.arr js = .null ∧ new = (none : Option (List t.Val))) ∨ ∃ js' xs, JVal.arr js = .arr js' ∧
          new = (some xs : Option (List t.Val)) ∧ xs.length = js'.length ∧
          ∀ i j x, js'[i]? = some j → xs[i]? = some x → t.Reads sha ((Option.getD (α := List t.Val) old []).getD i t.zero) j x
      rw [Pan.bind_iff]
      constructor
      · rintro ⟨⟨xs, e⟩, h1, h⟩
        injection h with h
        injection h with h2 h3
        dsimp only at h2 h3
        subst h3
        obtain ⟨a, b⟩ := (ih xs).mp h1
        exact Or.inr ⟨js, xs, rfl, h2.symm, a, b⟩
      · rintro (⟨h, _⟩ | ⟨js', xs, h, h2, a, b⟩)
        · cases h
        · injection h with h; subst h
          exact ⟨(xs, .ok), (ih xs).mpr ⟨a, b⟩, by rw [h2]⟩
  | .struct fs, ha, old, new, j, hj => by
    have no : ∀ j, (∀ js, j ≠ JVal.obj js) → j ≠ .null → (Pan.val ((old, JErr.saved) : fs.Val × JErr) = .val ((new, .ok) : fs.Val × JErr) ↔
        (j = .null ∧ new = old) ∨ ∃ ms, j = .obj ms ∧ fs.Reads sha (memberOf ms) old new) := by
      intro j h1 h2
      constructor
      · intro h; injection h with h; injection h with _ h; cases h
      · rintro (⟨h, _⟩ | ⟨js, h, _⟩)
        · exact absurd h h2
        · exact absurd h (h1 js)
    cases j with
    | null =>
      show Pan.val ((old, JErr.ok) : fs.Val × JErr) = .val ((new, .ok) : fs.Val × JErr) ↔ (JVal.null = .null ∧ new = old) ∨ _
      constructor
      · intro h; injection h with h; injection h with h _; exact Or.inl ⟨rfl, h.symm⟩
      · rintro (⟨_, h⟩ | ⟨js, h, _⟩)
        · rw [h]
        · cases h
    | bool b => exact no _ (by simp) (by simp)
    | num l => exact no _ (by simp) (by simp)
    | str l => exact no _ (by simp) (by simp)
    | arr l => exact no _ (by simp) (by simp)
    | obj ms =>
      have h := members_iff sha fs ha.1 (at_iff sha fs ha.2) ms hj.1 (apartMembers_mem hj.2) old new
      show membersFrom (fs.set sha) ms old = .val ((new, .ok) : fs.Val × JErr) ↔ (JVal.obj ms = .null ∧ new = old) ∨ ∃ ms', JVal.obj ms = .obj ms' ∧ fs.Reads sha (memberOf ms') old new
      refine h.trans ⟨fun h => Or.inr ⟨ms, rfl, h⟩, ?_⟩
      rintro (⟨h, _⟩ | ⟨ms', h, hr⟩)
      · cases h
      · injection h with h; subst h; exact hr
theorem at_iff (sha : Sha256) : (fs : JFields) → fs.EachApart → fs.AtIff sha
  | .nil, _ => fun i _ _ _ _ _ _ h => by simp [JFields.keys] at h
  | .cons key om t fs, ha => by
    intro i l l' v w j hj hi h1 h2
    obtain ⟨x, xs⟩ : t.Val × fs.Val := v
    obtain ⟨y, ys⟩ : t.Val × fs.Val := w
    cases i with
    | zero =>
      have ih := reads_iff sha t ha.1 x y j hj
      obtain ⟨e1, e2⟩ := h1 key rfl
      have hc := reads_congr sha (l := l) (l' := l') fs (fun k hk => by
        obtain ⟨n, hn⟩ := List.mem_iff_getElem?.mp hk
        exact h2 (n + 1) k (by simp) (by simpa [JFields.keys] using hn)) xs ys
      show (∃ u, ((t.unmarshal sha x j).bind fun r => Pan.val (((r.1, xs) : t.Val × fs.Val), r.2)) = .val ((u, .ok) : (t.Val × fs.Val) × JErr) ∧ _) ↔
        (match l key with | none => y = x | some j => t.Reads sha x j y) ∧ fs.Reads sha l xs ys
      rw [e1]
      dsimp only
      rw [← ih, hc]
      constructor
      · rintro ⟨⟨u, us⟩, h, hr⟩
        obtain ⟨⟨x', e⟩, h3, h⟩ := Pan.bind_eq h
        injection h with h
        injection h with h4 h5
        dsimp only at h4 h5
        subst h5
        injection h4 with h4 h6
        subst h4; subst h6
        have hr : (match l' key with | none => y = x' | some j => t.Reads sha x' j y) ∧ fs.Reads sha l' xs ys := hr
        rw [e2] at hr
        have h7 : y = x' := hr.1
        subst h7
        exact ⟨h3, hr.2⟩
      · rintro ⟨h3, hr⟩
        refine ⟨((y, xs) : t.Val × fs.Val), by rw [h3]; rfl, ?_⟩
        show (match l' key with | none => y = y | some j => t.Reads sha y j y) ∧ fs.Reads sha l' xs ys
        rw [e2]
        exact ⟨rfl, hr⟩
    | succ i =>
      have ih := at_iff sha fs ha.2 i l l' xs ys j hj (by simpa [JFields.keys] using hi) (fun k hk => h1 k (by simpa [JFields.keys] using hk))
        (fun n k hn hk => h2 (n + 1) k (by omega) (by simpa [JFields.keys] using hk))
      have e := h2 0 key (by omega) rfl
      show (∃ u, ((fs.unmarshalAt sha i xs j).bind fun r => Pan.val (((x, r.1) : t.Val × fs.Val), r.2)) = .val ((u, .ok) : (t.Val × fs.Val) × JErr) ∧ _) ↔
        (match l key with | none => y = x | some j => t.Reads sha x j y) ∧ fs.Reads sha l xs ys
      rw [← ih, e]
      constructor
      · rintro ⟨⟨u, us⟩, h, hr⟩
        obtain ⟨⟨xs', e⟩, h3, h⟩ := Pan.bind_eq h
        injection h with h
        injection h with h4 h5
        dsimp only at h4 h5
        subst h5
        injection h4 with h4 h6
        subst h4; subst h6
        have hr : (match l' key with | none => y = x | some j => t.Reads sha x j y) ∧ fs.Reads sha l' xs' ys := hr
        exact ⟨hr.1, xs', h3, hr.2⟩
      · rintro ⟨hr, xs', h3, hr'⟩
        refine ⟨((x, xs') : t.Val × fs.Val), by rw [h3]; rfl, ?_⟩
        exact ⟨hr, hr'⟩
end

end Verif
