import Verif.Lemmas.JsonLeaf
/-! # What json.Marshal writes json.Unmarshal reads -/
namespace Verif

theorem Pan.bind_val {α β : Type} (a : α) (f : α → Pan β) : (Pan.val a).bind f = f a := rfl

theorem fine_mono : (j : JVal) → (n m : Nat) → n ≤ m → j.Fine n → j.Fine m := by
  apply JVal.rec (motive_1 := fun j => ∀ n m, n ≤ m → j.Fine n → j.Fine m) (motive_2 := fun xs => ∀ n m, n ≤ m → fineList n xs → fineList m xs)
    (motive_3 := fun ms => ∀ n m, n ≤ m → fineMembers n ms → fineMembers m ms)
    (motive_4 := fun kv => ∀ n m, n ≤ m → kv.2.Fine n → kv.2.Fine m)
  · intro n m _ _; trivial
  · intro b n m _ _; trivial
  · intro l n m _ h; exact h
  · intro l n m _ h; exact h
  · intro xs ih n m hm h; exact ⟨Nat.le_trans h.1 hm, ih _ _ (by omega) h.2⟩
  · intro ms ih n m hm h; exact ⟨Nat.le_trans h.1 hm, ih _ _ (by omega) h.2⟩
  · intro n m _ _; trivial
  · intro x xs ihx ih n m hm h; exact ⟨ihx _ _ hm h.1, ih _ _ hm h.2⟩
  · intro n m _ _; trivial
  · intro x xs ihx ih n m hm h; obtain ⟨k, v⟩ := x; exact ⟨h.1, ihx _ _ hm h.2.1, ih _ _ hm h.2.2⟩
  · intro k v ih; exact ih

theorem writeUint_print (v : UInt64) : ∃ j : JVal, compactJSON (writeUintJSON v) = j ∧ j.print = writeUintJSON v ∧ (∀ n, j.Fine n) ∧ j ≠ .null := by
  unfold writeUintJSON
  split
  · have hl : StrLit (fmtNat v.toNat) := by
      have h := (fmtNat_spec v.toNat).1
      generalize fmtNat v.toNat = s at h
      induction s with
      | nil => exact .nil
      | cons c s ih =>
        have hc := h c (by simp)
        refine .char c s (by omega) ?_ ?_ (ih fun x hx => h x (by simp [hx]))
        · rintro rfl; revert hc; decide
        · rintro rfl; revert hc; decide
    have hp : (JVal.str (fmtNat v.toNat)).print = [34] ++ fmtNat v.toNat ++ [34] := by simp [JVal.print]
    refine ⟨.str (fmtNat v.toNat), ?_, hp, fun n => hl, by simp⟩
    unfold compactJSON
    rw [← hp, jsonParse_print (.str (fmtNat v.toNat)) hl]; rfl
  · have hp : (JVal.num (fmtNat v.toNat)).print = fmtNat v.toNat := by simp [JVal.print]
    refine ⟨.num (fmtNat v.toNat), ?_, hp, fun n => ⟨_, rfl⟩, by simp⟩
    unfold compactJSON
    have := jsonParse_print (.num (fmtNat v.toNat)) ⟨_, rfl⟩
    rw [hp] at this
    rw [this]; rfl

theorem storeUint_num {α : Type} (bits : Nat) (hb : bits ≤ 64) (conv : Nat → α) (old : α) (n : Nat) (h : n < 2 ^ bits) :
    storeUint bits conv old (.num (fmtNat n)) = (conv n, .ok) := by
  have h64 : n < 2 ^ 64 := Nat.lt_of_lt_of_le h (Nat.pow_le_pow_right (by decide) hb)
  simp [storeUint, parseUint_fmtNat 64 n h64, h]

theorem basic_back (b : JBasic) (v old : b.Val) (hg : b.Good v) : ((b.marshal v).Fine 0 ∧ b.marshal v ≠ .null) ∧ b.unmarshal old (b.marshal v) = (v, .ok) := by
  cases b with
  | bool => exact ⟨⟨trivial, by simp [JBasic.marshal]⟩, rfl⟩
  | string => exact ⟨⟨lit_escape v, by simp [JBasic.marshal]⟩, by simp [JBasic.marshal, JBasic.unmarshal, unquote_escape hg]⟩
  | u8 =>
    refine ⟨⟨⟨_, rfl⟩, by simp [JBasic.marshal]⟩, ?_⟩
    exact (storeUint_num 8 (by decide) (fun n => (n.toUInt8 : UInt8)) old (UInt8.toNat v) (UInt8.toNat_lt v)).trans (congrArg (·, JErr.ok) (UInt8.ofNat_toNat (x := v)))
  | u16 =>
    refine ⟨⟨⟨_, rfl⟩, by simp [JBasic.marshal]⟩, ?_⟩
    exact (storeUint_num 16 (by decide) (fun n => (n.toUInt16 : UInt16)) old (UInt16.toNat v) (UInt16.toNat_lt v)).trans (congrArg (·, JErr.ok) (UInt16.ofNat_toNat (x := v)))
  | u32 =>
    refine ⟨⟨⟨_, rfl⟩, by simp [JBasic.marshal]⟩, ?_⟩
    exact (storeUint_num 32 (by decide) (fun n => (n.toUInt32 : UInt32)) old (UInt32.toNat v) (UInt32.toNat_lt v)).trans (congrArg (·, JErr.ok) (UInt32.ofNat_toNat (x := v)))
  | uint =>
    refine ⟨⟨⟨_, rfl⟩, by simp [JBasic.marshal]⟩, ?_⟩
    exact (storeUint_num 64 (by decide) (fun n => (n.toUInt64 : UInt64)) old (UInt64.toNat v) (UInt64.toNat_lt v)).trans (congrArg (·, JErr.ok) (UInt64.ofNat_toNat (x := v)))

/-! ## Structs -/

/-- One member of an object -/
def JFields.set (sha : Sha256) (fs : JFields) (v : fs.Val) (k : Bytes) (j : JVal) : Pan (fs.Val × JErr) := match fs.find k with
  | some i => fs.unmarshalAt sha i v j
  | none => .val (v, .ok)
theorem unmarshal_obj (sha : Sha256) (fs : JFields) (old : fs.Val) (ms : List (Bytes × JVal)) :
    (JTy.struct fs).unmarshal sha old (.obj ms) = membersFrom (fs.set sha) ms old := by
  rfl

theorem findIdx_mem (k : Bytes) : (fs : JFields) → k ∈ fs.keys → ∃ i, fs.findIdx (· == k) = some i
  | .nil, h => by cases h
  | .cons key om t fs, h => by
    rw [JFields.findIdx]
    by_cases e : key = k
    · exact ⟨0, by simp [e]⟩
    · obtain ⟨i, hi⟩ := findIdx_mem k fs (by
        rcases List.mem_cons.mp h with h | h
        · exact absurd h.symm e
        · exact h)
      exact ⟨i + 1, by simp [e, hi]⟩
theorem find_head (k : Bytes) (om : Bool) (t : JTy) (fs : JFields) : (JFields.cons k om t fs).find k = some 0 := by
  unfold JFields.find
  simp [JFields.findIdx]
theorem find_tail (key k : Bytes) (om : Bool) (t : JTy) (fs : JFields) (hk : k ∈ fs.keys) (hne : key ≠ k) :
    ∃ i, fs.find k = some i ∧ (JFields.cons key om t fs).find k = some (i + 1) := by
  obtain ⟨i, hi⟩ := findIdx_mem k fs hk
  exact ⟨i, by simp [JFields.find, hi], by simp [JFields.find, JFields.findIdx, hi, hne]⟩

theorem members_cons {α : Type} (set : α → Bytes → JVal → Pan (α × JErr)) (k : Bytes) (j : JVal) (ms : List (Bytes × JVal)) (v : α) :
    membersFrom set ((k, j) :: ms) v = (set v (unquote k) j).bind fun p =>
      if p.2 = .failed then .val (p.1, .failed) else (membersFrom set ms p.1).bind fun q => .val (q.1, p.2.and q.2) := rfl
theorem members_stop {α : Type} {set : α → Bytes → JVal → Pan (α × JErr)} {k : Bytes} {j : JVal} {v v' : α} (ms : List (Bytes × JVal))
    (h : set v (unquote k) j = .val (v', .failed)) : membersFrom set ((k, j) :: ms) v = .val (v', .failed) := by
  rw [members_cons, h, Pan.bind_val, if_pos rfl]
theorem members_step {α : Type} {set : α → Bytes → JVal → Pan (α × JErr)} {k : Bytes} {j : JVal} {v v' w : α} {e e' : JErr} {ms : List (Bytes × JVal)}
    (h : set v (unquote k) j = .val (v', e)) (he : e ≠ .failed) (hm : membersFrom set ms v' = .val (w, e')) :
    membersFrom set ((k, j) :: ms) v = .val (w, e.and e') := by
  rw [members_cons, h, Pan.bind_val, if_neg he, hm]; rfl
theorem set_of {sha : Sha256} {fs : JFields} {v : fs.Val} {k : Bytes} {j : JVal} {i : Nat} (h : fs.find k = some i) : fs.set sha v k j = fs.unmarshalAt sha i v j := by
  simp [JFields.set, h]

theorem members_tail (sha : Sha256) (key : Bytes) (om : Bool) (t : JTy) (fs : JFields) (hkey : key ∉ fs.keys) (x : t.Val) :
    (ms : List (Bytes × JVal)) → (∀ m ∈ ms, unquote m.1 ∈ fs.keys) → (xs ys : fs.Val) → (e : JErr) → membersFrom (fs.set sha) ms xs = .val (ys, e) →
      membersFrom ((JFields.cons key om t fs).set sha) ms ((x, xs) : t.Val × fs.Val) = .val (((x, ys) : t.Val × fs.Val), e)
  | [], _, xs, ys, e, h => by
    have h : Pan.val (xs, JErr.ok) = .val (ys, e) := h
    injection h with h
    injection h with ha hb
    subst ha; subst hb; rfl
  | (k, j) :: ms, hk, xs, ys, e, h => by
    obtain ⟨i, h1, h2⟩ := find_tail key (unquote k) om t fs (hk (k, j) (by simp)) (fun e => hkey (e ▸ hk (k, j) (by simp)))
    have e2 : (JFields.cons key om t fs).set sha ((x, xs) : t.Val × fs.Val) (unquote k) j =
        (fs.unmarshalAt sha i xs j).bind fun r => .val (((x, r.1) : t.Val × fs.Val), r.2) := set_of h2
    rw [members_cons, set_of h1] at h
    cases hu : fs.unmarshalAt sha i xs j with
    | panic w => rw [hu] at h; cases h
    | val r =>
      obtain ⟨zs, e'⟩ := r
      rw [hu] at h e2
      rw [Pan.bind_val] at h
      by_cases hf : e' = .failed
      · rw [if_pos hf] at h
        injection h with h
        injection h with ha hb
        subst ha; subst hb; subst hf
        exact members_stop ms e2
      · rw [if_neg hf] at h
        cases hm : membersFrom (fs.set sha) ms zs with
        | panic w => rw [hm] at h; cases h
        | val r =>
          obtain ⟨us, e''⟩ := r
          rw [hm] at h
          injection h with h
          injection h with ha hb
          subst ha; subst hb
          exact members_step e2 hf (members_tail sha key om t fs hkey x ms (fun m hm => hk m (by simp [hm])) zs us e'' hm)

/-! ## The round trip -/

/-- What decoding may start from -/
def JTy.From (t : JTy) (old : t.Val) : Prop := t.Plain ∨ old = t.zero

/-- One value goes through. -/
def JTy.Trip (sha : Sha256) (t : JTy) (n : Nat) (addr : Bool) (v old : t.Val) : Prop :=
  ∃ j w, t.marshal addr v = .val j ∧ j.Fine n ∧ (¬ t.Nil v → j ≠ .null) ∧ t.unmarshal sha old j = .val (w, .ok) ∧ t.Back v w

theorem elems_back (sha : Sha256) (t : JTy) (n : Nat) : (xs : List t.Val) → (olds : List t.Val) → (∀ x ∈ xs, ∀ o, t.From o → t.Trip sha n true x o) →
    (t.Plain ∨ olds = []) → ∃ js ys, panEach (t.marshal true) xs = .val js ∧ fineList n js ∧ elemsFrom (t.unmarshal sha) t.zero js olds = .val (ys, .ok) ∧
      List.Forall₂ t.Back xs ys
  | [], olds, _, _ => ⟨[], [], rfl, trivial, rfl, .nil⟩
  | x :: xs, olds, h, ho => by
    have hfrom : t.From (olds.headD t.zero) := by
      rcases ho with ho | rfl
      · exact Or.inl ho
      · exact Or.inr rfl
    obtain ⟨j, w, h1, h2, _, h4, h5⟩ := h x (by simp) _ hfrom
    obtain ⟨js, ys, g1, g2, g3, g4⟩ := elems_back sha t n xs olds.tail (fun x hx => h x (by simp [hx])) (ho.imp id (by rintro rfl; rfl))
    refine ⟨j :: js, w :: ys, by simp [panEach, h1, g1, Pan.bind_val], ⟨h2, g2⟩, ?_, .cons h5 g4⟩
    rw [elemsFrom, h4]
    simp only [Pan.bind_val, g3]
    rfl

theorem text_trip (sha : Sha256) (x : TextTy) (n : Nat) (addr : Bool) (v old : x.Val) (hg : x.Good v) (hs : x = .signature → addr = true)
    (ho : (JTy.text x).From old) : (JTy.text x).Trip sha n addr v old := by
  have hold : x = .float128 → x.Good old := by
    rintro rfl
    rcases ho with ho | rfl
    · exact absurd rfl ho
    · rfl
  obtain ⟨s, w, h1, h2, h3, h4⟩ := text_back sha x v old hg hold
  refine ⟨.str (escapeStr s), w, ?_, lit_escape s, fun _ => by simp, ?_, h4⟩
  · show x.marshalJSON addr v = _
    rw [TextTy.marshalJSON, dif_neg (by rintro ⟨a, b⟩; rw [hs a] at b; cases b), h1]
    rfl
  · show ofMethod (x.unmarshal sha old (unquote (escapeStr s))) = _
    rw [unquote_escape h2.utf8, h3]
    rfl

theorem optList_empty {α : Type} : (v : Option (List α)) → (v.getD []).isEmpty = true → v = none ∨ v = some []
  | none, _ => Or.inl rfl
  | some _, h => Or.inr (congrArg some (List.isEmpty_iff.mp h))
theorem beq_eq_zero {α : Type} [BEq α] [LawfulBEq α] (v z : α) (h : (v == z) = true) : v = z := beq_iff_eq.mp h
theorem nothing_of_empty (t : JTy) (v : t.Val) (h : t.isEmpty v = true) : t.Nothing v := by
  cases t with
  | basic b =>
    cases b with
    | bool => exact (Bool.not_eq_true' (b := (show Bool from v))).mp h
    | string => exact List.isEmpty_iff.mp (show List.isEmpty (show Bytes from v) = true from h)
    | u8 => exact beq_eq_zero (α := UInt8) v 0 h
    | u16 => exact beq_eq_zero (α := UInt16) v 0 h
    | u32 => exact beq_eq_zero (α := UInt32) v 0 h
    | uint => exact beq_eq_zero (α := UInt64) v 0 h
  | text x =>
    cases x with
    | name | symbol | symbolCode => exact beq_eq_zero (α := UInt64) v 0 h
    | timePoint => exact beq_eq_zero (α := Int64) v 0 h
    | timePointSec | blockTimestamp => exact beq_eq_zero (α := UInt32) v 0 h
    | bytes | blob => exact optList_empty (show Option Bytes from v) h
    | _ => exact absurd (show false = true from h) (by decide)
  | uint64 => exact beq_eq_zero (α := UInt64) v 0 h
  | blockNum => exact beq_eq_zero (α := UInt32) v 0 h
  | ptr t => exact Option.isNone_iff_eq_none.mp (show Option.isNone (show Option t.Val from v) = true from h)
  | slice t => exact optList_empty (show Option (List t.Val) from v) h
  | struct fs => exact absurd (show false = true from h) (by decide)

mutual
theorem json_trip (sha : Sha256) : (t : JTy) → (n : Nat) → (addr : Bool) → (v old : t.Val) → t.Wf → t.depth ≤ n → t.Good addr v → t.From old →
    t.Trip sha n addr v old
  | .basic b, n, addr, v, old, _, _, hg, _ => by
    obtain ⟨⟨h1, h2⟩, h3⟩ := basic_back b v old hg
    exact ⟨_, v, rfl, fine_mono _ 0 n (by omega) h1, fun _ => h2, congrArg Pan.val h3, rfl⟩
  | .text x, n, addr, v, old, _, _, hg, ho => text_trip sha x n addr v old hg.1 hg.2 ho
  | .uint64, n, addr, v, old, _, _, _, _ => by
    obtain ⟨j, h1, h2, h3, h4⟩ := writeUint_print v
    refine ⟨j, v, congrArg Pan.val h1, h3 n, fun _ => h4, ?_, rfl⟩
    exact congrArg (fun r => ofMethod (.val r)) ((congrArg (Uint64.unmarshalJSON old) h2).trans (C23_uint64_roundtrip v old))
  | .blockNum, n, addr, v, old, _, _, _, _ => by
    obtain ⟨j, h1, h2, h3, h4⟩ := writeUint_print (UInt32.toUInt64 v)
    refine ⟨j, v, congrArg Pan.val h1, h3 n, fun _ => h4, ?_, rfl⟩
    exact congrArg (fun r => ofMethod (.val r)) ((congrArg (BlockNum.unmarshalJSON old) h2).trans (C23_blockNum_roundtrip v old))
  | .ptr t, n, addr, v, old, hw, hd, hg, ho => by
    change Option t.Val at v old
    cases v with
    | none =>
      refine ⟨.null, (none : Option t.Val), rfl, trivial, fun h => absurd rfl h, rfl, Or.inl ⟨rfl, rfl⟩⟩
    | some x =>
      obtain ⟨gx, gn⟩ := hg x rfl
      have hfrom : t.From (Option.getD (α := t.Val) old t.zero) := by
        rcases ho with ho | ho
        · exact Or.inl ho
        · exact Or.inr (by rw [show old = none from ho]; rfl)
      obtain ⟨j, w, h1, h2, h3, h4, h5⟩ := json_trip sha t n true x _ hw hd gx hfrom
      have hj := h3 gn
      refine ⟨j, (some w : Option t.Val), h1, h2, fun _ => hj, ?_, Or.inr ⟨x, w, rfl, rfl, h5⟩⟩
      have e : (JTy.ptr t).unmarshal sha old j = (t.unmarshal sha (Option.getD (α := t.Val) old t.zero) j).bind fun r => .val ((some r.1 : Option t.Val), r.2) := by
        cases j with
        | null => exact absurd rfl hj
        | _ => rfl
      rw [e, h4]; rfl
  | .slice t, n, addr, v, old, hw, hd, hg, ho => by
    change Option (List t.Val) at v old
    cases v with
    | none =>
      refine ⟨.null, (none : Option (List t.Val)), rfl, trivial, fun h => absurd rfl h, rfl, Or.inl ⟨rfl, rfl⟩⟩
    | some xs =>
      have hd' : t.depth ≤ n - 1 := by have : t.depth + 1 ≤ n := hd; omega
      obtain ⟨js, ys, h1, h2, h3, h4⟩ := elems_back sha t (n - 1) xs (Option.getD (α := List t.Val) old [])
        (fun x hx o ho => json_trip sha t (n - 1) true x o hw.2 hd' (hg xs rfl x hx) ho)
        (ho.imp id (fun h => by rw [show old = none from h]; rfl))
      refine ⟨.arr js, (some ys : Option (List t.Val)), ?_, ⟨by have : t.depth + 1 ≤ n := hd; omega, h2⟩, fun _ => by simp, ?_, Or.inr ⟨xs, ys, rfl, rfl, h4⟩⟩
      · show (panEach (t.marshal true) xs).bind _ = _
        rw [h1]; rfl
      · show (elemsFrom (t.unmarshal sha) t.zero js (Option.getD (α := List t.Val) old [])).bind _ = _
        rw [h3]; rfl
  | .struct fs, n, addr, v, old, hw, hd, hg, ho => by
    have hd' : fs.depth ≤ n - 1 := by have : fs.depth + 1 ≤ n := hd; omega
    obtain ⟨ms, w, h1, h2, _, h3, h4⟩ := json_fields sha fs (n - 1) addr v old hw.1 hw.2 hd' hg ho
    refine ⟨.obj ms, w, ?_, ⟨by have : fs.depth + 1 ≤ n := hd; omega, h2⟩, fun _ => by simp, ?_, h4⟩
    · show (fs.marshal addr v).bind _ = _
      rw [h1]; rfl
    · exact (unmarshal_obj sha fs old ms).trans h3
theorem json_fields (sha : Sha256) : (fs : JFields) → (n : Nat) → (addr : Bool) → (v old : fs.Val) → fs.keys.Nodup → fs.Wf → fs.depth ≤ n → fs.Good addr v →
    (fs.Plain ∨ old = fs.zero) →
    ∃ ms w, fs.marshal addr v = .val ms ∧ fineMembers n ms ∧ (∀ m ∈ ms, unquote m.1 ∈ fs.keys) ∧ membersFrom (fs.set sha) ms old = .val (w, .ok) ∧ fs.Back v w
  | .nil, n, addr, v, old, _, _, _, _, _ => ⟨[], old, rfl, trivial, by simp, rfl, trivial⟩
  | .cons key om t fs, n, addr, v, old, hk, hw, hd, hg, ho => by
    obtain ⟨x, xs⟩ : t.Val × fs.Val := v
    obtain ⟨ox, oxs⟩ : t.Val × fs.Val := old
    have hd1 : t.depth ≤ n := Nat.le_trans (Nat.le_max_left _ _) hd
    have hd2 : fs.depth ≤ n := Nat.le_trans (Nat.le_max_right _ _) hd
    have hk' := List.nodup_cons.mp hk
    have hot : t.From ox ∧ (fs.Plain ∨ oxs = fs.zero) := by
      rcases ho with ho | ho
      · exact ⟨Or.inl ho.2.1, Or.inl ho.2.2⟩
      · have : (ox, oxs) = (t.zero, fs.zero) := ho
        injection this with a b
        exact ⟨Or.inr a, Or.inr b⟩
    obtain ⟨ms, w, h1, h2, h3, h4, h5⟩ := json_fields sha fs n addr xs oxs hk'.2 hw.2.2 hd2 hg.2 hot.2
    have hkeys : ∀ m ∈ ms, unquote m.1 ∈ (JFields.cons key om t fs).keys := fun m hm => List.mem_cons_of_mem _ (h3 m hm)
    by_cases hom : (om && t.isEmpty x) = true
    · simp only [Bool.and_eq_true] at hom
      have hx : ox = t.zero := by
        rcases ho with ho | ho
        · exact absurd (ho.1.symm.trans hom.1) (by decide)
        · have : (ox, oxs) = (t.zero, fs.zero) := ho
          injection this
      refine ⟨ms, ((ox, w) : t.Val × fs.Val), ?_, h2, hkeys, members_tail sha key om t fs hk'.1 ox ms h3 oxs w .ok h4, Or.inr ⟨hom.1, ?_, hx⟩, h5⟩
      · show (if (om && t.isEmpty x) = true then fs.marshal addr xs else _) = _
        rw [if_pos (by simp [hom]), h1]
      · exact nothing_of_empty t x hom.2
    · obtain ⟨j, y, g1, g2, _, g4, g5⟩ := json_trip sha t n addr x ox hw.2.1 hd1 hg.1 hot.1
      refine ⟨(escapeStr key, j) :: ms, ((y, w) : t.Val × fs.Val), ?_, ⟨lit_escape key, g2, h2⟩, ?_, ?_, Or.inl g5, h5⟩
      · show (if (om && t.isEmpty x) = true then fs.marshal addr xs else _) = _
        rw [if_neg hom, g1, h1]; rfl
      · intro m hm
        rcases List.mem_cons.mp hm with rfl | hm
        · rw [unquote_escape hw.1]; exact List.mem_cons_self
        · exact hkeys m hm
      · have e : (JFields.cons key om t fs).set sha ((ox, oxs) : t.Val × fs.Val) key j = .val (((y, oxs) : t.Val × fs.Val), .ok) := by
          refine (set_of (find_head key om t fs)).trans ?_
          show (t.unmarshal sha ox j).bind _ = _
          rw [g4]; rfl
        exact members_step (by rw [unquote_escape hw.1]; exact e) (by simp) (members_tail sha key om t fs hk'.1 y ms h3 oxs w .ok h4)
end

end Verif
