import Verif.Spec.Twin
import Verif.Props.Sizes
import Verif.Props.AbiTakes
import Verif.Lemmas.Canon
import Verif.Lemmas.AbiCanon
/-! # The two codecs on types that describe the same data -/
namespace Verif

variable {a : Abi}

theorem eraseDups_nodup {α : Type} [DecidableEq α] : (l : List α) → l.Nodup → l.eraseDups = l
  | [], _ => rfl
  | x :: l, h => by
    rw [List.eraseDups_cons]
    have h1 : l.filter (fun b => !b == x) = l := List.filter_eq_self.2 fun y hy => by
      have : y ≠ x := fun e => (List.nodup_cons.1 h).1 (e ▸ hy)
      simpa using this
    rw [h1, eraseDups_nodup l (List.nodup_cons.1 h).2]

theorem gathers_nodup {xs : List (Bytes × AV)} (h : (xs.map Prod.fst).Nodup) (m : List (Bytes × AV)) : Gathers xs m ↔ m = xs := by
  have key : Gathers xs xs := by
    refine ⟨?_, fun k x => ⟨fun hk => ?_, ?_⟩⟩
    · exact (eraseDups_nodup _ h).symm
    · obtain ⟨pre, post, e⟩ := List.append_of_mem hk
      refine ⟨pre, post, e, fun y hy e' => ?_⟩
      rw [e, List.map_append, List.map_cons] at h
      exact (List.nodup_cons.1 (List.nodup_append.1 h).2.1).1 (List.mem_map.2 ⟨y, hy, e'⟩)
    · rintro ⟨pre, post, e, _⟩
      rw [e]; simp
  rw [gathers_iff, ← (gathers_iff xs xs).1 key]

theorem entries_names : {fs : List AbiField} → {gs : Fields} → (w : TwinMembers a fs gs) → (v : gs.Val) → (w.entries v).map Prod.fst = fs.map AbiField.name
  | _, _, .nil, _ => rfl
  | _, _, .plain _ _ ws, v => by rw [TwinMembers.entries, List.map_cons, List.map_cons, entries_names ws]
  | _, _, .pointer _ _ ws, v => by rw [TwinMembers.entries, List.map_cons, List.map_cons, entries_names ws]
  | _, _, .optional _ _ ws, v => by rw [TwinMembers.entries, List.map_cons, List.map_cons, entries_names ws]
  | _, _, .within w ws, v => by rw [TwinMembers.entries, List.map_append, List.map_append, entries_names w, entries_names ws]

theorem each_items {α : Type} {R : α → Bytes → Prop} {f : α → AV} {b : Bytes} {L : Nat} (h : ∀ x w, w.length ≤ L → R x w → AcceptsInner a b (f x) w) {xs : List α} {w : Bytes} (hw : w.length ≤ L)
    (he : Each R xs w) : AcceptsItems a b (xs.map f) w := by
  induction he with
  | nil => exact .nil
  | cons h1 _ ih =>
    rw [List.length_append] at hw
    exact .cons (h _ _ (by omega) h1) (ih (by omega))

theorem items_each {α : Type} {R : α → Bytes → Prop} {f : α → AV} {b : Bytes} {L : Nat} (h : ∀ x w, w.length ≤ L → AcceptsInner a b x w → ∃ v, f v = x ∧ R v w) :
    ∀ {xs : List AV} {w : Bytes}, w.length ≤ L → AcceptsItems a b xs w → ∃ vs : List α, vs.map f = xs ∧ Each R vs w
  | _, _, _, .nil => ⟨[], rfl, .nil⟩
  | _, _, hw, .cons h1 h2 => by
    rw [List.length_append] at hw
    obtain ⟨v, e1, h1⟩ := h _ _ (by omega) h1
    obtain ⟨vs, e2, h2⟩ := items_each h (by omega) h2
    exact ⟨v :: vs, by rw [List.map_cons, e1, e2], .cons h1 h2⟩

theorem acceptsMembers_append {fs gs : List AbiField} {xs ys : List (Bytes × AV)} {w w' : Bytes} (h : AcceptsMembers a fs xs w) (h' : AcceptsMembers a gs ys w') :
    AcceptsMembers a (fs ++ gs) (xs ++ ys) (w ++ w') := by
  match h with
  | .nil => exact h'
  | .cons h1 h2 => rw [List.append_assoc]; exact .cons h1 (acceptsMembers_append h2 h')

theorem acceptsMembers_split : ∀ {fs gs : List AbiField} {xs : List (Bytes × AV)} {w : Bytes}, AcceptsMembers a (fs ++ gs) xs w →
    ∃ x1 x2 w1 w2, AcceptsMembers a fs x1 w1 ∧ AcceptsMembers a gs x2 w2 ∧ xs = x1 ++ x2 ∧ w = w1 ++ w2
  | [], _, xs, w, h => ⟨[], xs, [], w, .nil, h, rfl, rfl⟩
  | f :: fs, gs, _, _, .cons (b1 := b1) h1 h2 => by
    obtain ⟨x1, x2, w1, w2, h3, h4, rfl, rfl⟩ := acceptsMembers_split h2
    exact ⟨_ :: x1, x2, b1 ++ w1, w2, .cons h1 h3, h4, rfl, by rw [List.append_assoc]⟩

/-! ### Reading: what Decode accepts, Abi.Decode accepts -/

theorem takes_bytes {b : Bytes} (hb : NotDefined a (asc "bytes")) {w : Bytes} (h : Sized w b) : AcceptsInner a (asc "bytes") (.chain .bytes (some b)) w := .builtin hb (.bytes h)

theorem mul_le_of {x y m k : Nat} (h : x ≤ y) (hy : y * m ≤ k) : x * m ≤ k := Nat.le_trans (Nat.mul_le_mul_right m h) hy

mutual
theorem inner_accepts : {b : Bytes} → {t : Ty} → (tw : TwinInner a b t) → (m : Mode) → m = .decode ∨ m = .elem → (v : t.Val) → (w : Bytes) → w.length * 16 ≤ maxAlloc →
    t.Takes m v w → AcceptsInner a b (tw.av v) w
  | _, _, .alias h1 h2 tw, m, hm, v, w, hL, h => .alias h1 (.plain h2 (body_accepts tw m hm v w hL h))
  | _, _, .struct (gs := gs) h1 h2 tw, m, hm, v, w, hL, h => by
    have h : gs.Takes v w := by rcases hm with rfl | rfl <;> exact h
    exact .struct h1 (members_accepts tw v w hL h) ((gathers_nodup (Eq.subst (motive := List.Nodup) (entries_names tw v).symm h2) _).2 rfl)
  | _, _, .basic h1 h2, m, hm, v, w, hL, h => .builtin h1 (.basic h2 h.2)
  | _, _, .chain h1 h2, m, hm, v, w, hL, h => .builtin h1 (.chain h2 h.2)
  | _, _, .uint64 h1, m, hm, v, w, hL, h => .builtin h1 (.chain (c := .uint64) (by decide) h.2)
  | _, _, .bytes h1, m, hm, v, w, hL, h => takes_bytes h1 h.1
  | _, _, .chainBytes h1, m, hm, v, w, hL, h => by
    obtain ⟨_, x, rfl, h⟩ := h
    exact takes_bytes h1 h
theorem body_accepts : {b : Bytes} → {arr : Bool} → {t : Ty} → (tw : TwinBody a b arr t) → (m : Mode) → m = .decode ∨ m = .elem → (v : t.Val) → (w : Bytes) → w.length * 16 ≤ maxAlloc →
    t.Takes m v w → AcceptsBody a b arr (tw.av v) w
  | _, _, _, .one tw, m, hm, v, w, hL, h => .one (inner_accepts tw m hm v w hL h)
  | _, _, _, .many tw, m, hm, v, w, hL, h => by
    obtain ⟨_, _, lb, es, h1, h2, h3, h4, rfl⟩ := h
    rw [List.length_append] at hL
    have h5 := each_items (f := fun x => tw.av x) (L := es.length) (fun x w hw h => inner_accepts tw .elem (.inr rfl) x w (mul_le_of (by omega) hL) h) (Nat.le_refl _) h4
    have h6 := acceptsItems_length h5
    refine .many (by rw [List.length_map]; exact h1) (by rw [List.length_map]; exact h2) (mul_le_of (Nat.le_trans h6 (Nat.le_add_left _ _)) hL) h5
  | _, _, _, .pointers (t := t) tw, m, hm, v, w, hL, h => by
    obtain ⟨_, _, lb, es, h1, h2, h3, h4, rfl⟩ := h
    rw [List.length_append] at hL
    have h5 := each_items (a := a) (f := fun x : Option t.Val => match x with
      | none => .nil
      | some x => tw.av x) (L := es.length) (fun x w hw h => by
        obtain ⟨y, e, h⟩ := h
        have e : x = some y := e
        subst e
        exact inner_accepts tw .decode (.inl rfl) y w (mul_le_of (by omega) hL) h) (Nat.le_refl _) h4
    have h6 := acceptsItems_length h5
    refine .many (by rw [List.length_map]; exact h1) (by rw [List.length_map]; exact h2) (mul_le_of (Nat.le_trans h6 (Nat.le_add_left _ _)) hL) h5
theorem members_accepts : {fs : List AbiField} → {gs : Fields} → (tw : TwinMembers a fs gs) → (v : gs.Val) → (w : Bytes) → w.length * 16 ≤ maxAlloc →
    gs.Takes v w → AcceptsMembers a fs (tw.entries v) w
  | _, _, .nil, v, w, hL, h => by
    have h : w = [] := h
    subst h
    exact .nil
  | _, _, .plain (f := f) (t := t) (gs := gs) h1 tw ws, v, w, hL, h => by
    suffices H : ∀ p : t.Val × gs.Val, Fields.Takes (.cons .exported .none t gs) p w → AcceptsMembers a _ (TwinMembers.entries (.plain h1 tw ws) p) w from H v h
    rintro ⟨x, v⟩ h
    obtain ⟨b1, b2, h2, rfl, h3⟩ := h
    rw [List.length_append] at hL
    exact .cons (.plain h1 (body_accepts tw .elem (.inr rfl) x b1 (mul_le_of (by omega) hL) h3)) (members_accepts ws v b2 (mul_le_of (by omega) hL) h2)
  | _, _, .pointer (f := f) (t := t) (gs := gs) h1 tw ws, v, w, hL, h => by
    suffices H : ∀ p : Option t.Val × gs.Val, Fields.Takes (.cons .exported .none (.ptr t) gs) p w → AcceptsMembers a _ (TwinMembers.entries (.pointer h1 tw ws) p) w from H v h
    rintro ⟨x, v⟩ h
    obtain ⟨b1, b2, h2, rfl, y, e, h3⟩ := h
    have e : x = some y := e
    subst e
    rw [List.length_append] at hL
    exact .cons (.plain h1 (body_accepts tw .decode (.inl rfl) y b1 (mul_le_of (by omega) hL) h3)) (members_accepts ws v b2 (mul_le_of (by omega) hL) h2)
  | _, _, .optional (f := f) (t := t) (gs := gs) h1 tw ws, v, w, hL, h => by
    suffices H : ∀ p : Option t.Val × gs.Val, Fields.Takes (.cons .exported .optional (.ptr t) gs) p w → AcceptsMembers a _ (TwinMembers.entries (.optional h1 tw ws) p) w from H v h
    rintro ⟨x, v⟩ h
    obtain ⟨b1, b2, h2, rfl, h3⟩ := h
    rw [List.length_append] at hL
    rcases h3 with ⟨e, rfl⟩ | ⟨p, b, h4, ⟨y, e, h3⟩, rfl⟩
    · have e : x = none := e
      subst e
      exact .cons (.absent h1) (members_accepts ws v b2 (mul_le_of (by omega) hL) h2)
    · have e : x = some y := e
      subst e
      rw [List.length_cons] at hL
      exact .cons (.present h1 h4 (body_accepts tw .decode (.inl rfl) y b (mul_le_of (by omega) hL) h3)) (members_accepts ws v b2 (mul_le_of (by omega) hL) h2)
  | _, _, .within (hs := hs) (gs := gs) tw ws, v, w, hL, h => by
    suffices H : ∀ p : hs.Val × gs.Val, Fields.Takes (.cons .exported .none (.struct hs) gs) p w → AcceptsMembers a _ (TwinMembers.entries (.within tw ws) p) w from H v h
    rintro ⟨x, v⟩ h
    obtain ⟨b1, b2, h2, rfl, h3⟩ := h
    rw [List.length_append] at hL
    exact acceptsMembers_append (members_accepts tw x b1 (mul_le_of (by omega) hL) h3) (members_accepts ws v b2 (mul_le_of (by omega) hL) h2)
end

/-! ### Reading: what Abi.Decode accepts, Decode accepts -/

theorem accepts_alias {b : Bytes} {ty : AbiType} (hb : IsAlias a b ty) {x : AV} {w : Bytes} (h : AcceptsInner a b x w) : Accepts a ty.type x w := by
  cases h with
  | «alias» h1 h2 => rw [isAlias_unique hb h1]; exact h2
  | struct h1 _ _ => obtain ⟨s, hs⟩ := fieldsOf_struct h1; exact (noStruct_isStruct hb.1.1 hs).elim
  | variant h1 _ _ _ => exact absurd h1.2.1 (hb.1.2 _ (mem_of_first h1.2))
  | builtin h1 _ => exact absurd hb.2.1 (h1.2 ty (mem_of_first hb.2))
  | hollow h1 _ _ => exact (noStruct_isStruct hb.1.1 h1).elim

theorem accepts_struct {b : Bytes} {f : AbiField} {fs : List AbiField} (hb : FieldsOf a b (f :: fs)) {x : AV} {w : Bytes} (h : AcceptsInner a b x w) :
    ∃ xs m, AcceptsMembers a (f :: fs) xs w ∧ Gathers xs m ∧ x = .map m := by
  obtain ⟨s, hs⟩ := fieldsOf_struct hb
  cases h with
  | «alias» h1 h2 => exact (noStruct_isStruct h1.1.1 hs).elim
  | struct h1 h2 h3 => rw [fieldsOf_unique hb h1]; exact ⟨_, _, h2, h3, rfl⟩
  | variant h1 _ _ _ => exact (noStruct_isStruct h1.1 hs).elim
  | builtin h1 _ => exact (noStruct_isStruct h1.1.1 hs).elim
  | hollow _ h2 _ => exact absurd (h2 _ hb) (by simp)

theorem accepts_builtin {b : Bytes} (hb : NotDefined a b) {x : AV} {w : Bytes} (h : AcceptsInner a b x w) : TakenAs b x w := by
  cases h with
  | «alias» h1 h2 => exact absurd h1.2.1 (hb.2 _ (mem_of_first h1.2))
  | struct h1 _ _ => obtain ⟨s, hs⟩ := fieldsOf_struct h1; exact (noStruct_isStruct hb.1.1 hs).elim
  | variant h1 _ _ _ => exact absurd h1.2.1 (hb.1.2 _ (mem_of_first h1.2))
  | builtin _ h2 => exact h2
  | hollow h1 _ _ => exact (noStruct_isStruct hb.1.1 h1).elim

theorem accepts_plain {n b : Bytes} {arr ext : Bool} (hs : Spelled n b arr ext false) {x : AV} {w : Bytes} (h : Accepts a n x w) : AcceptsBody a b arr x w := by
  cases h with
  | absent h1 => obtain ⟨_, _, _, h⟩ := spelled_unique hs h1; exact absurd h (by decide)
  | present h1 _ _ => obtain ⟨_, _, _, h⟩ := spelled_unique hs h1; exact absurd h (by decide)
  | plain h1 h2 => obtain ⟨rfl, rfl, _, _⟩ := spelled_unique hs h1; exact h2

theorem accepts_optional {n b : Bytes} {arr ext : Bool} (hs : Spelled n b arr ext true) {x : AV} {w : Bytes} (h : Accepts a n x w) :
    x = .nil ∧ w = [0] ∨ ∃ p bs, p ≠ 0 ∧ AcceptsBody a b arr x bs ∧ w = p :: bs := by
  cases h with
  | absent h1 => exact .inl ⟨rfl, rfl⟩
  | present h1 h2 h3 => obtain ⟨rfl, rfl, _, _⟩ := spelled_unique hs h1; exact .inr ⟨_, _, h2, h3, rfl⟩
  | plain h1 h2 => obtain ⟨_, _, _, h⟩ := spelled_unique hs h1; exact absurd h (by decide)

theorem basics_one : ∀ p ∈ abiBasics, ∀ q ∈ abiBasics, p.1 = q.1 → p.2 = q.2 := by decide +kernel
theorem chains_one : ∀ p ∈ abiChains, ∀ q ∈ abiChains, p.1 = q.1 → p.2 = q.2 := by decide +kernel
theorem basics_chains : ∀ p ∈ abiBasics, ∀ q ∈ abiChains, p.1 ≠ q.1 := by decide +kernel
theorem basics_bytes : ∀ p ∈ abiBasics, p.1 ≠ asc "bytes" := by decide +kernel
theorem chains_bytes : ∀ p ∈ abiChains, p.1 ≠ asc "bytes" := by decide +kernel

theorem takenAs_basic {b : Bytes} {ty : Basic} (hb : (b, ty) ∈ abiBasics) {x : AV} {w : Bytes} (h : TakenAs b x w) : ∃ v, ty.Takes v w ∧ x = .basic ty v := by
  cases h with
  | basic h1 h2 =>
    have := basics_one _ hb _ h1 rfl
    subst this
    exact ⟨_, h2, rfl⟩
  | chain h1 _ => exact absurd rfl (basics_chains _ hb _ h1)
  | bytes _ => exact absurd rfl (basics_bytes _ hb)

theorem takenAs_chain {b : Bytes} {c : ChainTy} (hb : (b, c) ∈ abiChains) {x : AV} {w : Bytes} (h : TakenAs b x w) : ∃ v, c.Takes v w ∧ x = .chain c v := by
  cases h with
  | basic h1 h2 => exact absurd rfl (basics_chains _ h1 _ hb)
  | chain h1 h2 =>
    have := chains_one _ hb _ h1 rfl
    subst this
    exact ⟨_, h2, rfl⟩
  | bytes _ => exact absurd rfl (chains_bytes _ hb)

theorem takenAs_bytes {x : AV} {w : Bytes} (h : TakenAs (asc "bytes") x w) : ∃ v, Sized w v ∧ x = .chain .bytes (some v) := by
  generalize hb : asc "bytes" = n at h
  cases h with
  | basic h1 h2 => exact absurd hb.symm (basics_bytes _ h1)
  | chain h1 h2 => exact absurd hb.symm (chains_bytes _ h1)
  | bytes h => exact ⟨_, h, rfl⟩

theorem held_slice {α : Type} (vs : List α) : ∃ o : Option (List α), o ≠ some [] ∧ Option.getD o [] = vs := by
  cases vs with
  | nil => exact ⟨none, by simp, rfl⟩
  | cons x vs => exact ⟨some (x :: vs), by simp, rfl⟩

mutual
theorem inner_takes : {b : Bytes} → {t : Ty} → (tw : TwinInner a b t) → (m : Mode) → m = .decode ∨ m = .elem → (x : AV) → (w : Bytes) → w.length * t.widest ≤ maxAlloc →
    AcceptsInner a b x w → ∃ v, tw.av v = x ∧ t.Takes m v w
  | _, _, .alias h1 h2 tw, m, hm, x, w, hL, h => body_takes tw m hm x w hL (accepts_plain h2 (accepts_alias h1 h))
  | _, _, .struct (gs := gs) h1 h2 tw, m, hm, x, w, hL, h => by
    obtain ⟨xs, y, h3, h4, rfl⟩ := accepts_struct h1 h
    obtain ⟨v, rfl, h5⟩ := members_takes tw xs w hL h3
    have := (gathers_nodup (Eq.subst (motive := List.Nodup) (entries_names tw v).symm h2) _).1 h4
    subst this
    exact ⟨v, rfl, by rcases hm with rfl | rfl <;> exact h5⟩
  | _, _, .basic (ty := ty) h1 h2, m, hm, x, w, hL, h => by
    obtain ⟨v, h3, rfl⟩ := takenAs_basic h2 (accepts_builtin h1 h)
    exact ⟨v, rfl, by rcases hm with rfl | rfl <;> simp, h3⟩
  | _, _, .chain (c := c) h1 h2, m, hm, x, w, hL, h => by
    obtain ⟨v, h3, rfl⟩ := takenAs_chain h2 (accepts_builtin h1 h)
    exact ⟨v, rfl, by rcases hm with rfl | rfl <;> simp, h3⟩
  | _, _, .uint64 h1, m, hm, x, w, hL, h => by
    obtain ⟨v, h3, rfl⟩ := takenAs_chain (c := .uint64) (by decide) (accepts_builtin h1 h)
    exact ⟨v, rfl, by rcases hm with rfl | rfl <;> simp, h3⟩
  | _, _, .bytes h1, m, hm, x, w, hL, h => by
    obtain ⟨v, h3, rfl⟩ := takenAs_bytes (accepts_builtin h1 h)
    exact ⟨(some v : Option Bytes), rfl, h3, .inl ⟨hm, nofun⟩⟩
  | _, _, .chainBytes h1, m, hm, x, w, hL, h => by
    obtain ⟨v, h3, rfl⟩ := takenAs_bytes (accepts_builtin h1 h)
    exact ⟨(some v : Option Bytes), rfl, by rcases hm with rfl | rfl <;> simp, v, rfl, h3⟩
theorem body_takes : {b : Bytes} → {arr : Bool} → {t : Ty} → (tw : TwinBody a b arr t) → (m : Mode) → m = .decode ∨ m = .elem → (x : AV) → (w : Bytes) → w.length * t.widest ≤ maxAlloc →
    AcceptsBody a b arr x w → ∃ v, tw.av v = x ∧ t.Takes m v w
  | _, _, _, .one tw, m, hm, x, w, hL, h => by
    cases h with | one h => exact inner_takes tw m hm x w hL h
  | _, _, _, .many (t := t) tw, m, hm, _, _, hL, h => by
    obtain ⟨⟩ | ⟨h1, h2, h3, h4⟩ := h
    rename_i p bs
    rw [List.length_append] at hL
    have h5 := acceptsItems_length h4
    obtain ⟨vs, rfl, h6⟩ := items_each (R := t.Takes .elem) (f := fun x => tw.av x) (L := bs.length)
      (fun x w hw h => inner_takes tw .elem (.inr rfl) x w (Nat.le_trans (Nat.mul_le_mul (by omega) (Nat.le_max_right t.size _)) hL) h) (Nat.le_refl _) h4
    rw [List.length_map] at h1 h2 h5
    obtain ⟨o, h7, rfl⟩ := held_slice vs
    exact ⟨o, rfl, by rcases hm with rfl | rfl <;> simp, h7, p, bs, h1, h2, Nat.le_trans (Nat.mul_le_mul (by omega) (Nat.le_max_left _ t.widest)) hL, h6, rfl⟩
  | _, _, _, .pointers (t := t) tw, m, hm, _, _, hL, h => by
    obtain ⟨⟩ | ⟨h1, h2, h3, h4⟩ := h
    rename_i p bs
    rw [List.length_append] at hL
    have h5 := acceptsItems_length h4
    obtain ⟨vs, rfl, h6⟩ := items_each (α := Option t.Val) (R := fun x w => (Ty.ptr t).Takes .elem x w) (f := fun x : Option t.Val => match x with
      | none => .nil
      | some x => tw.av x) (L := bs.length)
      (fun x w hw h => by
        obtain ⟨v, e, h⟩ := inner_takes tw .decode (.inl rfl) x w (Nat.le_trans (Nat.mul_le_mul (by omega) (Nat.le_max_right (Ty.ptr t).size _)) hL) h
        exact ⟨(some v : Option t.Val), e, v, rfl, h⟩) (Nat.le_refl _) h4
    rw [List.length_map] at h1 h2 h5
    obtain ⟨o, h7, rfl⟩ := held_slice vs
    exact ⟨o, rfl, by rcases hm with rfl | rfl <;> simp, h7, p, bs, h1, h2, Nat.le_trans (Nat.mul_le_mul (Nat.le_trans h5 (Nat.le_add_left _ _)) (Nat.le_max_left _ (Ty.ptr t).widest)) hL, h6, rfl⟩
theorem members_takes : {fs : List AbiField} → {gs : Fields} → (tw : TwinMembers a fs gs) → (xs : List (Bytes × AV)) → (w : Bytes) → w.length * gs.widest ≤ maxAlloc →
    AcceptsMembers a fs xs w → ∃ v, tw.entries v = xs ∧ gs.Takes v w
  | _, _, .nil, _, _, hL, h => by
    cases h
    exact ⟨(), rfl, rfl⟩
  | _, _, .plain (f := f) (t := t) (gs := gs) h1 tw ws, _, _, hL, h => by
    obtain ⟨⟩ | ⟨h2, h3⟩ := h
    rename_i b1 b2
    rw [List.length_append] at hL
    obtain ⟨v, rfl, h4⟩ := body_takes tw .elem (.inr rfl) _ b1 (Nat.le_trans (Nat.mul_le_mul (by omega) (Nat.le_max_left _ gs.widest)) hL) (accepts_plain h1 h2)
    obtain ⟨vs, rfl, h5⟩ := members_takes ws _ b2 (Nat.le_trans (Nat.mul_le_mul (by omega) (Nat.le_max_right t.widest _)) hL) h3
    exact ⟨((v, vs) : t.Val × gs.Val), rfl, b1, b2, h5, rfl, h4⟩
  | _, _, .pointer (f := f) (t := t) (gs := gs) h1 tw ws, _, _, hL, h => by
    obtain ⟨⟩ | ⟨h2, h3⟩ := h
    rename_i b1 b2
    rw [List.length_append] at hL
    obtain ⟨v, rfl, h4⟩ := body_takes tw .decode (.inl rfl) _ b1 (Nat.le_trans (Nat.mul_le_mul (by omega) (Nat.le_max_left _ gs.widest)) hL) (accepts_plain h1 h2)
    obtain ⟨vs, rfl, h5⟩ := members_takes ws _ b2 (Nat.le_trans (Nat.mul_le_mul (by omega) (Nat.le_max_right t.widest _)) hL) h3
    exact ⟨((some v, vs) : Option t.Val × gs.Val), rfl, b1, b2, h5, rfl, v, rfl, h4⟩
  | _, _, .optional (f := f) (t := t) (gs := gs) h1 tw ws, _, _, hL, h => by
    obtain ⟨⟩ | ⟨h2, h3⟩ := h
    rename_i b1 b2
    rw [List.length_append] at hL
    obtain ⟨vs, rfl, h5⟩ := members_takes ws _ b2 (Nat.le_trans (Nat.mul_le_mul (by omega) (Nat.le_max_right t.widest _)) hL) h3
    rcases accepts_optional h1 h2 with ⟨rfl, rfl⟩ | ⟨p, bs, h4, h6, rfl⟩
    · exact ⟨((none, vs) : Option t.Val × gs.Val), rfl, [0], b2, h5, rfl, .inl ⟨rfl, rfl⟩⟩
    · rw [List.length_cons] at hL
      obtain ⟨v, rfl, h7⟩ := body_takes tw .decode (.inl rfl) _ bs (Nat.le_trans (Nat.mul_le_mul (by omega) (Nat.le_max_left _ gs.widest)) hL) h6
      exact ⟨((some v, vs) : Option t.Val × gs.Val), rfl, p :: bs, b2, h5, rfl, .inr ⟨p, bs, h4, ⟨v, rfl, h7⟩, rfl⟩⟩
  | _, _, .within (hs := hs) (gs := gs) tw ws, _, _, hL, h => by
    obtain ⟨x1, x2, b1, b2, h1, h2, rfl, rfl⟩ := acceptsMembers_split h
    rw [List.length_append] at hL
    obtain ⟨v, rfl, h4⟩ := members_takes tw _ b1 (Nat.le_trans (Nat.mul_le_mul (by omega) (Nat.le_max_left _ gs.widest)) hL) h1
    obtain ⟨vs, rfl, h5⟩ := members_takes ws _ b2 (Nat.le_trans (Nat.mul_le_mul (by omega) (Nat.le_max_right hs.widest _)) hL) h2
    exact ⟨((v, vs) : hs.Val × gs.Val), rfl, b1, b2, h5, rfl, h4⟩
end

/-! ### Writing -/

mutual
theorem inner_av_ne : {b : Bytes} → {t : Ty} → (tw : TwinInner a b t) → (v : t.Val) → tw.av v ≠ .nil
  | _, _, .alias _ _ tw, v => body_av_ne tw v
  | _, _, .struct _ _ _, _ => nofun
  | _, _, .basic _ _, _ => nofun
  | _, _, .chain _ _, _ => nofun
  | _, _, .uint64 _, _ => nofun
  | _, _, .bytes _, _ => nofun
  | _, _, .chainBytes _, _ => nofun
theorem body_av_ne : {b : Bytes} → {arr : Bool} → {t : Ty} → (tw : TwinBody a b arr t) → (v : t.Val) → tw.av v ≠ .nil
  | _, _, _, .one tw, v => inner_av_ne tw v
  | _, _, _, .many _, _ => nofun
  | _, _, _, .pointers _, _ => nofun
end

section
variable {B : Bytes → AV → Bytes → Prop}

theorem each_wire {α : Type} {R : α → Bytes → Prop} {f : α → AV} {b : Bytes} {xs : List α} {w : Bytes} (he : Each R xs w) (h : ∀ x ∈ xs, ∀ w, R x w → Inner a B true b (f x) w) :
    Items a B true b (xs.map f) w := by
  induction he with
  | nil => exact .nil
  | cons h1 _ ih => exact .cons (h _ (by simp) _ h1) (ih fun x hx => h x (by simp [hx]))

theorem members_append {exact : Bool} {m : List (Bytes × AV)} : {fs gs : List AbiField} → {w w' : Bytes} → Members a B exact fs m w → Members a B exact gs m w' → Members a B exact (fs ++ gs) m (w ++ w')
  | _, _, _, _, .nil, h' => h'
  | _, _, _, _, .cons h1 h2 h3, h' => by rw [List.append_assoc]; exact .cons h1 h2 (members_append h3 h')

/-- B contains the builtin types, and "bytes" if it occurs. -/
def Enough (B : Bytes → AV → Bytes → Prop) (free : Prop) : Prop :=
  (∀ b v w, Plain b v w → B b v w) ∧ (free ∨ ∀ x w : Bytes, x.length < 2 ^ 28 → Prefixed w x → B (asc "bytes") (.chain .bytes (some x)) w)

theorem Enough.left {p q : Prop} (h : Enough B (p ∧ q)) : Enough B p := ⟨h.1, h.2.imp_left And.left⟩
theorem Enough.right {p q : Prop} (h : Enough B (p ∧ q)) : Enough B q := ⟨h.1, h.2.imp_left And.right⟩

mutual
theorem inner_wire : {b : Bytes} → {t : Ty} → (tw : TwinInner a b t) → Enough B tw.NoBytes → (v : t.Val) → (w : Bytes) → t.Wf v → t.Layout v w → Inner a B true b (tw.av v) w
  | _, _, .alias h1 h2 tw, hB, v, w, hw, h => .alias h1 (.plain h2 (body_av_ne tw v) (body_wire tw hB v w hw h))
  | _, _, .struct h1 h2 tw, hB, v, w, hw, h => by
    have hn := Eq.subst (motive := List.Nodup) (entries_names tw v).symm h2
    refine .struct h1 (members_wire tw hB v w hw h _ fun e he => (entry_of_gathers hn ((gathers_nodup hn _).2 rfl) he _).2 rfl) fun _ => ⟨entries_names tw v, hn⟩
  | _, _, .basic h1 h2, hB, v, w, hw, h => .builtin h1 (hB.1 _ _ _ (.basic h2 hw h))
  | _, _, .chain h1 h2, hB, v, w, hw, h => .builtin h1 (hB.1 _ _ _ (.chain h2 hw h))
  | _, _, .uint64 h1, hB, v, w, hw, h => .builtin h1 (hB.1 _ _ _ (.chain (c := .uint64) (by decide) trivial h))
  | _, _, .bytes h1, hB, v, w, hw, h => .builtin h1 (hB.2.resolve_left id _ w hw h)
  | _, _, .chainBytes h1, hB, v, w, hw, h => .builtin h1 (hB.2.resolve_left id _ w hw h)
theorem body_wire : {b : Bytes} → {arr : Bool} → {t : Ty} → (tw : TwinBody a b arr t) → Enough B tw.NoBytes → (v : t.Val) → (w : Bytes) → t.Wf v → t.Layout v w → Body a B true b arr (tw.av v) w
  | _, _, _, .one tw, hB, v, w, hw, h => .one (inner_wire tw hB v w hw h)
  | _, _, _, .many tw, hB, v, w, hw, h => by
    obtain ⟨lb, es, h1, h2, rfl⟩ := h
    obtain ⟨h3, _, h4⟩ := hw
    refine .many ⟨?_, ?_⟩ (each_wire (f := fun x => tw.av x) h2 fun x hx w h => inner_wire tw hB x w (h4 x hx) h)
    · rw [List.length_map]; exact h1
    · rw [List.length_map]; exact h3
  | _, _, _, .pointers (t := t) tw, hB, v, w, hw, h => by
    obtain ⟨lb, es, h1, h2, rfl⟩ := h
    obtain ⟨h3, _, h4⟩ := hw
    refine .many ⟨?_, ?_⟩ (each_wire (α := Option t.Val) (f := fun x : Option t.Val => match x with
      | none => .nil
      | some x => tw.av x) h2 fun x hx w h => ?_)
    · rw [List.length_map]; exact h1
    · rw [List.length_map]; exact h3
    · obtain ⟨y, e, h5⟩ := h4 x hx
      obtain ⟨z, e', h6⟩ := h
      have e : x = some y := e
      have e' : x = some z := e'
      subst e
      cases e'
      exact inner_wire tw hB y w h5 h6
theorem members_wire : {fs : List AbiField} → {gs : Fields} → (tw : TwinMembers a fs gs) → Enough B tw.NoBytes → (v : gs.Val) → (w : Bytes) → gs.Wf v → gs.Layout v w →
    (m : List (Bytes × AV)) → (∀ e ∈ tw.entries v, Entry m e.1 e.2) → Members a B true fs m w
  | _, _, .nil, hB, v, w, hw, h, m, hm => by
    have h : w = [] := h
    subst h
    exact .nil
  | _, _, .plain (f := f) (t := t) (gs := gs) h1 tw ws, hB, v, w, hw, h, m, hm => by
    suffices H : ∀ p : t.Val × gs.Val, Fields.Wf (.cons .exported .none t gs) p → Fields.Layout (.cons .exported .none t gs) p w →
      (∀ e ∈ TwinMembers.entries (.plain h1 tw ws) p, Entry m e.1 e.2) → Members a B true _ m w from H v hw h hm
    rintro ⟨x, v⟩ ⟨hw, hv⟩ ⟨b1, b2, h2, rfl, h3⟩ hm
    rcases hw with ⟨h, _⟩ | hw
    · exact absurd h (by decide)
    exact .cons (hm _ List.mem_cons_self) (.plain h1 (body_av_ne tw x) (body_wire tw hB.left x b1 hw h3)) (members_wire ws hB.right v b2 hv h2 m fun e he => hm e (List.mem_cons_of_mem _ he))
  | _, _, .pointer (f := f) (t := t) (gs := gs) h1 tw ws, hB, v, w, hw, h, m, hm => by
    suffices H : ∀ p : Option t.Val × gs.Val, Fields.Wf (.cons .exported .none (.ptr t) gs) p → Fields.Layout (.cons .exported .none (.ptr t) gs) p w →
      (∀ e ∈ TwinMembers.entries (.pointer h1 tw ws) p, Entry m e.1 e.2) → Members a B true _ m w from H v hw h hm
    rintro ⟨x, v⟩ ⟨hw, hv⟩ ⟨b1, b2, h2, rfl, z, e', h3⟩ hm
    rcases hw with ⟨h, _⟩ | ⟨y, e, hw⟩
    · exact absurd h (by decide)
    have e : x = some y := e
    have e' : x = some z := e'
    subst e
    cases e'
    exact .cons (hm _ List.mem_cons_self) (.plain h1 (body_av_ne tw z) (body_wire tw hB.left z b1 hw h3)) (members_wire ws hB.right v b2 hv h2 m fun e he => hm e (List.mem_cons_of_mem _ he))
  | _, _, .optional (f := f) (t := t) (gs := gs) h1 tw ws, hB, v, w, hw, h, m, hm => by
    suffices H : ∀ p : Option t.Val × gs.Val, Fields.Wf (.cons .exported .optional (.ptr t) gs) p → Fields.Layout (.cons .exported .optional (.ptr t) gs) p w →
      (∀ e ∈ TwinMembers.entries (.optional h1 tw ws) p, Entry m e.1 e.2) → Members a B true _ m w from H v hw h hm
    rintro ⟨x, v⟩ ⟨hw, hv⟩ ⟨b1, b2, h2, rfl, h3⟩ hm
    have ht := members_wire ws hB.right v b2 hv h2 m fun e he => hm e (List.mem_cons_of_mem _ he)
    rw [if_pos rfl] at h3
    rcases h3 with ⟨e, rfl⟩ | ⟨hne, b, ⟨z, e', h3⟩, rfl⟩
    · have e : x = none := e
      subst e
      exact .cons (hm _ List.mem_cons_self) (.absent h1) ht
    · have e' : x = some z := e'
      subst e'
      rcases hw with ⟨_, hw⟩ | ⟨y, e, hw⟩
      · exact absurd hw hne
      have e : some z = some y := e
      cases e
      exact .cons (hm _ List.mem_cons_self) (.present h1 (body_av_ne tw z) (body_wire tw hB.left z b hw h3)) ht
  | _, _, .within (hs := hs) (gs := gs) tw ws, hB, v, w, hw, h, m, hm => by
    suffices H : ∀ p : hs.Val × gs.Val, Fields.Wf (.cons .exported .none (.struct hs) gs) p → Fields.Layout (.cons .exported .none (.struct hs) gs) p w →
      (∀ e ∈ TwinMembers.entries (.within tw ws) p, Entry m e.1 e.2) → Members a B true _ m w from H v hw h hm
    rintro ⟨x, v⟩ ⟨hw, hv⟩ ⟨b1, b2, h2, rfl, h3⟩ hm
    rcases hw with ⟨h, _⟩ | hw
    · exact absurd h (by decide)
    exact members_append (members_wire tw hB.left x b1 hw h3 m fun e he => hm e (List.mem_append_left _ he)) (members_wire ws hB.right v b2 hv h2 m fun e he => hm e (List.mem_append_right _ he))
end
end

/-! ### The Go types -/

mutual
theorem inner_go : {b : Bytes} → {t : Ty} → TwinInner a b t → t.Strait ∧ t.Encodable ∧ t.Decodable .decode ∧ t.Decodable .elem
  | _, _, .alias _ _ tw => body_go tw
  | _, _, .struct _ _ tw => let h := members_go tw; ⟨h.1, h.2.1, h.2.2, h.2.2⟩
  | _, _, .basic _ _ => ⟨trivial, trivial, nofun, nofun⟩
  | _, _, .chain _ _ => ⟨trivial, trivial, trivial, trivial⟩
  | _, _, .uint64 _ => ⟨trivial, trivial, nofun, nofun⟩
  | _, _, .bytes _ => ⟨trivial, trivial, trivial, trivial⟩
  | _, _, .chainBytes _ => ⟨trivial, trivial, trivial, trivial⟩
theorem body_go : {b : Bytes} → {arr : Bool} → {t : Ty} → TwinBody a b arr t → t.Strait ∧ t.Encodable ∧ t.Decodable .decode ∧ t.Decodable .elem
  | _, _, _, .one tw => inner_go tw
  | _, _, _, .many tw => let h := inner_go tw; ⟨h.1, h.2.1, h.2.2.2, h.2.2.2⟩
  | _, _, _, .pointers tw => let h := inner_go tw; ⟨h.1, h.2.1, h.2.2.1, h.2.2.1⟩
theorem members_go : {fs : List AbiField} → {gs : Fields} → TwinMembers a fs gs → gs.Strait ∧ gs.Encodable ∧ gs.Decodable
  | _, _, .nil => ⟨trivial, trivial, trivial⟩
  | _, _, .plain _ tw ws => let h := body_go tw; let k := members_go ws; ⟨⟨nofun, h.1, k.1⟩, ⟨rfl, h.2.1, k.2.1⟩, rfl, nofun, h.2.2.2, k.2.2⟩
  | _, _, .pointer _ tw ws => let h := body_go tw; let k := members_go ws; ⟨⟨nofun, h.1, k.1⟩, ⟨rfl, h.2.1, k.2.1⟩, rfl, nofun, h.2.2.1, k.2.2⟩
  | _, _, .optional _ tw ws => let h := body_go tw; let k := members_go ws; ⟨⟨nofun, h.1, k.1⟩, ⟨rfl, h.2.1, k.2.1⟩, rfl, nofun, h.2.2.1, k.2.2⟩
  | _, _, .within tw ws => let h := members_go tw; let k := members_go ws; ⟨⟨nofun, h.1, k.1⟩, ⟨rfl, h.2.1, k.2.1⟩, rfl, nofun, h.2.2, k.2.2⟩
end

end Verif
