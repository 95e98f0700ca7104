import Verif.Lemmas.TakesChain
import Verif.Lemmas.Calm
/-! Exact acceptance of the reflection decoder. -/
namespace Verif
open Dec

/-! ### Maps -/

theorem mapSet_fst {α β : Type} [DecidableEq α] (k : α) (v : β) (m : List (α × β)) :
    (mapSet k v m).map Prod.fst = if k ∈ m.map Prod.fst then m.map Prod.fst else m.map Prod.fst ++ [k] := by
  induction m with
  | nil => simp [mapSet]
  | cons y m ih =>
    obtain ⟨k', v'⟩ := y
    unfold mapSet
    split
    · rename_i h
      subst h
      simp
    · rename_i h
      rw [List.map_cons, ih]
      have h' : k ≠ k' := fun e => h e.symm
      by_cases hk : k ∈ m.map Prod.fst <;> simp [hk, h']

theorem mem_mapSet {α β : Type} [DecidableEq α] (k : α) (v : β) (m : List (α × β)) (hn : (m.map Prod.fst).Nodup) (k' : α) (v' : β) :
    (k', v') ∈ mapSet k v m ↔ k' = k ∧ v' = v ∨ k' ≠ k ∧ (k', v') ∈ m := by
  induction m with
  | nil => simp [mapSet]
  | cons y m ih =>
    obtain ⟨a, b⟩ := y
    simp only [List.map_cons, List.nodup_cons] at hn
    unfold mapSet
    split
    · rename_i h
      subst h
      simp only [List.mem_cons, Prod.mk.injEq]
      constructor
      · rintro (h | h)
        · exact .inl h
        · refine .inr ⟨fun e => hn.1 (e ▸ List.mem_map_of_mem (f := Prod.fst) h), .inr h⟩
      · rintro (h | ⟨h1, h2 | h2⟩)
        · exact .inl h
        · exact absurd h2.1 h1
        · exact .inr h2
    · rename_i h
      simp only [List.mem_cons, Prod.mk.injEq, ih hn.2]
      constructor
      · rintro (⟨rfl, rfl⟩ | h1 | h1)
        · exact .inr ⟨h, .inl ⟨rfl, rfl⟩⟩
        · exact .inl h1
        · exact .inr ⟨h1.1, .inr h1.2⟩
      · rintro (h1 | ⟨h1, h2 | h2⟩)
        · exact .inr (.inl h1)
        · exact .inl h2
        · exact .inr (.inr ⟨h1, h2⟩)

theorem assoc_ext {α β : Type} : ∀ (m m' : List (α × β)), m.map Prod.fst = m'.map Prod.fst → (m.map Prod.fst).Nodup → (∀ p ∈ m, p ∈ m') → m = m'
  | [], [], _, _, _ => rfl
  | [], _ :: _, h, _, _ => by simp at h
  | _ :: _, [], h, _, _ => by simp at h
  | (k, x) :: m, (k', x') :: m', h, hn, hm => by
    simp only [List.map_cons, List.cons.injEq] at h
    obtain ⟨rfl, h⟩ := h
    simp only [List.map_cons, List.nodup_cons] at hn
    have hx : x = x' := by
      rcases List.mem_cons.1 (hm _ List.mem_cons_self) with e | e
      · exact (Prod.mk.inj e).2
      · exact absurd (List.mem_map_of_mem (f := Prod.fst) e) (h ▸ hn.1)
    subst hx
    rw [assoc_ext m m' h hn.2 fun p hp => ?_]
    rcases List.mem_cons.1 (hm p (List.mem_cons_of_mem _ hp)) with e | e
    · exact absurd (List.mem_map_of_mem (f := Prod.fst) hp) (e ▸ hn.1)
    · exact e

/-- Storing the entries one after the other. -/
def stores {α β : Type} [DecidableEq α] (ys : List (α × β)) (m : List (α × β)) : List (α × β) := ys.foldl (fun m y => mapSet y.1 y.2 m) m

theorem stores_gathers {α β : Type} [DecidableEq α] (ys : List (α × β)) : Gathers ys (stores ys []) ∧ ((stores ys []).map Prod.fst).Nodup := by
  rw [← List.reverse_reverse ys]
  generalize ys.reverse = zs
  induction zs with
  | nil => exact ⟨⟨by simp [stores], by simp [stores]⟩, by simp [stores]⟩
  | cons z zs ih =>
    obtain ⟨k, x⟩ := z
    rw [List.reverse_cons]
    generalize zs.reverse = ys at ih ⊢
    obtain ⟨⟨h1, h2⟩, h3⟩ := ih
    have e : stores (ys ++ [(k, x)]) [] = mapSet k x (stores ys []) := by simp [stores]
    have hmem : k ∈ (stores ys []).map Prod.fst ↔ k ∈ ys.map Prod.fst := by rw [h1, List.mem_eraseDups]
    refine ⟨⟨?_, ?_⟩, ?_⟩
    · rw [e, mapSet_fst, List.map_append, List.eraseDups_append, h1]
      by_cases hk : k ∈ ys.map Prod.fst
      · rw [if_pos (by rw [← h1]; exact hmem.2 hk)]
        have : [k].removeAll (ys.map Prod.fst) = [] := by simp only [List.removeAll, List.filter_cons, List.filter_nil, List.elem_eq_mem, hk, decide_true, Bool.not_true]; rfl
        rw [List.map_cons, List.map_nil, this]
        simp
      · rw [if_neg (by rw [← h1]; exact fun h => hk (hmem.1 h))]
        have : [k].removeAll (ys.map Prod.fst) = [k] := by simp only [List.removeAll, List.filter_cons, List.filter_nil, List.elem_eq_mem, hk, decide_false, Bool.not_false]; rfl
        rw [List.map_cons, List.map_nil, this]
        rfl
    · intro k' x'
      rw [e, mem_mapSet k x _ h3, h2]
      constructor
      · rintro (⟨rfl, rfl⟩ | ⟨hne, pre, post, rfl, h⟩)
        · exact ⟨ys, [], rfl, fun _ h => nomatch h⟩
        · refine ⟨pre, post ++ [(k, x)], by simp, fun y hy => ?_⟩
          rcases List.mem_append.1 hy with hy | hy
          · exact h y hy
          · rw [List.mem_singleton.1 hy]
            exact fun e => hne e.symm
      · rintro ⟨pre, post, he, h⟩
        rcases List.eq_nil_or_concat post with rfl | ⟨post', z, rfl⟩
        · obtain ⟨_, h'⟩ := List.append_inj' he rfl
          obtain ⟨h4, h5⟩ := Prod.mk.inj (List.cons.inj h').1
          exact .inl ⟨h4.symm, h5.symm⟩
        · rw [show pre ++ (k', x') :: (post'.concat z) = (pre ++ (k', x') :: post') ++ [z] by simp] at he
          obtain ⟨h4, h5⟩ := List.append_inj' he rfl
          obtain rfl := (List.cons.inj h5).1
          refine .inr ⟨fun e => h (k, x) (by simp) e.symm, pre, post', h4, fun y hy => h y (by simp [hy])⟩
    · rw [e, mapSet_fst]
      split
      · exact h3
      · rename_i hk
        rw [List.nodup_append]
        exact ⟨h3, by simp, fun a ha b hb hab => hk (by rw [List.mem_singleton.1 hb] at hab; exact hab ▸ ha)⟩

theorem gathers_iff {α β : Type} [DecidableEq α] (ys m : List (α × β)) : Gathers ys m ↔ m = stores ys [] := by
  obtain ⟨⟨h1, h2⟩, h3⟩ := stores_gathers ys
  constructor
  · rintro ⟨h4, h5⟩
    refine (assoc_ext _ _ (h1.trans h4.symm) h3 ?_).symm
    rintro ⟨k, x⟩ hp
    exact (h5 k x).2 ((h2 k x).1 hp)
  · rintro rfl
    exact ⟨h1, h2⟩

theorem mapLoop_exactly {α β : Type} [DecidableEq α] {dk : Dec (α × Option Err)} {dv : Dec (β × Option Err)} {K : α → Bytes → Prop} {V : β → Bytes → Prop} (hk : dk.Exactly K) (hv : dv.Exactly V) (n : Nat) (m : List (α × β)) :
    (mapLoop dk dv n m).Exactly fun a w => ∃ ys : List (α × β), ys.length = n ∧ Each (fun y bs => ∃ b1 b2, K y.1 b1 ∧ V y.2 b2 ∧ bs = b1 ++ b2) ys w ∧ a = stores ys m := by
  induction n generalizing m with
  | zero =>
    refine (exactly_pure m).iff fun a w => ?_
    constructor
    · rintro ⟨rfl, rfl⟩
      exact ⟨[], rfl, .nil, rfl⟩
    · rintro ⟨xs, h1, h2, rfl⟩
      obtain rfl := List.eq_nil_of_length_eq_zero h1
      cases h2
      exact ⟨rfl, rfl⟩
  | succ n ih =>
    apply Exactly.iff
    case h =>
      unfold mapLoop
      ebind hk with k
      ebind hv with v
      exact ih (mapSet k v m)
    intro a w
    constructor
    · rintro ⟨k, w1, _, h1, ⟨v, w2, w3, h2, ⟨ys, h3, h4, rfl⟩, rfl⟩, rfl⟩
      refine ⟨(k, v) :: ys, by simp [h3], ?_, rfl⟩
      rw [← List.append_assoc]
      exact .cons ⟨w1, w2, h1, h2, rfl⟩ h4
    · rintro ⟨ys, h1, h2, rfl⟩
      cases h2 with
      | nil => cases h1
      | cons hx hxs =>
        obtain ⟨b1, b2, h3, h4, rfl⟩ := hx
        exact ⟨_, b1, _, h3, ⟨_, b2, _, h4, ⟨_, by simpa using h1, hxs, rfl⟩, rfl⟩, by simp⟩

theorem decodeMap_exactly {α β : Type} [DecidableEq α] {dk : Dec (α × Option Err)} {dv : Dec (β × Option Err)} {K : α → Bytes → Prop} {V : β → Bytes → Prop} (hk : dk.Exactly K) (hv : dv.Exactly V) (old : Option (List (α × β))) :
    (decodeMap dk dv old).Exactly fun a w => ∃ (ys xs : List (α × β)) (lb es : Bytes), a = some xs ∧ Gathers ys xs ∧ AnyCount lb ys.length ∧
      Each (fun y bs => ∃ b1 b2, K y.1 b1 ∧ V y.2 b2 ∧ bs = b1 ++ b2) ys es ∧ w = lb ++ es := by
  apply Exactly.iff
  case h =>
    unfold decodeMap
    ebind readVaruint_exactly with l
    emap (mapLoop_exactly hk hv _ _)
  intro a w
  constructor
  · rintro ⟨l, lb, es, h1, ⟨m, ⟨ys, h2, h3, rfl⟩, rfl⟩, rfl⟩
    exact ⟨ys, _, lb, es, rfl, (gathers_iff _ _).2 rfl, goInt_anyCount l lb _ h1 h2, h3, rfl⟩
  · rintro ⟨ys, xs, lb, es, rfl, h1, h2, h3, rfl⟩
    obtain ⟨l, h4, h5⟩ := anyCount_goInt _ _ h2
    exact ⟨l, lb, es, h4, ⟨xs, ⟨ys, h5, h3, (gathers_iff _ _).1 h1⟩, rfl⟩, rfl⟩

/-! ### Slices -/

theorem decodeSlice_exactly {α : Type} {R : α → Bytes → Prop} (zero : α) (size : Nat) {dec : α → Dec (α × Option Err)} (h : (dec zero).Exactly R) :
    (decodeSlice zero size dec none).Exactly fun v w => v ≠ some [] ∧ SizedEach size R (v.getD []) w := by
  apply Exactly.iff
  case h =>
    unfold decodeSlice
    refine readVaruint_exactly.bind (S := fun l v w => l.toNat < 2 ^ 63 ∧ l.toNat * size ≤ maxAlloc ∧ ∃ ys : List α, ys.length = l.toNat ∧ Each R ys w ∧ v = if ys = [] then none else some ys) ?_ ?_
    · intro l
      show Dec.Exactly (if _ then _ else _) _
      split
      · rename_i hl
        apply Exactly.iff
        case h =>
          apply makeSlice_exactly
          emap (decEach_exactly _ fun x hx => by rw [List.eq_of_mem_replicate hx]; exact h)
        intro v w
        refine and_congr_right fun h1 => and_congr_right fun h2 => exists_congr fun ys => ?_
        rw [List.length_replicate, and_assoc]
        refine and_congr_right fun h3 => and_congr_right fun h4 => ?_
        have : ys ≠ [] := by
          rintro rfl
          apply hl
          rw [(goInt_eq l 0).2 ⟨h3.symm, by decide⟩]
          rfl
        rw [if_neg this]
      · rename_i hl
        have hl : goInt l = (0 : Nat) := by simpa using (Decidable.not_not.1 hl).symm
        have hz := ((goInt_eq l 0).1 hl).1
        apply Exactly.iff
        case h =>
          emap (decEach_exactly (R := R) [] fun _ h => nomatch h)
        intro v w
        constructor
        · rintro ⟨ys, ⟨h1, h2⟩, rfl⟩
          have := List.eq_nil_of_length_eq_zero h1
          exact ⟨by omega, by rw [hz]; omega, ys, by rw [h1, hz]; rfl, h2, by rw [if_pos this]; rfl⟩
        · rintro ⟨_, _, ys, h1, h2, rfl⟩
          have := List.eq_nil_of_length_eq_zero (h1.trans hz)
          exact ⟨ys, ⟨by rw [this], h2⟩, by rw [if_pos this]; rfl⟩
    · intro _ _
      exact never_fail _ _
  intro v w
  constructor
  · rintro ⟨l, lb, es, h1, ⟨h2, h3, ys, h4, h5, rfl⟩, rfl⟩
    by_cases hy : ys = []
    · rw [if_pos hy]
      subst hy
      exact ⟨by simp, lb, es, by rw [show l.toNat = 0 from h4.symm] at h1; exact h1, by simp, by simp, h5, rfl⟩
    · rw [if_neg hy]
      exact ⟨by simpa using hy, lb, es, by rw [Option.getD_some, h4]; exact h1, by rw [Option.getD_some, h4]; exact h2, by rw [Option.getD_some, h4]; exact h3, h5, rfl⟩
  · rintro ⟨hv, lb, es, h1, h2, h3, h4, rfl⟩
    have e : (v.getD []).length.toUInt64.toNat = (v.getD []).length := by simp; omega
    refine ⟨(v.getD []).length.toUInt64, lb, es, by rw [e]; exact h1, ⟨by rw [e]; exact h2, by rw [e]; exact h3, v.getD [], e.symm, h4, ?_⟩, rfl⟩
    cases v with
    | none => rfl
    | some xs =>
      have : xs ≠ [] := fun h => hv (by rw [h])
      rw [Option.getD_some, if_neg this]

/-! ### Ways of reaching the destination -/

theorem via_exactly {t : Ty} (ht : t.isChain = false) (mode : Mode) (old : t.Val) {fast slow : t.Val → Dec (t.Val × Option Err)} {R S : t.Val → Bytes → Prop}
    (hf : (fast old).Exactly R) (hs : (slow old).Exactly S) :
    (viaDecFn chainDecoder t mode old fast slow).Exactly fun v w => (mode = .decode ∨ mode = .elem) ∧ R v w ∨ mode = .value ∧ S v w := by
  cases mode with
  | value => exact hs.iff fun v w => by simp
  | variant i => exact (never_fail _ _).exactly fun v w => by simp
  | member => exact (never_fail _ _).exactly fun v w => by simp
  | decode => unfold viaDecFn; rw [chainDecoder_else t ht]; exact hf.iff fun v w => by simp
  | elem => unfold viaDecFn; rw [chainDecoder_else t ht]; exact hf.iff fun v w => by simp

theorem via_exactly' {t : Ty} (ht : t.isChain = false) (mode : Mode) (old : t.Val) {f : t.Val → Dec (t.Val × Option Err)} {R : t.Val → Bytes → Prop}
    (hf : (f old).Exactly R) :
    (viaDecFn chainDecoder t mode old f f).Exactly fun v w => (mode = .decode ∨ mode = .elem ∨ mode = .value) ∧ R v w :=
  (via_exactly ht mode old hf hf).iff fun v w => by constructor <;> rintro h <;> tauto

theorem chain_mode_exactly (c : ChainTy) (m : Mode) (old : c.Val) (ho : c.Clean old) : (decodeWith chainDecoder (.chain c) m old).Exactly fun v w => m ≠ .member ∧ c.Takes v w := by
  have h := chain_exactly c old ho
  cases m with
  | variant i => exact h.iff fun v w => by simp
  | member => exact (never_fail _ _).exactly fun v w => by simp
  | value => rw [decode_chain c _ (by simp [Mode.Plain])]; exact h.iff fun v w => by simp
  | decode => rw [decode_chain c _ (by simp [Mode.Plain])]; exact h.iff fun v w => by simp
  | elem => rw [decode_chain c _ (by simp [Mode.Plain])]; exact h.iff fun v w => by simp

theorem readKind_exactly (b : Basic) (old : b.Val) : (b.readKind old).Exactly fun v w => b.Wide ∧ b.Takes v w := by
  have key : ∀ p : Dec (b.Val × Option Err), p.Exactly b.Takes → b.Wide → (p >>= fun (v, err) => match err with | some e => pure (old, some e) | none => pure (v, none)).Exactly
      fun v w => b.Wide ∧ b.Takes v w := by
    intro p h hb
    have := h.same (f := fun x => match x with | (v, err) => match err with | some e => pure (old, some e) | none => pure (v, none)) (fun _ => rfl) fun _ _ => ⟨_, _, rfl⟩
    exact this.iff fun v w => by simp [hb]
  have h := basic_exactly b
  cases b
  case u64 => exact key _ h trivial
  case u32 => exact key _ h trivial
  case i64 => exact key _ h trivial
  case i32 => exact key _ h trivial
  all_goals exact (never_fail _ _).exactly fun v w => by simp [Basic.Wide]

theorem each_u8 (v es : Bytes) : Each (fun (b : UInt8) w => w = [b]) v es ↔ es = v := by
  induction v generalizing es with
  | nil => exact ⟨fun h => by cases h; rfl, fun h => by rw [h]; exact .nil⟩
  | cons b v ih =>
    constructor
    · intro h
      cases h with
      | cons hx hxs => rw [hx, (ih _).1 hxs]; rfl
    · rintro rfl
      exact .cons (x := b) (b := [b]) rfl ((ih v).2 rfl)

theorem decodeBytes_exactly (old : Option Bytes) : (decodeBytes old).Exactly fun v w => ∃ x : Bytes, v = some x ∧ Sized w x := by
  refine (exactly_sized (some : Bytes → Option Bytes) (fun l => exactly_bytes_int some ?_ fun _ _ _ => ⟨_, _, rfl⟩) fun _ _ => never_fail _ _).iff fun v w => exists_congr fun _ => and_comm
  intro b hb
  show pure (if goInt l < 0 then none else some b, none) = _
  rw [if_neg (by omega)]

theorem elemBytes_exactly : (decodeSlice (0 : UInt8) 1 (fun x => viaDecFn chainDecoder (.basic .u8) .elem x (fun _ => readUint8) (fun x => pure (x, none))) none).Exactly
    fun v w => v ≠ some [] ∧ Sized w (v.getD []) := by
  refine (decodeSlice_exactly (R := fun (b : UInt8) w => w = [b]) 0 1 ?_).iff fun v w => ?_
  · exact readUint8_exactly
  · refine and_congr_right fun _ => ?_
    unfold SizedEach Sized
    constructor
    · rintro ⟨lb, es, h1, h2, h3, h4, rfl⟩
      exact ⟨lb, h1, by omega, by rw [(each_u8 _ _).1 h4]⟩
    · rintro ⟨lb, h1, h2, rfl⟩
      have : maxAlloc < 2 ^ 63 := by decide
      exact ⟨lb, _, h1, by omega, by omega, (each_u8 _ _).2 rfl, rfl⟩

theorem alloc_zero_elem (fn : DecFn) (t : Ty) : decodeWith fn t .elem (t.alloc t.zero) = decodeWith fn t .elem t.zero := by cases t <;> rfl
theorem alloc_zero_variant (fn : DecFn) (t : Ty) (i : Nat) : decodeWith fn t (.variant i) (t.alloc t.zero) = decodeWith fn t (.variant i) t.zero := by cases t <;> rfl

theorem nilZero (t : Ty) : t.Nilable ∧ t.isNil t.zero = some true ∨ ¬ t.Nilable ∧ t.isNil t.zero = none := by
  cases t with
  | chain c => cases c <;> first | exact .inl ⟨trivial, rfl⟩ | exact .inr ⟨id, rfl⟩
  | _ => first | exact .inl ⟨trivial, rfl⟩ | exact .inr ⟨id, rfl⟩

theorem clearZero : (fs : Fields) → (sel : Option Nat) → fs.NilableBut sel ∧ fs.clear sel fs.zero = some fs.zero ∨ ¬ fs.NilableBut sel ∧ fs.clear sel fs.zero = none
  | .nil, _ => .inl ⟨trivial, rfl⟩
  | .cons vis tag t fs, sel => by
    have ih := clearZero fs (match sel with
      | some (n + 1) => some n
      | _ => none)
    have ht := nilZero t
    have hz : (Fields.cons vis tag t fs).zero = (t.zero, fs.zero) := rfl
    match sel with
    | some 0 =>
      rcases ih with ⟨h1, h2⟩ | ⟨h1, h2⟩
      · left
        refine ⟨h1, ?_⟩
        unfold Fields.clear
        simp only [hz] at h2 ⊢
        rw [h2]
        rfl
      · right
        refine ⟨h1, ?_⟩
        unfold Fields.clear
        simp only [hz] at h2 ⊢
        rw [h2]
        rfl
    | some (n + 1) =>
      rcases ih with ⟨h1, h2⟩ | ⟨h1, h2⟩ <;> rcases ht with ⟨h3, h4⟩ | ⟨h3, h4⟩
      · left
        refine ⟨⟨h3, h1⟩, ?_⟩
        unfold Fields.clear
        simp only [hz] at h2 ⊢
        rw [h2, h4]
        rfl
      all_goals
        right
        refine ⟨fun h => by first | exact h3 h.1 | exact h1 h.2, ?_⟩
        unfold Fields.clear
        simp only [hz] at h2 ⊢
        rw [h2, h4]
        rfl
    | none =>
      rcases ih with ⟨h1, h2⟩ | ⟨h1, h2⟩ <;> rcases ht with ⟨h3, h4⟩ | ⟨h3, h4⟩
      · left
        refine ⟨⟨h3, h1⟩, ?_⟩
        unfold Fields.clear
        simp only [hz] at h2 ⊢
        rw [h2, h4]
        rfl
      all_goals
        right
        refine ⟨fun h => by first | exact h3 h.1 | exact h1 h.2, ?_⟩
        unfold Fields.clear
        simp only [hz] at h2 ⊢
        rw [h2, h4]
        rfl

theorem member_lt : (fs : Fields) → (i : Nat) → (v : fs.Val) → (w : Bytes) → fs.TakesMember i v w → i < fs.count
  | .nil, _, _, _, h => h.elim
  | .cons _ _ _ _, 0, _, _, _ => Nat.succ_pos _
  | .cons _ _ _ fs, n + 1, _, w, h => Nat.succ_lt_succ (member_lt fs n _ w h.2)


/-! ### All types -/

theorem decodeField_exactly {α β : Type} (vis : Vis) (tag : Tag) (ht : tag ≠ .extension) (x' zero : α) {dec : Mode → Dec (α × Option Err)} {T : Mode → α → Bytes → Prop} (hd : (dec .elem).Exactly (T .elem)) (hv : ∀ i, (dec (.variant i)).Exactly (T (.variant i)))
    (xs : β) {rest : Option Err → Dec (β × Option Err)} {R : β → Bytes → Prop} (hr : (rest none).Exactly R) :
    (decodeField vis tag zero x' zero dec xs none rest).Exactly fun v w => ∃ b1 b2, R v.2 b2 ∧ w = b1 ++ b2 ∧
      match vis, tag with
      | .blank, _ => v.1 = zero ∧ b1 = []
      | .unexported, _ => False
      | .exported, .optional => (v.1 = zero ∧ b1 = [0]) ∨ ∃ p b, p ≠ 0 ∧ T .elem v.1 b ∧ b1 = p :: b
      | .exported, .variant => ∃ (idx : UInt8) (b : Bytes), T (.variant idx.toNat) v.1 b ∧ b1 = idx :: b
      | .exported, _ => T .elem v.1 b1 := by
  have next : ∀ y : α, (rest none >>= fun z => pure ((y, z.1), z.2)).Exactly fun (v : α × β) w => v.1 = y ∧ R v.2 w := fun y =>
    (hr.map (g := fun z => (y, z)) (fun _ => rfl) fun _ _ => ⟨_, _, rfl⟩).iff fun v w => ⟨fun ⟨z, h, e⟩ => by rw [e]; exact ⟨rfl, h⟩, fun ⟨h1, h2⟩ => ⟨v.2, h2, by rw [← h1]⟩⟩
  cases vis with
  | blank => exact (next zero).iff fun v w => ⟨fun ⟨h1, h2⟩ => ⟨[], w, h2, rfl, h1, rfl⟩, fun ⟨b1, b2, h1, h2, h3, h4⟩ => ⟨h3, by rw [h2, h4]; exact h1⟩⟩
  | unexported => exact (never_panic _).exactly fun v w ⟨_, _, _, _, h⟩ => h
  | exported =>
    cases tag with
    | extension => exact absurd rfl ht
    | none =>
      apply Exactly.iff
      case h =>
        unfold decodeField
        ebind hd with y
        exact next y
      intro v w
      constructor
      · rintro ⟨y, b1, b2, h1, ⟨rfl, h2⟩, rfl⟩
        exact ⟨b1, b2, h2, rfl, h1⟩
      · rintro ⟨b1, b2, h1, rfl, h2⟩
        exact ⟨_, b1, b2, h2, ⟨rfl, h1⟩, rfl⟩
    | optional =>
      apply Exactly.iff
      case h =>
        unfold decodeField
        ebind readBool_exactly with present
        have : (if present = true then (dec .elem >>= fun z => match z.2 with | some e => pure ((z.1, xs), some e) | none => (rest none >>= fun u => pure ((z.1, u.1), u.2))) else (rest none >>= fun z => pure ((zero, z.1), z.2))).Exactly
            fun (v : α × β) w => if present = true then ∃ b1 b2, T .elem v.1 b1 ∧ R v.2 b2 ∧ w = b1 ++ b2 else v.1 = zero ∧ R v.2 w := by
          cases present with
          | false => exact next zero
          | true =>
            apply Exactly.iff
            case h =>
              show Dec.Exactly (dec .elem >>= _) _
              ebind hd with y
              exact next y
            intro v w
            constructor
            · rintro ⟨y, b1, b2, h1, ⟨rfl, h2⟩, rfl⟩
              exact ⟨b1, b2, h1, h2, rfl⟩
            · rintro ⟨b1, b2, h1, h2, rfl⟩
              exact ⟨_, b1, b2, h1, ⟨rfl, h2⟩, rfl⟩
        exact this
      intro v w
      constructor
      · rintro ⟨p, _, w2, ⟨c, rfl, rfl⟩, h, rfl⟩
        by_cases hc : c = 0
        · rw [if_neg (by simp [hc])] at h
          exact ⟨[c], w2, h.2, rfl, .inl ⟨h.1, by rw [hc]⟩⟩
        · rw [if_pos (by simp [hc])] at h
          obtain ⟨b1, b2, h1, h2, rfl⟩ := h
          exact ⟨c :: b1, b2, h2, rfl, .inr ⟨c, b1, hc, h1, rfl⟩⟩
      · rintro ⟨b1, b2, h1, rfl, ⟨h2, rfl⟩ | ⟨p, b, h2, h3, rfl⟩⟩
        · exact ⟨false, [0], b2, ⟨0, rfl, by simp⟩, by rw [if_neg (by simp)]; exact ⟨h2, h1⟩, rfl⟩
        · exact ⟨true, [p], b ++ b2, ⟨p, rfl, by simp [h2]⟩, by rw [if_pos rfl]; exact ⟨b, b2, h3, h1, rfl⟩, rfl⟩
    | variant =>
      apply Exactly.iff
      case h =>
        unfold decodeField
        ebind readByte_exactly with idx
        show Dec.Exactly (dec (.variant idx.toNat) >>= _) _
        ebind (hv idx.toNat) with y
        exact next y
      intro v w
      constructor
      · rintro ⟨idx, _, _, rfl, ⟨y, b1, b2, h1, ⟨rfl, h2⟩, rfl⟩, rfl⟩
        exact ⟨idx :: b1, b2, h2, rfl, idx, b1, h1, rfl⟩
      · rintro ⟨_, b2, h1, rfl, idx, b, h2, rfl⟩
        exact ⟨idx, [idx], b ++ b2, rfl, ⟨_, b, b2, h2, ⟨rfl, h1⟩, rfl⟩, rfl⟩

theorem ptr_exactly {α : Type} {p : Dec (α × Option Err)} {R : α → Bytes → Prop} (h : p.Exactly R) : (p >>= fun z => pure ((some z.1 : Option α), z.2)).Exactly fun v w => ∃ x, v = some x ∧ R x w :=
  (h.map (g := some) (fun _ => rfl) fun _ _ => ⟨_, _, rfl⟩).iff fun _ _ => exists_congr fun _ => and_comm

mutual
theorem ty_exactly : (t : Ty) → t.Strait → (m : Mode) → (decodeWith chainDecoder t m t.zero).Exactly (t.Takes m)
  | .basic b, _, m => (via_exactly (t := .basic b) rfl m _ (basic_exactly b) (readKind_exactly b _)).iff fun v w => by
      show _ ↔ (m = .decode ∨ m = .elem ∨ m = .value ∧ b.Wide) ∧ b.Takes v w
      tauto
  | .named b, _, m => (via_exactly' (t := .named b) rfl m _ (readKind_exactly b _)).iff fun v w => Iff.rfl
  | .unsupported, _, m => (via_exactly' (t := .unsupported) (R := fun _ _ => False) rfl m _ ((never_fail _ _).exactly fun _ _ h => h)).iff fun v w => ⟨fun h => h.2.elim, fun h => h.elim⟩
  | .bytes, _, m => (via_exactly (t := .bytes) rfl m _ (decodeBytes_exactly none) elemBytes_exactly).iff fun v w => by
      let o : Option Bytes := v
      show (m = .decode ∨ m = .elem) ∧ (∃ x : Bytes, o = some x ∧ Sized w x) ∨ m = .value ∧ o ≠ some [] ∧ Sized w (o.getD []) ↔
        Sized w (o.getD []) ∧ ((m = .decode ∨ m = .elem) ∧ o ≠ none ∨ m = .value ∧ o ≠ some [])
      cases o with
      | none => simp; tauto
      | some x => simp; tauto
  | .chain c, _, m => chain_mode_exactly c m _ (clean_zero (.chain c))
  | .ptr t, hs, m => match m with
      | .elem => ptr_exactly (ty_exactly t hs .decode)
      | .variant i => ptr_exactly (ty_exactly t hs (.variant i))
      | .member => ((ty_exactly t hs .decode).map (g := some) (fun _ => rfl) fun _ _ => ⟨_, _, rfl⟩).iff fun _ _ => exists_congr fun _ => and_comm
      | .decode => ptr_exactly (ty_exactly t hs .value)
      | .value => ptr_exactly (ty_exactly t hs .value)
  | .slice t, hs, m => via_exactly' (t := .slice t) rfl m _ (decodeSlice_exactly t.zero t.size (ty_exactly t hs .elem))
  | .array n t, hs, m => (via_exactly' (t := .array n t) rfl m _ (decEach_exactly (List.replicate n t.zero) fun x hx => by
      rw [List.eq_of_mem_replicate hx]
      exact ty_exactly t hs .elem)).iff fun v w => by
        rw [List.length_replicate]
        rfl
  | .map k e, hs, m => via_exactly' (t := .map k e) rfl m _ (decodeMap_exactly (ty_exactly k hs.2.1 .decode) (ty_exactly e hs.2.2 .decode) _)
  | .struct fs, hs, m => match m with
      | .elem => (via_exactly' (t := .struct fs) rfl .elem _ (fields_exactly fs hs)).iff fun v w => ⟨fun h => h.2, fun h => ⟨.inr (.inl rfl), h⟩⟩
      | .member => (via_exactly' (t := .struct fs) rfl .member _ (fields_exactly fs hs)).iff fun v w => ⟨fun h => by simp at h, fun h => h.elim⟩
      | .decode => (via_exactly' (t := .struct fs) rfl .decode _ (fields_exactly fs hs)).iff fun v w => ⟨fun h => h.2, fun h => ⟨.inl rfl, h⟩⟩
      | .value => (via_exactly' (t := .struct fs) rfl .value _ (fields_exactly fs hs)).iff fun v w => ⟨fun h => h.2, fun h => ⟨.inr (.inr rfl), h⟩⟩
      | .variant i => by
        show Dec.Exactly (if i ≥ fs.count then pure (fs.zero, some errVariantIndex) else match fs.clear (some i) fs.zero with
          | none => .panic _
          | some cleared => decodeMember chainDecoder fs i cleared) fun v w => fs.NilableBut (some i) ∧ fs.TakesMember i v w
        split
        · rename_i hi
          exact (never_fail _ _).exactly fun v w h => absurd (member_lt fs i v w h.2) (by omega)
        · rcases clearZero fs (some i) with ⟨h1, h2⟩ | ⟨h1, h2⟩
          · rw [h2]
            exact (member_exactly fs hs i).iff fun v w => ⟨fun h => ⟨h1, h⟩, fun h => h.2⟩
          · rw [h2]
            exact (never_panic _).exactly fun v w h => h1 h.1
  | .ref i s a, _, m => match m with
      | .variant _ => never_diverge.exactly fun _ _ h => h
      | .elem => never_diverge.exactly fun _ _ h => h
      | .member => (never_fail _ _).exactly fun _ _ h => h
      | .decode => never_diverge.exactly fun _ _ h => h
      | .value => never_diverge.exactly fun _ _ h => h
theorem fields_exactly : (fs : Fields) → fs.Strait → (decodeFields chainDecoder fs none fs.zero).Exactly fs.Takes
  | .nil, _ => (exactly_pure _).iff fun v w => ⟨fun h => h.2, fun h => ⟨rfl, h⟩⟩
  | .cons vis tag t fs, hs => by
      have h1 := ty_exactly t hs.2.1 .elem
      have h2 := fun i => ty_exactly t hs.2.1 (.variant i)
      rw [← alloc_zero_elem] at h1
      simp only [← alloc_zero_variant] at h2
      exact (decodeField_exactly vis tag hs.1 (t.alloc t.zero) t.zero (dec := fun m => decodeWith chainDecoder t m (t.alloc t.zero)) (T := t.Takes) h1 h2 fs.zero (rest := fun err => decodeFields chainDecoder fs err fs.zero) (fields_exactly fs hs.2.2)).iff fun v w =>
        ⟨fun ⟨b1, b2, h1, h2, h3⟩ => ⟨b1, b2, h1, h2, by revert h3; cases vis <;> cases tag <;> exact id⟩, fun ⟨b1, b2, h1, h2, h3⟩ => ⟨b1, b2, h1, h2, by revert h3; cases vis <;> cases tag <;> exact id⟩⟩
theorem member_exactly : (fs : Fields) → fs.Strait → (i : Nat) → (decodeMember chainDecoder fs i fs.zero).Exactly (fs.TakesMember i)
  | .nil, _, _ => (never_fail _ _).exactly fun _ _ h => h
  | .cons vis tag t fs, hs, 0 => by
      have : (decodeWith chainDecoder t .member t.zero >>= fun z => match z.2 with
          | some e => pure (((z.1, fs.zero) : t.Val × fs.Val), some e)
          | none => if vis = .exported then pure ((z.1, fs.zero), none) else .panic "reflect: using value obtained using unexported field").Exactly
          fun v w => vis = .exported ∧ v.2 = fs.zero ∧ t.Takes .member v.1 w := by
        by_cases hv : vis = .exported
        · refine ((ty_exactly t hs.2.1 .member).map (g := fun y => (y, fs.zero)) (fun b => if_pos hv) fun _ _ => ⟨_, _, rfl⟩).iff fun v w => ⟨?_, ?_⟩
          · rintro ⟨x, h, rfl⟩
            exact ⟨hv, rfl, h⟩
          · rintro ⟨_, h1, h2⟩
            exact ⟨v.1, h2, by rw [← h1]⟩
        · refine (Dec.Exactly.bind (S := fun _ (_ : t.Val × fs.Val) _ => False) (ty_exactly t hs.2.1 .member) (fun b => ?_) fun _ _ => never_fail _ _).iff fun v w => ⟨?_, fun h => absurd (And.left h) hv⟩
          · show Dec.Exactly (if vis = .exported then _ else _) _
            rw [if_neg hv]
            exact (never_panic _).exactly fun _ _ h => h
          · rintro ⟨_, _, _, _, h, _⟩
            exact h.elim
      exact this
  | .cons vis tag t fs, hs, n + 1 => ((member_exactly fs hs.2.2 n).map (g := fun ys => ((t.zero, ys) : t.Val × fs.Val)) (fun _ => rfl) fun _ _ => ⟨_, _, rfl⟩).iff fun v w =>
      ⟨fun ⟨ys, h, e⟩ => by rw [e]; exact ⟨rfl, h⟩, fun ⟨h1, h2⟩ => ⟨(show t.Val × fs.Val from v).2, h2, Prod.ext h1 rfl⟩⟩
end

end Verif
