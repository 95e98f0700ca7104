import Verif.Lemmas.WellTyped
import Verif.Lemmas.Codegen
/-! Helper lemmas: statements that the compiler accepts. -/
namespace Verif

theorem elem_has {α : Type} (t : Ty) (i : Nat) (xs : List t.Val) (put : List t.Val → α) : (Place.elem t i xs put).Has t := by
  unfold Place.elem
  split
  · exact rfl
  · exact wp_index

theorem index_has {α : Type} (i : Nat) (t : Ty) (v : t.Val) (put : t.Val → α) : (∀ u, t.indexed = some u → (Place.index i t v put).Has u) ∧
    (t.indexed = none → Place.index i t v put = .ill) := by
  cases t with
  | slice t => exact ⟨fun u h => by cases h; exact elem_has t i (Option.getD (α := List t.Val) v []) fun xs => put (some xs : Option (List t.Val)), nofun⟩
  | bytes => exact ⟨fun u h => by cases h; exact elem_has (.basic .u8) i (Option.getD (α := Bytes) v []) fun xs => put (some xs : Option Bytes), nofun⟩
  | array n t => exact ⟨fun u h => by cases h; exact elem_has t .. , nofun⟩
  | ptr t =>
    cases t with
    | array n t =>
      refine ⟨fun u h => ?_, nofun⟩
      cases h
      cases v with
      | some xs => exact elem_has t i xs fun xs => put (some xs : Option (List t.Val))
      | none => exact wp_nil
    | _ => exact ⟨nofun, fun _ => rfl⟩
  | _ => exact ⟨nofun, fun _ => rfl⟩

theorem place_has (r : Ref) (i : Nat) (t : Ty) (v : t.Val) : (∀ u, r.type t = some u → (r.place i t v).Has u) ∧
    (r.type t = none → ∀ u x put, r.place i t v ≠ .at u x put) := by
  obtain ⟨d, ix⟩ := r
  cases d with
  | false =>
    cases ix with
    | false => exact ⟨fun u h => by cases h; exact rfl, nofun⟩
    | true =>
      obtain ⟨h1, h2⟩ := index_has i t v id
      refine ⟨h1, fun h u x put e => ?_⟩
      have : Ref.place ⟨false, true⟩ i t v = .ill := h2 h
      rw [this] at e
      cases e
  | true =>
    cases t with
    | ptr t =>
      cases v with
      | none =>
        have e : Ref.place ⟨true, ix⟩ i (.ptr t) (none : Option t.Val) = .panic "nil pointer dereference" := rfl
        refine ⟨fun u _ => ?_, fun _ u x put h => ?_⟩
        · show (Ref.place ⟨true, ix⟩ i (.ptr t) (none : Option t.Val)).Has u
          rw [e]
          exact wp_nil
        · change Ref.place ⟨true, ix⟩ i (.ptr t) (none : Option t.Val) = _ at h
          rw [e] at h
          cases h
      | some y =>
        cases ix with
        | false => exact ⟨fun u h => by cases h; exact rfl, nofun⟩
        | true =>
          obtain ⟨h1, h2⟩ := index_has i t y (fun y => (some y : Option t.Val))
          refine ⟨h1, fun h u x put e => ?_⟩
          have : Ref.place ⟨true, true⟩ i (.ptr t) (some y : Option t.Val) = .ill := h2 h
          change Ref.place ⟨true, true⟩ i (.ptr t) (some y : Option t.Val) = _ at e
          rw [this] at e
          cases e
    | _ => exact ⟨nofun, fun _ _ _ _ => nofun⟩

theorem only_writeLoop (body : Nat → Enc (Option Err)) (h : ∀ i, (body i).Only WritePanic) (k : Nat) : ∀ i, (writeLoop body k i).Only WritePanic := by
  induction k with
  | zero => exact fun _ => Enc.Only.pure _
  | succ k ih =>
    intro i
    unfold writeLoop
    refine Enc.Only.bind (h i) fun _ => ?_
    split
    · only_tac
    · exact ih _
theorem only_readLoop {α : Type} (body : Nat → α → Dec (α × Option Err)) (h : ∀ i v, (body i v).Only RuntimePanic) (k : Nat) : ∀ i v, (readLoop body k i v).Only RuntimePanic := by
  induction k with
  | zero => exact fun _ _ => Dec.Only.pure _
  | succ k ih =>
    intro i v
    unfold readLoop
    refine Dec.Only.bind (h i v) fun _ => ?_
    only_tac
    exact ih _ _

theorem only_callMarshal {has : Ty → Bool} {M : Methods} (hM : ∀ u, has u = true → ∃ m, M.marshal u = some m ∧ ∀ v, (m v).Only WritePanic) (u : Ty) (h : callable has u = true) (v : u.Val) :
    (M.callMarshal u v).Only WritePanic := by
  cases u with
  | ptr u =>
    obtain ⟨m, e, hm⟩ := hM u h
    unfold Methods.callMarshal
    simp only [e]
    cases v with
    | none => exact wp_nil
    | some x => exact hm x
  | _ =>
    obtain ⟨m, e, hm⟩ := hM _ h
    unfold Methods.callMarshal
    simp only [e]
    exact hm v
theorem only_callUnmarshal {has : Ty → Bool} {M : Methods} (hM : ∀ u, has u = true → ∃ m, M.unmarshal u = some m ∧ ∀ v, (m v).Only RuntimePanic) (u : Ty) (h : callable has u = true) (v : u.Val) :
    (M.callUnmarshal u v).Only RuntimePanic := by
  cases u with
  | ptr u =>
    obtain ⟨m, e, hm⟩ := hM u h
    unfold Methods.callUnmarshal
    simp only [e]
    cases v with
    | none => exact rp_nil
    | some x => exact Dec.Only.bind (hm x) fun _ => Dec.Only.pure _
  | _ =>
    obtain ⟨m, e, hm⟩ := hM _ h
    unfold Methods.callUnmarshal
    simp only [e]
    exact hm v

theorem takes_only (m : Method) (u : Ty) (h : m.takes u = true) (v : u.Val) : (m.write u v).Only WritePanic := by
  cases m with
  | basic b =>
    cases u with
    | basic b' =>
      obtain rfl : b = b' := of_decide_eq_true h
      show (if b = b then b.write v else _).Only _
      rw [if_pos rfl]
      exact only_basic_write b v
    | _ => cases h
  | bytes =>
    cases u with
    | bytes => exact only_writeBytes _
    | _ => cases h

theorem sliceLen_some (deref : Bool) (t : Ty) (v : t.Val) : (sliceLen deref t v).isSome = t.isSlice deref := by
  cases t with
  | slice t => cases deref <;> rfl
  | bytes => cases deref <;> rfl
  | ptr t => cases t <;> cases deref <;> rfl
  | _ => cases deref <;> rfl

theorem write_only {has : Ty → Bool} {M : Methods} (hM : ∀ u, has u = true → ∃ m, M.marshal u = some m ∧ ∀ v, (m v).Only WritePanic) (t : Ty) (s : WStmt) (h : s.typed has t = true) (v : t.Val) :
    ∀ i, (s.run M i t v).Only WritePanic := by
  induction s with
  | write m r =>
    intro i
    unfold WStmt.typed at h
    cases hr : r.type t with
    | none => rw [hr] at h; cases h
    | some u =>
      rw [hr] at h
      have hp := (place_has r i t v).1 u hr
      unfold WStmt.run
      cases e : r.place i t v with
      | ill => rw [e] at hp; exact hp.elim
      | panic w => rw [e] at hp; exact hp
      | «at» u' x put =>
        rw [e] at hp
        obtain rfl : u' = u := hp
        exact takes_only m u' h x
  | marshal r =>
    intro i
    unfold WStmt.typed at h
    cases hr : r.type t with
    | none => rw [hr] at h; cases h
    | some u =>
      rw [hr] at h
      have hp := (place_has r i t v).1 u hr
      unfold WStmt.run
      cases e : r.place i t v with
      | ill => rw [e] at hp; exact hp.elim
      | panic w => rw [e] at hp; exact hp
      | «at» u' x put =>
        rw [e] at hp
        obtain rfl : u' = u := hp
        exact only_callMarshal hM u' h x
  | slice deref body ih =>
    intro i
    unfold WStmt.typed at h
    obtain ⟨h1, h2⟩ := (Bool.and_eq_true _ _).mp h
    have hs := sliceLen_some deref t v
    rw [h1] at hs
    obtain ⟨n, hn⟩ := Option.isSome_iff_exists.1 hs
    unfold WStmt.run
    simp only [hn]
    refine Enc.Only.bind (only_writeVaruint _) fun e => ?_
    cases e with
    | some e => exact Enc.Only.pure _
    | none => exact only_writeLoop _ (fun i => ih h2 i) _ _
  | array n body ih =>
    intro i
    unfold WStmt.run
    exact only_writeLoop _ (fun i => ih h i) _ _
  | optional o body ih =>
    intro i
    unfold WStmt.typed at h
    have ih := ih ((Bool.and_eq_true _ _).mp h).2 i
    have hb := only_basic_write .bool (t.notNil v)
    unfold WStmt.run
    dsimp only
    only_tac

theorem readInto_only {α : Type} {b : Basic} {isPtr : Bool} {old : α} {u : Ty} (h : (match (some u : Option Ty) with
    | some (.ptr (.basic b')) => isPtr && b = b'
    | some (.basic b') => !isPtr && b = b'
    | _ => false) = true) (x : u.Val) (put : u.Val → α) : (readInto b isPtr old (.at u x put)).Only RuntimePanic := by
  have hb := only_basic_read
  cases u with
  | basic b' =>
    simp only [Bool.and_eq_true, decide_eq_true_eq, Bool.not_eq_true'] at h
    obtain ⟨h1, rfl⟩ := h
    subst h1
    show (if b = b ∧ ¬ false = true then _ else _ : Dec _).Only _
    rw [if_pos ⟨rfl, nofun⟩]
    exact Dec.Only.bind (hb b) fun _ => Dec.Only.pure _
  | ptr u =>
    cases u with
    | basic b' =>
      simp only [Bool.and_eq_true, decide_eq_true_eq] at h
      obtain ⟨h1, rfl⟩ := h
      subst h1
      show (if b = b ∧ true = true then _ else _ : Dec _).Only _
      rw [if_pos ⟨rfl, rfl⟩]
      refine Dec.Only.bind (hb b) fun _ => ?_
      only_tac
    | _ => cases h
  | _ => cases h

theorem slice_text {t : Ty} {s : Bytes} (h : t.goString = asc "[]" ++ s) : (∃ u, t = .slice u) ∨ t = .bytes := by
  have h1 : t.goString.head? = some 91 := by rw [h]; rfl
  cases t with
  | slice u => exact .inl ⟨u, rfl⟩
  | bytes => exact .inr rfl
  | basic b => cases b <;> exact absurd h1 (by decide)
  | chain c => cases c <;> exact absurd h1 (by decide)
  | array n t =>
    obtain ⟨c, m, e, hc⟩ := fmtNat_cons n
    rw [Ty.goString, e] at h
    exact absurd (List.cons.inj (List.cons.inj h).2).1 hc
  | ptr t => exact absurd (Option.some.inj h1) (by decide)
  | map k v => exact absurd (Option.some.inj h1) (by decide)
  | _ => exact absurd h1 (by simp [Ty.goString, asc])

theorem makeThen_only {t : Ty} (l : UInt64) (h : (∃ u, t = .slice u) ∨ t = .bytes) (k : t.Val → Dec (t.Val × Option Err)) (hk : ∀ v, (k v).Only RuntimePanic) : (makeThen l t k).Only RuntimePanic := by
  rcases h with ⟨u, rfl⟩ | rfl
  · exact only_makeSlice _ _ _ _ fun xs => hk _
  · exact only_makeSlice _ _ _ _ fun xs => hk _

theorem read_only {has : Ty → Bool} {M : Methods} (hM : ∀ u, has u = true → ∃ m, M.unmarshal u = some m ∧ ∀ v, (m v).Only RuntimePanic) (t : Ty) (s : RStmt) (h : s.typed has t = true) :
    ∀ i v, (s.run M i t v).Only RuntimePanic := by
  induction s with
  | read m isPtr index =>
    intro i v
    cases m with
    | bytes => cases h
    | basic b =>
      unfold RStmt.run
      unfold RStmt.typed at h
      cases hr : Ref.type ⟨false, index⟩ t with
      | none => rw [hr] at h; cases h
      | some u =>
        rw [hr] at h
        have hp := (place_has ⟨false, index⟩ i t v).1 u hr
        cases e : Ref.place ⟨false, index⟩ i t v with
        | ill => rw [e] at hp; exact hp.elim
        | panic w => rw [e] at hp; exact hp.elim .inl fun h => .inr (.inl h)
        | «at» u' x put =>
          rw [e] at hp
          obtain rfl : u' = u := hp
          exact readInto_only h x put
  | unmarshal r =>
    intro i v
    unfold RStmt.typed at h
    cases hr : r.type t with
    | none => rw [hr] at h; cases h
    | some u =>
      rw [hr] at h
      have hp := (place_has r i t v).1 u hr
      unfold RStmt.run
      cases e : r.place i t v with
      | ill => rw [e] at hp; exact hp.elim
      | panic w => rw [e] at hp; exact hp.elim .inl fun h => .inr (.inl h)
      | «at» u' x put =>
        rw [e] at hp
        obtain rfl : u' = u := hp
        exact Dec.Only.bind (only_callUnmarshal hM u' h x) fun _ => Dec.Only.pure _
  | slice type body ih =>
    intro i v
    unfold RStmt.typed at h
    simp only [Bool.and_eq_true, decide_eq_true_eq] at h
    unfold RStmt.run
    refine Dec.Only.bind only_readVaruint fun _ => ?_
    split
    rename_i l err
    cases err with
    | some e => exact Dec.Only.pure _
    | none => exact makeThen_only l (slice_text h.1.1) _ fun v => only_readLoop _ (fun i v => ih h.2 i v) _ _ _
  | array n body ih =>
    intro i v
    unfold RStmt.run
    exact only_readLoop _ (fun i v => ih h i v) _ _ _
  | optional body ih =>
    intro i v
    have hb := only_basic_read .bool
    have ih := ih h i v
    unfold RStmt.run
    only_tac

theorem marshal_only {has : Ty → Bool} {M : Methods} (hM : ∀ u, has u = true → ∃ m, M.marshal u = some m ∧ ∀ v, (m v).Only WritePanic) (fs : Fields) (h : fs.typed (writeTyped has) = true) :
    ∀ v : fs.Val, (runMarshal M fs v).Only WritePanic := by
  match fs, h with
  | .nil, _ => exact fun _ => Enc.Only.pure _
  | .cons vis tag t fs, h =>
    intro v
    unfold Fields.typed at h
    simp only [Bool.and_eq_true] at h
    obtain ⟨⟨_, h1⟩, h2⟩ := h
    have ih := marshal_only hM fs h2
    unfold writeTyped at h1
    unfold runMarshal
    cases hf : cgField t.goString tag with
    | none => rw [hf] at h1; cases h1
    | some f =>
      rw [hf] at h1
      refine Enc.Only.bind (write_only hM t _ h1 _ 0) fun e => ?_
      cases e with
      | some e => exact Enc.Only.pure _
      | none => exact ih _

theorem unmarshal_only {has : Ty → Bool} {M : Methods} (hM : ∀ u, has u = true → ∃ m, M.unmarshal u = some m ∧ ∀ v, (m v).Only RuntimePanic) (fs : Fields) (h : fs.typed (readTyped has) = true) :
    ∀ v : fs.Val, (runUnmarshal M fs v).Only RuntimePanic := by
  match fs, h with
  | .nil, _ => exact fun _ => Dec.Only.pure _
  | .cons vis tag t fs, h =>
    intro v
    unfold Fields.typed at h
    simp only [Bool.and_eq_true] at h
    obtain ⟨⟨_, h1⟩, h2⟩ := h
    have ih := unmarshal_only hM fs h2
    unfold readTyped at h1
    unfold runUnmarshal
    cases hf : cgField t.goString tag with
    | none => rw [hf] at h1; cases h1
    | some f =>
      rw [hf] at h1
      refine Dec.Only.bind (read_only hM t _ h1 0 _) fun r => ?_
      obtain ⟨y, err⟩ := r
      cases err with
      | some e => exact Dec.Only.pure _
      | none => exact Dec.Only.bind (ih _) fun _ => Dec.Only.pure _

theorem marshalCompiles_typed {has : Ty → Bool} {fs : Fields} (h : fs.marshalCompiles has = true) : fs.typed (writeTyped has) = true := by
  unfold Fields.marshalCompiles at h
  split at h
  · cases h
  · simp only [Bool.and_eq_true] at h
    exact h.1
theorem unmarshalCompiles_typed {has : Ty → Bool} {fs : Fields} (h : fs.unmarshalCompiles has = true) : fs.typed (readTyped has) = true := by
  unfold Fields.unmarshalCompiles at h
  split at h
  · cases h
  · simp only [Bool.and_eq_true] at h
    exact h.1.1

theorem generated_marshal_only (n : Nat) : ∀ u, hasMarshal n u = true → ∃ m, (generated n).marshal u = some m ∧ ∀ v, (m v).Only WritePanic := by
  induction n with
  | zero =>
    intro u h
    cases u with
    | chain c => exact ⟨_, rfl, only_chain_marshal c⟩
    | _ => cases h
  | succ n ih =>
    intro u h
    cases u with
    | chain c => exact ⟨_, rfl, only_chain_marshal c⟩
    | struct fs => exact ⟨_, rfl, marshal_only ih fs (marshalCompiles_typed h)⟩
    | _ => cases h

theorem generated_unmarshal_only (n : Nat) : ∀ u, hasUnmarshal n u = true → ∃ m, (generated n).unmarshal u = some m ∧ ∀ v, (m v).Only RuntimePanic := by
  induction n with
  | zero =>
    intro u h
    cases u with
    | chain c => exact ⟨_, rfl, only_chain_unmarshal c⟩
    | _ => cases h
  | succ n ih =>
    intro u h
    cases u with
    | chain c => exact ⟨_, rfl, only_chain_unmarshal c⟩
    | struct fs => exact ⟨_, rfl, unmarshal_only ih fs (unmarshalCompiles_typed h)⟩
    | _ => cases h

end Verif
