import Verif.Spec.ReflectEnds
import Verif.Lemmas.Cuts
import Verif.Lemmas.TakesReflect
/-! Where the decoders of package chain report io.EOF, all types. -/
namespace Verif
namespace Dec
variable {α β : Type}

/-- io.EOF is returned exactly on the inputs in S that end with io.EOF, and then the input is used up. -/
def Dries (p : Dec (α × Option Err)) (S : Bytes → Prop) : Prop :=
  ∀ (fin : Err) (s r : Bytes), (∃ v, p.runE fin s = .ok (v, some .eof) r) ↔ fin = .eof ∧ S s ∧ r = []

theorem Dries.iff {p : Dec (α × Option Err)} {S T : Bytes → Prop} (h : p.Dries S) (hST : ∀ s, S s ↔ T s) : p.Dries T := by
  intro fin s r
  rw [h fin s r, hST]

theorem Cuts.dries {p : Dec (α × Option Err)} {S : α → Bytes → Prop} (h : p.Cuts S) : p.Dries fun s => ∃ v, S v s := by
  intro fin s r
  constructor
  · rintro ⟨v, hv⟩
    obtain ⟨h1, h2, h3⟩ := (h _ _ _ _).1 hv
    exact ⟨h1, ⟨v, h2⟩, h3⟩
  · rintro ⟨h1, ⟨v, h2⟩, h3⟩
    exact ⟨v, (h _ _ _ _).2 ⟨h1, h2, h3⟩⟩

theorem dries_pure (a : α) (e : Option Err) (he : e ≠ some .eof) : (pure (a, e) : Dec (α × Option Err)).Dries fun _ => False := (cuts_pure a e he).dries.iff fun _ => by simp

theorem dries_panic (w : String) : (Dec.panic w : Dec (α × Option Err)).Dries fun _ => False := (cuts_panic w).dries.iff fun _ => by simp

theorem dries_diverge : (Dec.diverge : Dec (α × Option Err)).Dries fun _ => False := by
  intro fin s r
  constructor
  · rintro ⟨_, h⟩; cases h
  · rintro ⟨_, h, _⟩; exact h.elim

/-- Read, stop on an error, go on. -/
theorem Dries.bind {p : Dec (β × Option Err)} {R : β → Bytes → Prop} {S : Bytes → Prop} {f : β × Option Err → Dec (α × Option Err)} {T : β → Bytes → Prop} (hp : p.Exactly R) (hd : p.Dries S)
    (hf : ∀ b, (f (b, none)).Dries (T b)) (he : ∀ b e, ∃ a, f (b, some e) = pure (a, some e)) :
    (p >>= f).Dries fun s => S s ∨ ∃ b w s', R b w ∧ T b s' ∧ s = w ++ s' := by
  intro fin s r
  constructor
  · rintro ⟨v, h⟩
    obtain ⟨⟨b, o⟩, m, h1, h2⟩ := Dec.runE_bind_ok h
    cases o with
    | none =>
      obtain ⟨w, rfl, hw⟩ := (hp _ _ _ _).1 h1
      obtain ⟨e1, e2, e3⟩ := (hf b _ _ _).1 ⟨v, h2⟩
      exact ⟨e1, .inr ⟨b, w, m, hw, e2, rfl⟩, e3⟩
    | some e =>
      obtain ⟨a, ha⟩ := he b e
      rw [ha] at h2
      cases h2
      obtain ⟨e1, e2, e3⟩ := (hd _ _ _).1 ⟨b, h1⟩
      exact ⟨e1, .inl e2, e3⟩
  · rintro ⟨rfl, (h1 | ⟨b, w, s', h1, h2, rfl⟩), rfl⟩
    · obtain ⟨b, h⟩ := (hd .eof s []).2 ⟨rfl, h1, rfl⟩
      obtain ⟨a, ha⟩ := he b .eof
      refine ⟨a, ?_⟩
      rw [Dec.runE_bind, h]
      simp only [Out.bind, ha]
      rfl
    · obtain ⟨v, h⟩ := (hf b .eof s' []).2 ⟨rfl, h2, rfl⟩
      refine ⟨v, ?_⟩
      rw [Dec.runE_bind, (hp .eof (w ++ s') b s').2 ⟨w, rfl, h1⟩]
      exact h

theorem Dries.map {p : Dec (β × Option Err)} {S : Bytes → Prop} {f : β × Option Err → Dec (α × Option Err)} (hd : p.Dries S)
    (hf : ∀ b, ∃ a, f (b, none) = pure (a, none)) (he : ∀ b e, ∃ a, f (b, some e) = pure (a, some e)) : (p >>= f).Dries S := by
  intro fin s r
  constructor
  · rintro ⟨v, h⟩
    obtain ⟨⟨b, o⟩, m, h1, h2⟩ := Dec.runE_bind_ok h
    cases o with
    | none =>
      obtain ⟨a, ha⟩ := hf b
      rw [ha] at h2
      cases h2
    | some e =>
      obtain ⟨a, ha⟩ := he b e
      rw [ha] at h2
      cases h2
      exact (hd _ _ _).1 ⟨b, h1⟩
  · intro h
    obtain ⟨b, h1⟩ := (hd fin s r).2 h
    obtain ⟨a, ha⟩ := he b .eof
    refine ⟨a, ?_⟩
    rw [Dec.runE_bind, h1]
    simp only [Out.bind, ha]
    rfl

end Dec
open Dec

/-! ### What an input is decoded as, whether it is long enough or not -/

namespace Dec
variable {α β : Type}

/-- Success with v and the rest r exactly if G, io.EOF exactly if S. -/
structure Does (p : Dec (α × Option Err)) (G : Err → α → Bytes → Bytes → Prop) (S : Bytes → Prop) : Prop where
  gives : ∀ (fin : Err) (s : Bytes) (v : α) (r : Bytes), p.runE fin s = .ok (v, none) r ↔ G fin v s r
  stops : p.Dries S

theorem Does.iff {p : Dec (α × Option Err)} {G H : Err → α → Bytes → Bytes → Prop} {S T : Bytes → Prop} (h : p.Does G S) (h1 : ∀ fin v s r, G fin v s r ↔ H fin v s r) (h2 : ∀ s, S s ↔ T s) : p.Does H T :=
  ⟨fun fin s v r => (h.gives fin s v r).trans (h1 _ _ _ _), h.stops.iff h2⟩

theorem Exactly.does {p : Dec (α × Option Err)} {R : α → Bytes → Prop} {S : Bytes → Prop} (h : p.Exactly R) (hd : p.Dries S) : p.Does (fun _ => Splits R) S :=
  ⟨fun fin s v r => (h fin s v r).trans ⟨fun ⟨w, h1, h2⟩ => ⟨w, h2, h1⟩, fun ⟨w, h1, h2⟩ => ⟨w, h2, h1⟩⟩, hd⟩

theorem does_fail (a : α) (e : Err) (he : e ≠ .eof) : (pure (a, some e) : Dec (α × Option Err)).Does (fun _ _ _ _ => False) fun _ => False :=
  ⟨fun _ _ _ _ => ⟨(nomatch ·), fun h => h.elim⟩, dries_pure _ _ (by simpa using he)⟩

theorem does_panic (w : String) : (Dec.panic w : Dec (α × Option Err)).Does (fun _ _ _ _ => False) fun _ => False :=
  ⟨fun _ _ _ _ => ⟨(nomatch ·), fun h => h.elim⟩, dries_panic _⟩

theorem does_diverge : (Dec.diverge : Dec (α × Option Err)).Does (fun _ _ _ _ => False) fun _ => False :=
  ⟨fun _ _ _ _ => ⟨(nomatch ·), fun h => h.elim⟩, dries_diverge⟩

theorem does_pure (a : α) : (pure (a, none) : Dec (α × Option Err)).Does (fun _ v s r => v = a ∧ s = r) fun _ => False := by
  refine ⟨fun fin s v r => ⟨fun h => ?_, fun h => ?_⟩, dries_pure _ _ (by simp)⟩
  · cases h; exact ⟨rfl, rfl⟩
  · rw [h.1, h.2]; rfl

theorem Does.bind {p : Dec (β × Option Err)} {G : Err → β → Bytes → Bytes → Prop} {S : Bytes → Prop} {f : β × Option Err → Dec (α × Option Err)} {H : β → Err → α → Bytes → Bytes → Prop} {T : β → Bytes → Prop}
    (hp : p.Does G S) (hf : ∀ b, (f (b, none)).Does (H b) (T b)) (he : ∀ b e, ∃ a, f (b, some e) = pure (a, some e)) :
    (p >>= f).Does (fun fin v s r => ∃ b m, G fin b s m ∧ H b fin v m r) fun s => S s ∨ ∃ b m, G .eof b s m ∧ T b m := by
  refine ⟨fun fin s v r => ⟨fun h => ?_, ?_⟩, fun fin s r => ⟨?_, ?_⟩⟩
  · obtain ⟨⟨b, o⟩, m, h1, h2⟩ := Dec.runE_bind_ok h
    cases o with
    | none => exact ⟨b, m, (hp.gives _ _ _ _).1 h1, ((hf b).gives _ _ _ _).1 h2⟩
    | some e =>
      obtain ⟨a, ha⟩ := he b e
      rw [ha] at h2
      cases h2
  · rintro ⟨b, m, h1, h2⟩
    rw [Dec.runE_bind, (hp.gives _ _ _ _).2 h1]
    exact ((hf b).gives _ _ _ _).2 h2
  · rintro ⟨v, h⟩
    obtain ⟨⟨b, o⟩, m, h1, h2⟩ := Dec.runE_bind_ok h
    cases o with
    | none =>
      obtain ⟨rfl, e2, e3⟩ := ((hf b).stops _ _ _).1 ⟨v, h2⟩
      exact ⟨rfl, .inr ⟨b, m, (hp.gives _ _ _ _).1 h1, e2⟩, e3⟩
    | some e =>
      obtain ⟨a, ha⟩ := he b e
      rw [ha] at h2
      cases h2
      obtain ⟨e1, e2, e3⟩ := (hp.stops _ _ _).1 ⟨b, h1⟩
      exact ⟨e1, .inl e2, e3⟩
  · rintro ⟨rfl, (h1 | ⟨b, m, h1, h2⟩), rfl⟩
    · obtain ⟨b, h⟩ := (hp.stops .eof s []).2 ⟨rfl, h1, rfl⟩
      obtain ⟨a, ha⟩ := he b .eof
      refine ⟨a, ?_⟩
      rw [Dec.runE_bind, h]
      simp only [Out.bind, ha]
      rfl
    · obtain ⟨v, h⟩ := ((hf b).stops .eof m []).2 ⟨rfl, h2, rfl⟩
      refine ⟨v, ?_⟩
      rw [Dec.runE_bind, (hp.gives .eof s b m).2 h1]
      exact h

theorem Does.map {p : Dec (β × Option Err)} {G : Err → β → Bytes → Bytes → Prop} {S : Bytes → Prop} {f : β × Option Err → Dec (α × Option Err)} {g : β → α}
    (hp : p.Does G S) (hf : ∀ b, f (b, none) = pure (g b, none)) (he : ∀ b e, ∃ a, f (b, some e) = pure (a, some e)) :
    (p >>= f).Does (fun fin v s r => ∃ b, v = g b ∧ G fin b s r) S :=
  (hp.bind (H := fun b _ v s r => v = g b ∧ s = r) (T := fun _ _ => False) (fun b => by rw [hf]; exact does_pure _) he).iff
    (fun fin v s r => ⟨fun ⟨b, m, h1, h2, h3⟩ => ⟨b, h2, by rw [← h3]; exact h1⟩, fun ⟨b, h1, h2⟩ => ⟨b, r, h2, h1, rfl⟩⟩) fun s => by simp

end Dec

theorem decEach_does {α : Type} {G : Err → α → Bytes → Bytes → Prop} {S : Bytes → Prop} {dec : α → Dec (α × Option Err)} (xs : List α) (h : ∀ x ∈ xs, (dec x).Does G S) :
    (decEach dec xs).Does (fun fin ys s r => ys.length = xs.length ∧ InTurn (G fin) ys s r) (StopsAmong (G .eof) S xs.length) := by
  induction xs with
  | nil =>
    refine (does_pure []).iff (fun fin ys s r => ⟨?_, ?_⟩) fun s => ⟨fun h => h.elim, fun ⟨_, _, h, _⟩ => by simp at h⟩
    · rintro ⟨rfl, rfl⟩
      exact ⟨rfl, .nil⟩
    · rintro ⟨h1, h2⟩
      obtain rfl := List.eq_nil_of_length_eq_zero h1
      cases h2
      exact ⟨rfl, rfl⟩
  | cons x xs ih =>
    have ih := ih fun y hy => h y (List.mem_cons_of_mem _ hy)
    have hx := h x List.mem_cons_self
    apply Does.iff
    case h =>
      unfold decEach
      refine hx.bind (H := fun y fin v s r => ∃ ys, v = y :: ys ∧ ys.length = xs.length ∧ InTurn (G fin) ys s r) (T := fun _ => StopsAmong (G .eof) S xs.length) ?_ fun b e => ⟨_, rfl⟩
      intro y
      exact ih.map (g := fun ys => y :: ys) (fun _ => rfl) fun _ _ => ⟨_, rfl⟩
    · intro fin v s r
      constructor
      · rintro ⟨y, m, h1, ys, rfl, h2, h3⟩
        exact ⟨by simp [h2], .cons h1 h3⟩
      · rintro ⟨h1, h2⟩
        cases h2 with
        | nil => simp at h1
        | cons h3 h4 => exact ⟨_, _, h3, _, rfl, by simpa using h1, h4⟩
    · intro s
      constructor
      · rintro (h | ⟨y, m, h1, ys, m', h2, h3, h4⟩)
        · exact ⟨[], s, by simp, .nil, h⟩
        · exact ⟨y :: ys, m', by simpa using h2, .cons h1 h3, h4⟩
      · rintro ⟨ys, m, h1, h2, h3⟩
        cases h2 with
        | nil => exact .inl h3
        | cons h4 h5 => exact .inr ⟨_, _, h4, _, m, by simpa using h1, h5, h3⟩

theorem makeSlice_does {α β : Type} {zero : α} {size : Nat} {l : UInt64} {k : List α → Dec (β × Option Err)} {G : Err → β → Bytes → Bytes → Prop} {S : Bytes → Prop} (h : (k (List.replicate l.toNat zero)).Does G S) :
    (makeSlice zero size l k).Does (fun fin v s r => l.toNat < 2 ^ 63 ∧ l.toNat * size ≤ maxAlloc ∧ G fin v s r) fun s => l.toNat < 2 ^ 63 ∧ l.toNat * size ≤ maxAlloc ∧ S s := by
  unfold makeSlice
  split
  · rename_i h0
    have : ¬ l.toNat < 2 ^ 63 := fun hh => by
      have := (goInt_eq l _).2 ⟨rfl, hh⟩
      omega
    exact (does_panic _).iff (fun _ _ _ _ => ⟨fun h => h.elim, fun h => this h.1⟩) fun _ => ⟨fun h => h.elim, fun h => this h.1⟩
  · split
    · rename_i h1
      exact (does_panic _).iff (fun _ _ _ _ => ⟨fun h => h.elim, fun h => absurd h.2.1 (by omega)⟩) fun _ => ⟨fun h => h.elim, fun h => absurd h.2.1 (by omega)⟩
    · rename_i h0 h1
      have h2 : l.toNat < 2 ^ 63 := ((goInt_eq l l.toNat).1 (goInt_nonneg l (by omega)).symm).2
      exact h.iff (fun _ _ _ _ => ⟨fun h => ⟨h2, by omega, h⟩, fun h => h.2.2⟩) fun _ => ⟨fun h => ⟨h2, by omega, h⟩, fun h => h.2.2⟩

theorem varuint_does : readVaruint.Does (fun _ => Splits fun (v : UInt64) w => AnyLeb w v.toNat) CutLeb := readVaruint_exactly.does (readVaruint_cut.dries.iff fun s => by simp)

theorem anyLeb_u64 {lb : Bytes} {n : Nat} (h : AnyLeb lb n) : ∃ l : UInt64, l.toNat = n ∧ AnyLeb lb l.toNat := by
  have e : n.toUInt64.toNat = n := by have := h.2.2.2; simp; omega
  exact ⟨n.toUInt64, e, by rw [e]; exact h⟩

theorem decSlice_does {α : Type} {G : Err → α → Bytes → Bytes → Prop} {S : Bytes → Prop} (zero : α) (size : Nat) {dec : α → Dec (α × Option Err)} (old : List α) (h : (dec zero).Does G S) :
    (decSlice zero size dec old).Dries (StopsSlice size (G .eof) S) := by
  have := (varuint_does.bind (f := fun x => match x with | (l, err) => match err with | some e => pure (old, some e) | none => makeSlice zero size l fun xs => decEach dec xs)
    (fun l => makeSlice_does (decEach_does _ fun x hx => by rw [List.eq_of_mem_replicate hx]; exact h)) fun b e => ⟨_, rfl⟩).stops
  refine Dries.iff this fun s => ?_
  unfold StopsSlice
  refine or_congr Iff.rfl ⟨?_, ?_⟩
  · rintro ⟨l, m, ⟨lb, h1, rfl⟩, h2, h3, h4⟩
    rw [List.length_replicate] at h4
    exact ⟨l.toNat, lb, m, h1, h2, h3, rfl, h4⟩
  · rintro ⟨n, lb, m, h1, h2, h3, rfl, h4⟩
    obtain ⟨l, rfl, h5⟩ := anyLeb_u64 h1
    exact ⟨l, m, ⟨lb, h5, rfl⟩, h2, h3, by rw [List.length_replicate]; exact h4⟩

/-! ### Package chain -/

theorem name_short (old : UInt64) (fin : Err) (s : Bytes) (h : s.length < 8) : ∃ e, (Name.unmarshal old).runE fin s = .ok (old, some e) [] := by
  have : ∃ e, readUint64.runE fin s = .ok (0, some e) [] := by
    unfold readUint64
    have e : readBytes 8 = .read 8 _ := rfl
    rw [Dec.runE_bind, e, Dec.runE_read_short _ _ _ _ (by omega)]
    exact ⟨_, rfl⟩
  obtain ⟨e, he⟩ := this
  unfold Name.unmarshal
  rw [Dec.runE_bind, he]
  exact ⟨e, rfl⟩

theorem name_long (old : UInt64) (fin : Err) (s : Bytes) (h : 8 ≤ s.length) : ∃ v w r, LeForm 8 (UInt64.toNat v) w ∧ s = w ++ r ∧ (Name.unmarshal old).runE fin s = .ok (v, none) r := by
  obtain ⟨v, hv⟩ := (leForm_some rfl (s.take 8)).1 (by simp; omega)
  have e : s = s.take 8 ++ s.drop 8 := (List.take_append_drop _ _).symm
  exact ⟨v, _, _, hv, e, (name_exactly old fin s v _).2 ⟨_, e, hv⟩⟩

theorem leForm_length {v : UInt64} {w : Bytes} (h : LeForm 8 v.toNat w) : w.length = 8 := (leForm_some rfl w).2 ⟨v, h⟩

/-- The error of the read is dropped; then what follows finds the input used up. -/
theorem Dec.dries_name {α : Type} {old : UInt64} {f : UInt64 × Option Err → Dec (α × Option Err)} {T : UInt64 → Bytes → Prop} (hf : ∀ b, (f (b, none)).Dries (T b))
    (he : ∀ e fin r, (∃ v, (f (old, some e)).runE fin [] = .ok (v, some .eof) r) ↔ fin = .eof ∧ r = []) :
    (Name.unmarshal old >>= f).Dries fun s => s.length < 8 ∨ ∃ b w s', LeForm 8 b.toNat w ∧ T b s' ∧ s = w ++ s' := by
  intro fin s r
  by_cases hs : s.length < 8
  · obtain ⟨e, h⟩ := name_short old fin s hs
    rw [Dec.runE_bind, h]
    show (∃ v, (f (old, some e)).runE fin [] = _) ↔ _
    rw [he]
    exact ⟨fun ⟨h1, h2⟩ => ⟨h1, .inl hs, h2⟩, fun ⟨h1, _, h2⟩ => ⟨h1, h2⟩⟩
  · obtain ⟨v, w, m, h1, rfl, h3⟩ := name_long old fin s (by omega)
    rw [Dec.runE_bind, h3]
    show (∃ v', (f (v, none)).runE fin m = _) ↔ _
    rw [hf v]
    refine and_congr_right fun _ => and_congr_left fun _ => ⟨fun h => .inr ⟨v, w, m, h1, h, rfl⟩, ?_⟩
    rintro (h | ⟨b, w', m', h4, h5, h6⟩)
    · exact absurd h hs
    · have h7 := List.append_inj h6 (by rw [leForm_length h1, leForm_length h4])
      obtain ⟨rfl, rfl⟩ := h7
      have := (name_exactly old fin (w ++ m) b m).2 ⟨w, rfl, h4⟩
      rw [h3] at this
      cases this
      exact h5

theorem name_dries (old : UInt64) : (Name.unmarshal old).Dries fun s => s = [] := by
  have : (Name.unmarshal old).Cuts fun v s => v = old ∧ s = [] := readUint64_cut.again (fun _ => ⟨_, rfl⟩) fun _ _ => rfl
  exact this.dries.iff fun s => by simp

theorem perm_dries (old : PermissionLevel) : (PermissionLevel.unmarshal old).Dries fun s => s.length ≤ 8 := by
  apply Dries.iff
  case h =>
    unfold PermissionLevel.unmarshal
    refine dries_name (T := fun _ s => s = []) (fun v => ?_) fun e fin r => ?_
    · exact (name_dries _).map (fun _ => ⟨_, rfl⟩) fun _ _ => ⟨_, rfl⟩
    · rw [Dec.runE_bind, name_empty]
      exact ⟨fun ⟨v, h⟩ => by cases h; exact ⟨rfl, rfl⟩, fun ⟨h1, h2⟩ => by rw [h1, h2]; exact ⟨_, rfl⟩⟩
  intro s
  constructor
  · rintro (h | ⟨b, w, s', h1, rfl, rfl⟩)
    · omega
    · have := leForm_length h1
      simp; omega
  · intro h
    by_cases h1 : s.length < 8
    · exact .inl h1
    · obtain ⟨v, hv⟩ := (leForm_some rfl s).1 (by omega)
      exact .inr ⟨v, s, [], hv, rfl, by simp⟩

theorem perm_does (old : PermissionLevel) : (PermissionLevel.unmarshal old).Does (fun _ => Splits PermLayout) fun s => s.length ≤ 8 := (perm_exactly old).does (perm_dries old)

theorem authLoop_dries (k : Nat) (auth : List PermissionLevel) : (authLoop k auth).Dries (StopsAmong (Splits PermLayout) (fun s => s.length ≤ 8) k) := by
  induction k generalizing auth with
  | zero => exact (dries_pure _ _ (by simp)).iff fun s => ⟨fun h => h.elim, fun ⟨_, _, h, _⟩ => by simp at h⟩
  | succ k ih =>
    apply Dries.iff
    case h =>
      unfold authLoop
      exact (perm_dries .zero).bind (perm_exactly _) (fun b => ih _) fun _ _ => ⟨_, rfl⟩
    intro s
    constructor
    · rintro (h | ⟨y, w, m, h1, ⟨ys, m', h2, h3, h4⟩, rfl⟩)
      · exact ⟨[], s, by simp, .nil, h⟩
      · exact ⟨y :: ys, m', by simpa using h2, .cons ⟨w, h1, rfl⟩ h3, h4⟩
    · rintro ⟨ys, m, h1, h2, h3⟩
      cases h2 with
      | nil => exact .inl h3
      | cons h4 h5 =>
        obtain ⟨w, h4, rfl⟩ := h4
        exact .inr ⟨_, w, _, h4, ⟨_, m, by simpa using h1, h5, h3⟩, rfl⟩

theorem bytesT_dries (old : Bytes) : (BytesT.unmarshal old).Dries CutSized := by
  have h : (BytesT.unmarshal old).Cuts fun v s => v = old ∧ CutSized s :=
    cuts_sized_last (fun _ => rfl) (fun _ _ => rfl) (fun _ _ => cuts_pure _ _ (by simp)) fun _ _ _ _ => rfl
  exact h.dries.iff fun s => by simp

theorem bytes_dries (old : Option Bytes) : (unmarshalBytes old).Dries CutSized := (unmarshalBytes_cut old).dries.iff fun s => by simp

theorem varuint_dries : readVaruint.Dries CutLeb := readVaruint_cut.dries.iff fun s => by simp
theorem u16_dries : readUint16.Dries fun s => s = [] := readUint16_cut.dries.iff fun s => by simp
theorem u32_dries : readUint32.Dries fun s => s = [] := readUint32_cut.dries.iff fun s => by simp
theorem u8_dries : readUint8.Dries fun s => s = [] := readUint8_cut.dries.iff fun s => by simp
theorem timePointSec_dries (old : UInt32) : (TimePointSec.unmarshal old).Dries fun s => s = [] := u32_dries.map (fun _ => ⟨_, rfl⟩) fun _ _ => ⟨_, rfl⟩

theorem action_dries (old : Action) : (Action.unmarshal old).Dries ActionDry := by
  apply Dries.iff
  case h =>
    unfold Action.unmarshal
    apply dries_name
    · intro ac
      apply dries_name
      · intro n
        exact varuint_dries.bind readVaruint_exactly (fun l => (authLoop_dries _ _).bind (authLoop_exactly _ _) (fun auth => (bytesT_dries _).map (fun _ => ⟨_, rfl⟩) fun _ _ => ⟨_, rfl⟩) fun _ _ => ⟨_, rfl⟩) fun _ _ => ⟨_, rfl⟩
      · intro e fin r
        rw [Dec.runE_bind, varuint_empty]
        exact ⟨fun ⟨v, h⟩ => by cases h; exact ⟨rfl, rfl⟩, fun ⟨h1, h2⟩ => by rw [h1, h2]; exact ⟨_, rfl⟩⟩
    · intro e fin r
      rw [Dec.runE_bind, name_empty, Out.bind_ok, Dec.runE_bind, varuint_empty]
      exact ⟨fun ⟨v, h⟩ => by cases h; exact ⟨rfl, rfl⟩, fun ⟨h1, h2⟩ => by rw [h1, h2]; exact ⟨_, rfl⟩⟩
  intro s
  have long : ∀ (s : Bytes), 8 ≤ s.length → ∃ b w s', LeForm 8 (UInt64.toNat b) w ∧ s = w ++ s' := fun s h => by
    obtain ⟨v, hv⟩ := (leForm_some rfl (s.take 8)).1 (by simp; omega)
    exact ⟨v, _, s.drop 8, hv, (List.take_append_drop _ _).symm⟩
  have rest : ∀ s', (CutLeb s' ∨ ∃ (l : UInt64) (lb m : Bytes), AnyLeb lb l.toNat ∧ (StopsAmong (Splits PermLayout) (fun s => s.length ≤ 8) (goInt l).toNat m ∨
        ∃ (auth : List PermissionLevel) (au m' : Bytes), (∃ xs, xs.length = (goInt l).toNat ∧ Each PermLayout xs au ∧ auth = old.authorization ++ xs) ∧ CutSized m' ∧ m = au ++ m') ∧ s' = lb ++ m) ↔
      (StopsLoop (Splits PermLayout) (fun m => m.length ≤ 8) s' ∨ ∃ n xs lb au s'', AnyCount lb n ∧ xs.length = n ∧ Each PermLayout xs au ∧ s' = lb ++ au ++ s'' ∧ CutSized s'') := by
    intro s'
    constructor
    · rintro (h | ⟨l, lb, m, h1, h2 | ⟨_, au, m', ⟨xs, h2, h3, rfl⟩, h4, rfl⟩, rfl⟩)
      · exact .inl (.inl h)
      · exact .inl (.inr ⟨_, lb, m, goInt_anyCount l lb _ h1 rfl, rfl, h2⟩)
      · exact .inr ⟨_, xs, lb, au, m', goInt_anyCount l lb _ h1 rfl, h2, h3, by simp, h4⟩
    · rintro ((h | ⟨n, lb, m, h1, rfl, h2⟩) | ⟨n, xs, lb, au, m, h1, h2, h3, rfl, h4⟩)
      · exact .inl h
      · obtain ⟨l, h6, h7⟩ := anyCount_goInt _ _ h1
        exact .inr ⟨l, lb, m, h6, .inl (h7 ▸ h2), rfl⟩
      · obtain ⟨l, h6, h7⟩ := anyCount_goInt _ _ h1
        exact .inr ⟨l, lb, au ++ m, h6, .inr ⟨_, au, m, ⟨xs, h7 ▸ h2, h3, rfl⟩, h4, rfl⟩, by simp⟩
  constructor
  · rintro (h | ⟨a, w1, s1, h1, (h | ⟨b, w2, s2, h2, h3, rfl⟩), rfl⟩)
    · exact .inl (by omega)
    · exact .inl (by have := leForm_length h1; simp; omega)
    · refine .inr ⟨w1 ++ w2, s2, by simp [leForm_length h1, leForm_length h2], by simp, (rest s2).1 h3⟩
  · rintro (h | ⟨h, s', h1, rfl, h2⟩)
    · by_cases h8 : s.length < 8
      · exact .inl h8
      · obtain ⟨b, w, s', h1, rfl⟩ := long s (by omega)
        exact .inr ⟨b, w, s', h1, .inl (by have := leForm_length h1; simp at h; omega), rfl⟩
    · obtain ⟨b, w, h', h3, rfl⟩ := long h (by omega)
      have := leForm_length h3
      obtain ⟨b', w', h'', h4, rfl⟩ := long h' (by simp at h1; omega)
      have := leForm_length h4
      obtain rfl : h'' = [] := List.eq_nil_of_length_eq_zero (by simp at h1; omega)
      exact .inr ⟨b, w, _, h3, .inr ⟨b', w', s', h4, (rest s').2 h2, rfl⟩, by simp⟩

theorem form2 (s : Bytes) : s.length = 2 ↔ ∃ v : UInt16, LeForm 2 v.toNat s := by
  constructor
  · intro h
    refine ⟨(leNat s).toUInt16, ?_⟩
    rw [leForm_eq]
    have := leNat_lt s
    rw [h] at this
    refine ⟨h, ?_⟩
    simp
    omega
  · rintro ⟨_, h⟩; exact h.1

theorem form4 (s : Bytes) : s.length = 4 ↔ ∃ v : UInt32, LeForm 4 v.toNat s := by
  constructor
  · intro h
    refine ⟨(leNat s).toUInt32, ?_⟩
    rw [leForm_eq]
    have := leNat_lt s
    rw [h] at this
    refine ⟨h, ?_⟩
    simp
    omega
  · rintro ⟨_, h⟩; exact h.1

theorem extension_dries (old : TxExtension) : (TxExtension.unmarshal old).Dries ExtensionDry := by
  apply Dries.iff
  case h =>
    unfold TxExtension.unmarshal
    exact u16_dries.bind readUint16_exactly (fun t => (bytesT_dries _).map (fun _ => ⟨_, rfl⟩) fun _ _ => ⟨_, rfl⟩) fun _ _ => ⟨_, rfl⟩
  intro s
  refine or_congr Iff.rfl ⟨?_, ?_⟩
  · rintro ⟨v, w, s', h1, h2, rfl⟩
    have h3 := (form2 w).2 ⟨v, h1⟩
    match w, h3 with
    | [a, b], _ =>
    exact ⟨a, b, s', rfl, h2⟩
  · rintro ⟨a, b, s', rfl, h⟩
    obtain ⟨v, hv⟩ := (form2 [a, b]).1 rfl
    exact ⟨v, [a, b], s', hv, h, rfl⟩

theorem header_dries (old : TxHeader) : (TxHeader.unmarshal old).Dries HeaderDry := by
  apply Dries.iff
  case h =>
    unfold TxHeader.unmarshal
    exact (timePointSec_dries _).bind (timePointSec_exactly _) (fun e => u16_dries.bind readUint16_exactly (fun n => u32_dries.bind readUint32_exactly (fun p =>
      varuint_dries.bind readVaruint_exactly (fun mw => u8_dries.bind readUint8_exactly (fun c => varuint_dries.map (fun _ => ⟨_, rfl⟩) fun _ _ => ⟨_, rfl⟩)
      fun _ _ => ⟨_, rfl⟩) fun _ _ => ⟨_, rfl⟩) fun _ _ => ⟨_, rfl⟩) fun _ _ => ⟨_, rfl⟩) fun _ _ => ⟨_, rfl⟩
  intro s
  constructor
  · rintro (rfl | ⟨e, w1, _, h1, (rfl | ⟨n, w2, _, h2, (rfl | ⟨p, w3, s3, h3, h4, rfl⟩), rfl⟩), rfl⟩)
    · exact .inl rfl
    · exact .inr (.inl (by simpa using (form4 _).2 ⟨_, h1⟩))
    · exact .inr (.inr (.inl (by simp [(form4 _).2 ⟨_, h1⟩, (form2 _).2 ⟨_, h2⟩])))
    · refine .inr (.inr (.inr ⟨w1 ++ w2 ++ w3, s3, by simp [(form4 _).2 ⟨_, h1⟩, (form2 _).2 ⟨_, h2⟩, (form4 _).2 ⟨_, h3⟩], by simp, ?_⟩))
      rcases h4 with h | ⟨mw, w4, s4, h4, (rfl | ⟨c, _, s5, rfl, h5, rfl⟩), rfl⟩
      · exact .inl h
      · exact .inr ⟨w4, _, [], h4, rfl, .inl rfl⟩
      · exact .inr ⟨w4, _, c :: s5, h4, rfl, .inr ⟨c, s5, rfl, h5⟩⟩
  · have cut : ∀ n (s : Bytes), n ≤ s.length → ∃ a b, a.length = n ∧ s = a ++ b := fun n s h => ⟨s.take n, s.drop n, by simp; omega, (List.take_append_drop _ _).symm⟩
    rintro (rfl | h | h | ⟨w, s', h10, rfl, h⟩)
    · exact .inl rfl
    · obtain ⟨v, hv⟩ := (form4 s).1 h
      exact .inr ⟨v, s, [], hv, .inl rfl, by simp⟩
    · obtain ⟨a, b, h1, rfl⟩ := cut 4 s (by omega)
      obtain ⟨v, hv⟩ := (form4 a).1 h1
      obtain ⟨v', hv'⟩ := (form2 b).1 (by simp at h; omega)
      exact .inr ⟨v, a, b, hv, .inr ⟨v', b, [], hv', .inl rfl, by simp⟩, rfl⟩
    · obtain ⟨a, b, h1, rfl⟩ := cut 4 w (by omega)
      obtain ⟨c, d, h2, rfl⟩ := cut 2 b (by simp at h10; omega)
      obtain ⟨v, hv⟩ := (form4 a).1 h1
      obtain ⟨v', hv'⟩ := (form2 c).1 h2
      obtain ⟨v'', hv''⟩ := (form4 d).1 (by simp at h10; omega)
      refine .inr ⟨v, a, _, hv, .inr ⟨v', c, _, hv', .inr ⟨v'', d, s', hv'', ?_, rfl⟩, rfl⟩, by simp⟩
      rcases h with h | ⟨mw, n, s4, h4, rfl, (rfl | ⟨c, s5, rfl, h5⟩)⟩
      · exact .inl h
      · obtain ⟨l, _, h5⟩ := anyLeb_u64 h4
        exact .inr ⟨l, mw, [], h5, .inl rfl, rfl⟩
      · obtain ⟨l, _, h6⟩ := anyLeb_u64 h4
        exact .inr ⟨l, mw, _, h6, .inr ⟨c, [c], s5, rfl, h5, rfl⟩, rfl⟩

theorem transaction_dries (old : Transaction) : (Transaction.unmarshal old).Dries TransactionDry := by
  have ha : (Action.unmarshal .zero).Does (fun _ => Splits ActionTakes) ActionDry := (action_exactly .zero rfl).does (action_dries .zero)
  have hx : (TxExtension.unmarshal .zero).Does (fun _ => Splits ExtensionTakes) ExtensionDry := (extension_exactly .zero).does (extension_dries .zero)
  apply Dries.iff
  case h =>
    unfold Transaction.unmarshal
    exact (header_dries _).bind (header_exactly _) (fun h => (decSlice_does _ _ _ ha).bind (decSlice_exactly _ _ _ (action_exactly .zero rfl)) (fun cfa =>
      (decSlice_does _ _ _ ha).bind (decSlice_exactly _ _ _ (action_exactly .zero rfl)) (fun acts => (decSlice_does _ _ _ hx).map (fun _ => ⟨_, rfl⟩) fun _ _ => ⟨_, rfl⟩)
      fun _ _ => ⟨_, rfl⟩) fun _ _ => ⟨_, rfl⟩) fun _ _ => ⟨_, rfl⟩
  intro s
  constructor
  · rintro (h | ⟨h, hb, s1, h1, (h2 | ⟨xs, xb, s2, h2, (h3 | ⟨ys, yb, s3, h3, h4, rfl⟩), rfl⟩), rfl⟩)
    · exact .inl h
    · exact .inr ⟨h, hb, s1, h1, rfl, .inl h2⟩
    · exact .inr ⟨h, hb, _, h1, rfl, .inr ⟨xs, xb, s2, h2, rfl, .inl h3⟩⟩
    · exact .inr ⟨h, hb, _, h1, rfl, .inr ⟨xs, xb, _, h2, rfl, .inr ⟨ys, yb, s3, h3, rfl, h4⟩⟩⟩
  · rintro (h | ⟨h, hb, s1, h1, rfl, (h2 | ⟨xs, xb, s2, h2, rfl, (h3 | ⟨ys, yb, s3, h3, rfl, h4⟩)⟩)⟩)
    · exact .inl h
    · exact .inr ⟨h, hb, s1, h1, .inl h2, rfl⟩
    · exact .inr ⟨h, hb, _, h1, .inr ⟨xs, xb, s2, h2, .inl h3, rfl⟩, rfl⟩
    · exact .inr ⟨h, hb, _, h1, .inr ⟨xs, xb, _, h2, .inr ⟨ys, yb, s3, h3, h4, rfl⟩, rfl⟩, rfl⟩

theorem chain_dries (c : ChainTy) : (c.unmarshal c.zero).Dries c.Dry := by
  have mem : ∀ c : ChainTy, decide (c ∈ abiChains.map Prod.snd) = true → (c.unmarshal c.zero).Dries fun s => ∃ v, c.Cut v s := by
    intro c h
    obtain ⟨⟨b, c⟩, h1, rfl⟩ := List.mem_map.1 (of_decide_eq_true h)
    exact (chain_cut (.inl h1)).dries
  cases c
  case action => exact action_dries _
  case blob => exact bytes_dries _
  case permissionLevel => exact perm_dries _
  case transaction => exact transaction_dries _
  case transactionExtension => exact extension_dries _
  case transactionHeader => exact header_dries _
  case blockNum => exact (u32_dries.map (fun _ => ⟨_, rfl⟩) fun _ _ => ⟨_, rfl⟩).iff fun s => ⟨fun h => ⟨_, rfl, h⟩, fun ⟨_, _, h⟩ => h⟩
  case bytes => exact (chain_cut (b := []) (.inr rfl)).dries
  all_goals exact mem _ (by decide +kernel)

end Verif
