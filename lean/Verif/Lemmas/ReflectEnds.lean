import Verif.Lemmas.Dry
/-! What `Decode` makes of an input, for all types. -/
namespace Verif
open Dec

theorem decodeSlice_does {α : Type} {G : Err → α → Bytes → Bytes → Prop} {S : Bytes → Prop} (zero : α) (size : Nat) {dec : α → Dec (α × Option Err)} (h : (dec zero).Does G S) :
    (decodeSlice zero size dec none).Does (fun fin v s r => v ≠ some [] ∧ ∃ lb s', AnyLeb lb (v.getD []).length ∧ (v.getD []).length < 2 ^ 63 ∧ (v.getD []).length * size ≤ maxAlloc ∧
      s = lb ++ s' ∧ InTurn (G fin) (v.getD []) s' r) (StopsSlice size (G .eof) S) := by
  apply Does.iff
  case h =>
    unfold decodeSlice
    refine varuint_does.bind (H := fun l fin v s r => l.toNat < 2 ^ 63 ∧ l.toNat * size ≤ maxAlloc ∧ ∃ ys : List α, ys.length = l.toNat ∧ InTurn (G fin) ys s r ∧ v = if ys = [] then none else some ys)
      (T := fun l s => l.toNat < 2 ^ 63 ∧ l.toNat * size ≤ maxAlloc ∧ StopsAmong (G .eof) S l.toNat s) ?_ fun _ _ => ⟨_, rfl⟩
    intro l
    show Dec.Does (if _ then _ else _) _ _
    split
    · rename_i hl
      apply Does.iff
      case h =>
        apply makeSlice_does
        exact (decEach_does _ fun x hx => by rw [List.eq_of_mem_replicate hx]; exact h).map (g := fun ys => some ys) (fun _ => rfl) fun _ _ => ⟨_, rfl⟩
      · intro fin v s r
        refine and_congr_right fun h1 => and_congr_right fun h2 => exists_congr fun ys => ?_
        rw [List.length_replicate]
        constructor
        · rintro ⟨rfl, h3, h4⟩
          have : ys ≠ [] := by
            rintro rfl
            apply hl
            rw [(goInt_eq l 0).2 ⟨h3.symm, by decide⟩]
            rfl
          exact ⟨h3, h4, by rw [if_neg this]⟩
        · rintro ⟨h3, h4, rfl⟩
          have : ys ≠ [] := by
            rintro rfl
            apply hl
            rw [(goInt_eq l 0).2 ⟨h3.symm, by decide⟩]
            rfl
          exact ⟨by rw [if_neg this], h3, h4⟩
      · intro s
        rw [List.length_replicate]
    · rename_i hl
      have hl : goInt l = (0 : Nat) := by simpa using (Decidable.not_not.1 hl).symm
      have hz := ((goInt_eq l 0).1 hl).1
      apply Does.iff
      case h =>
        exact (decEach_does (G := G) (S := S) [] fun _ h => nomatch h).map (g := fun _ => (none : Option (List α))) (fun _ => rfl) fun _ _ => ⟨_, rfl⟩
      · intro fin v s r
        constructor
        · rintro ⟨ys, rfl, h1, h2⟩
          have := List.eq_nil_of_length_eq_zero h1
          exact ⟨by omega, by rw [hz]; omega, ys, by rw [h1, hz]; rfl, h2, by rw [if_pos this]⟩
        · rintro ⟨_, _, ys, h1, h2, rfl⟩
          have := List.eq_nil_of_length_eq_zero (h1.trans hz)
          exact ⟨ys, by rw [if_pos this], by rw [this], h2⟩
      · intro s
        rw [hz]
        constructor
        · rintro ⟨_, _, h, _⟩
          simp at h
        · rintro ⟨_, _, _, _, h, _⟩
          simp at h
  · intro fin v s r
    constructor
    · rintro ⟨l, m, ⟨lb, h1, rfl⟩, h2, h3, ys, h4, h5, rfl⟩
      by_cases hy : ys = []
      · rw [if_pos hy]
        subst hy
        exact ⟨by simp, lb, m, by rw [show l.toNat = 0 from h4.symm] at h1; exact h1, by simp, by simp, rfl, h5⟩
      · rw [if_neg hy]
        exact ⟨by simpa using hy, lb, m, by rw [Option.getD_some, h4]; exact h1, by rw [Option.getD_some, h4]; exact h2, by rw [Option.getD_some, h4]; exact h3, rfl, h5⟩
    · rintro ⟨hv, lb, m, h1, h2, h3, rfl, h4⟩
      obtain ⟨l, h5, h6⟩ := anyLeb_u64 h1
      refine ⟨l, m, ⟨lb, h6, rfl⟩, by rw [h5]; exact h2, by rw [h5]; exact h3, v.getD [], h5.symm, h4, ?_⟩
      cases v with
      | none => rfl
      | some xs =>
        have : xs ≠ [] := fun h => hv (by rw [h])
        rw [Option.getD_some, if_neg this]
  · intro s
    refine or_congr Iff.rfl ⟨?_, ?_⟩
    · rintro ⟨l, m, ⟨lb, h1, rfl⟩, h2, h3, h4⟩
      exact ⟨l.toNat, lb, m, h1, h2, h3, rfl, h4⟩
    · rintro ⟨n, lb, m, h1, h2, h3, rfl, h4⟩
      obtain ⟨l, rfl, h5⟩ := anyLeb_u64 h1
      exact ⟨l, m, ⟨lb, h5, rfl⟩, h2, h3, h4⟩

theorem mapLoop_does {α β : Type} [DecidableEq α] {dk : Dec (α × Option Err)} {dv : Dec (β × Option Err)} {K : Err → α → Bytes → Bytes → Prop} {V : Err → β → Bytes → Bytes → Prop} {SK SV : Bytes → Prop}
    (hk : dk.Does K SK) (hv : dv.Does V SV) (n : Nat) (m : List (α × β)) :
    (mapLoop dk dv n m).Does (fun fin a s r => ∃ ys : List (α × β), ys.length = n ∧ InTurn (fun y s r => ∃ m, K fin y.1 s m ∧ V fin y.2 m r) ys s r ∧ a = stores ys m)
      (StopsAmong (fun (y : α × β) s r => ∃ m, K .eof y.1 s m ∧ V .eof y.2 m r) (fun s => SK s ∨ ∃ x m, K .eof x s m ∧ SV m) n) := by
  induction n generalizing m with
  | zero =>
    refine (does_pure m).iff (fun fin a s r => ⟨?_, ?_⟩) fun s => ⟨fun h => h.elim, fun ⟨_, _, h, _⟩ => by simp at h⟩
    · rintro ⟨rfl, rfl⟩
      exact ⟨[], rfl, .nil, rfl⟩
    · rintro ⟨xs, h1, h2, rfl⟩
      obtain rfl := List.eq_nil_of_length_eq_zero h1
      cases h2
      exact ⟨rfl, rfl⟩
  | succ n ih =>
    apply Does.iff
    case h =>
      unfold mapLoop
      exact hk.bind (fun k => hv.bind (fun v => ih (mapSet k v m)) fun _ _ => ⟨_, rfl⟩) fun _ _ => ⟨_, rfl⟩
    · intro fin a s r
      constructor
      · rintro ⟨k, m1, h1, v, m2, h2, ys, h3, h4, rfl⟩
        exact ⟨(k, v) :: ys, by simp [h3], .cons ⟨m1, h1, h2⟩ h4, rfl⟩
      · rintro ⟨ys, h1, h2, rfl⟩
        cases h2 with
        | nil => cases h1
        | cons hx hxs =>
          obtain ⟨m1, h3, h4⟩ := hx
          exact ⟨_, m1, h3, _, _, h4, _, by simpa using h1, hxs, rfl⟩
    · intro s
      constructor
      · rintro (h | ⟨k, m1, h1, (h2 | ⟨v, m2, h2, ys, m3, h3, h4, h5⟩)⟩)
        · exact ⟨[], s, by simp, .nil, .inl h⟩
        · exact ⟨[], s, by simp, .nil, .inr ⟨k, m1, h1, h2⟩⟩
        · exact ⟨(k, v) :: ys, m3, by simpa using h3, .cons ⟨m1, h1, h2⟩ h4, h5⟩
      · rintro ⟨ys, m, h1, h2, h3⟩
        cases h2 with
        | nil =>
          rcases h3 with h3 | ⟨k, m1, h3, h4⟩
          · exact .inl h3
          · exact .inr ⟨k, m1, h3, .inl h4⟩
        | cons h4 h5 =>
          obtain ⟨m1, h6, h7⟩ := h4
          exact .inr ⟨_, m1, h6, .inr ⟨_, _, h7, _, m, by simpa using h1, h5, h3⟩⟩

theorem decodeMap_does {α β : Type} [DecidableEq α] {dk : Dec (α × Option Err)} {dv : Dec (β × Option Err)} {K : Err → α → Bytes → Bytes → Prop} {V : Err → β → Bytes → Bytes → Prop} {SK SV : Bytes → Prop}
    (hk : dk.Does K SK) (hv : dv.Does V SV) (old : Option (List (α × β))) :
    (decodeMap dk dv old).Does (fun fin a s r => ∃ (ys xs : List (α × β)) (lb s' : Bytes), a = some xs ∧ Gathers ys xs ∧ AnyCount lb ys.length ∧ s = lb ++ s' ∧
      InTurn (fun y s r => ∃ m, K fin y.1 s m ∧ V fin y.2 m r) ys s' r)
      (StopsLoop (fun (y : α × β) s r => ∃ m, K .eof y.1 s m ∧ V .eof y.2 m r) fun s => SK s ∨ ∃ x m, K .eof x s m ∧ SV m) := by
  apply Does.iff
  case h =>
    unfold decodeMap
    exact varuint_does.bind (fun l => (mapLoop_does hk hv _ _).map (g := fun m => some m) (fun _ => rfl) fun _ _ => ⟨_, rfl⟩) fun _ _ => ⟨_, rfl⟩
  · intro fin a s r
    constructor
    · rintro ⟨l, m, ⟨lb, h1, rfl⟩, _, rfl, ys, h2, h3, rfl⟩
      exact ⟨ys, _, lb, m, rfl, (gathers_iff _ _).2 rfl, goInt_anyCount l lb _ h1 h2, rfl, h3⟩
    · rintro ⟨ys, xs, lb, m, rfl, h1, h2, rfl, h3⟩
      obtain ⟨l, h4, h5⟩ := anyCount_goInt _ _ h2
      exact ⟨l, m, ⟨lb, h4, rfl⟩, xs, rfl, ys, h5, h3, (gathers_iff _ _).1 h1⟩
  · intro s
    refine or_congr Iff.rfl ⟨?_, ?_⟩
    · rintro ⟨l, m, ⟨lb, h1, rfl⟩, h2⟩
      exact ⟨_, lb, m, goInt_anyCount l lb _ h1 rfl, rfl, h2⟩
    · rintro ⟨n, lb, m, h1, rfl, h2⟩
      obtain ⟨l, h4, h5⟩ := anyCount_goInt _ _ h1
      exact ⟨l, m, ⟨lb, h4, rfl⟩, h5 ▸ h2⟩

/-! ### Ways of reaching the destination -/

theorem via_does {t : Ty} (ht : t.isChain = false) (mode : Mode) (old : t.Val) {fast slow : t.Val → Dec (t.Val × Option Err)} {G H : Err → t.Val → Bytes → Bytes → Prop} {S T : Bytes → Prop}
    (hf : (fast old).Does G S) (hs : (slow old).Does H T) :
    (viaDecFn chainDecoder t mode old fast slow).Does (fun fin v s r => (mode = .decode ∨ mode = .elem) ∧ G fin v s r ∨ mode = .value ∧ H fin v s r)
      fun s => (mode = .decode ∨ mode = .elem) ∧ S s ∨ mode = .value ∧ T s := by
  cases mode with
  | value => exact hs.iff (fun _ _ _ _ => by simp) fun _ => by simp
  | variant i => exact (does_fail _ _ (by decide)).iff (fun _ _ _ _ => by simp) fun _ => by simp
  | member => exact (does_fail _ _ (by decide)).iff (fun _ _ _ _ => by simp) fun _ => by simp
  | decode => unfold viaDecFn; rw [chainDecoder_else t ht]; exact hf.iff (fun _ _ _ _ => by simp) fun _ => by simp
  | elem => unfold viaDecFn; rw [chainDecoder_else t ht]; exact hf.iff (fun _ _ _ _ => by simp) fun _ => by simp

theorem via_does' {t : Ty} (ht : t.isChain = false) (mode : Mode) (old : t.Val) {f : t.Val → Dec (t.Val × Option Err)} {G : Err → t.Val → Bytes → Bytes → Prop} {S : Bytes → Prop}
    (hf : (f old).Does G S) :
    (viaDecFn chainDecoder t mode old f f).Does (fun fin v s r => (mode = .decode ∨ mode = .elem ∨ mode = .value) ∧ G fin v s r) fun s => (mode = .decode ∨ mode = .elem ∨ mode = .value) ∧ S s :=
  (via_does ht mode old hf hf).iff (fun _ _ _ _ => by tauto) fun _ => by tauto

theorem chain_mode_dries (c : ChainTy) (m : Mode) : (decodeWith chainDecoder (.chain c) m c.zero).Dries fun s => m ≠ .member ∧ c.Dry s := by
  have h := chain_dries c
  cases m with
  | variant i => exact h.iff fun s => by simp
  | member => exact (dries_pure _ _ (by decide)).iff fun s => by simp
  | value => rw [decode_chain c _ (by simp [Mode.Plain])]; exact h.iff fun s => by simp
  | decode => rw [decode_chain c _ (by simp [Mode.Plain])]; exact h.iff fun s => by simp
  | elem => rw [decode_chain c _ (by simp [Mode.Plain])]; exact h.iff fun s => by simp

theorem basic_dries (b : Basic) : b.read.Dries b.Dry := by
  refine (basic_cut b).dries.iff fun s => ?_
  cases b <;> exact ⟨fun ⟨_, _, h⟩ => h, fun h => ⟨_, rfl, h⟩⟩

theorem readKind_dries (b : Basic) (old : b.Val) : (b.readKind old).Dries fun s => b.Wide ∧ b.Dry s := by
  have key : ∀ p : Dec (b.Val × Option Err), p.Dries b.Dry → b.Wide → (p >>= fun (v, err) => match err with | some e => pure (old, some e) | none => pure (v, none)).Dries
      fun s => b.Wide ∧ b.Dry s := by
    intro p h hb
    have := h.map (f := fun x => match x with | (v, err) => match err with | some e => pure (old, some e) | none => pure (v, none)) (fun _ => ⟨_, rfl⟩) fun _ _ => ⟨_, rfl⟩
    exact this.iff fun s => by simp [hb]
  have h := basic_dries b
  cases b
  case u64 => exact key _ h trivial
  case u32 => exact key _ h trivial
  case i64 => exact key _ h trivial
  case i32 => exact key _ h trivial
  all_goals exact (dries_pure _ _ (by decide)).iff fun s => by simp [Basic.Wide]

theorem decodeBytes_dries : (decodeBytes none).Dries CutSized := by
  intro fin s r
  rw [← bytesT_dries [] fin s r]
  unfold decodeBytes BytesT.unmarshal
  rw [Dec.runE_bind, Dec.runE_bind]
  cases h : readVaruint.runE fin s with
  | panic w => exact ⟨fun ⟨_, h⟩ => (nomatch h), fun ⟨_, h⟩ => (nomatch h)⟩
  | diverge => exact ⟨fun ⟨_, h⟩ => (nomatch h), fun ⟨_, h⟩ => (nomatch h)⟩
  | ok x m =>
    obtain ⟨l, e⟩ := x
    cases e with
    | some e => exact ⟨fun ⟨_, h⟩ => by cases h; exact ⟨_, rfl⟩, fun ⟨_, h⟩ => by cases h; exact ⟨_, rfl⟩⟩
    | none =>
      show (∃ v, (readBytes (goInt l) >>= _).runE fin m = _) ↔ ∃ v, (readBytes (goInt l) >>= _).runE fin m = _
      rw [Dec.runE_bind, Dec.runE_bind]
      cases h : (readBytes (goInt l)).runE fin m with
      | panic w => exact ⟨fun ⟨_, h⟩ => (nomatch h), fun ⟨_, h⟩ => (nomatch h)⟩
      | diverge => exact ⟨fun ⟨_, h⟩ => (nomatch h), fun ⟨_, h⟩ => (nomatch h)⟩
      | ok x m' =>
        obtain ⟨k, b, e⟩ := x
        cases e with
        | some e => exact ⟨fun ⟨_, h⟩ => by cases h; exact ⟨_, rfl⟩, fun ⟨_, h⟩ => by cases h; exact ⟨_, rfl⟩⟩
        | none => exact ⟨fun ⟨_, h⟩ => (nomatch h), fun ⟨_, h⟩ => (nomatch h)⟩

theorem elemBytes_dries : (decodeSlice (0 : UInt8) 1 (fun x => viaDecFn chainDecoder (.basic .u8) .elem x (fun _ => readUint8) (fun x => pure (x, none))) none).Dries
    fun s => CutLeb s ∨ ∃ n lb s', AnyLeb lb n ∧ n ≤ maxAlloc ∧ s = lb ++ s' ∧ s'.length < n := by
  have h : (viaDecFn chainDecoder (.basic .u8) .elem (0 : UInt8) (fun _ => readUint8) (fun x => pure (x, none))).Does (fun _ => Splits fun (b : UInt8) w => w = [b]) fun s => s = [] :=
    readUint8_exactly.does u8_dries
  refine (decodeSlice_does (0 : UInt8) 1 h).stops.iff fun s => or_congr Iff.rfl ?_
  have turn : ∀ (xs : Bytes) (s m : Bytes), InTurn (Splits fun (b : UInt8) w => w = [b]) xs s m ↔ s = xs ++ m := by
    intro xs
    induction xs with
    | nil => exact fun s m => ⟨fun h => by cases h; rfl, fun h => by subst h; exact .nil⟩
    | cons x xs ih =>
      intro s m
      constructor
      · intro h
        cases h with
        | cons h1 h2 =>
          obtain ⟨w, rfl, rfl⟩ := h1
          rw [(ih _ _).1 h2]
          rfl
      · rintro rfl
        exact .cons ⟨[x], rfl, rfl⟩ ((ih _ _).2 rfl)
  have hm : maxAlloc < 2 ^ 63 := by decide
  constructor
  · rintro ⟨n, lb, s', h1, h2, h3, rfl, xs, m, h4, h5, rfl⟩
    rw [(turn _ _ _).1 h5]
    exact ⟨n, lb, _, h1, by omega, rfl, by simpa using h4⟩
  · rintro ⟨n, lb, s', h1, h2, rfl, h3⟩
    exact ⟨n, lb, s', h1, by omega, by omega, rfl, s', [], h3, (turn _ _ _).2 (by simp), rfl⟩

/-! ### Fields: a variable for the error may hold io.EOF at the end -/

/-- `G false` describes success, `G true` an end with io.EOF in the variable. -/
structure Ran {α : Type} (o : Out (α × Option Err)) (fin : Err) (G : Bool → α → Bytes → Prop) (S : Prop) : Prop where
  gives : ∀ v r, o = .ok (v, none) r ↔ G false v r
  lacks : ∀ v r, G true v r → o = .ok (v, some .eof) r
  stops : ∀ r, (∃ v, o = .ok (v, some .eof) r) ↔ fin = .eof ∧ S ∧ r = []

theorem Ran.iff {α : Type} {o : Out (α × Option Err)} {fin : Err} {G H : Bool → α → Bytes → Prop} {S T : Prop} (h : Ran o fin G S) (h1 : ∀ a v r, G a v r ↔ H a v r) (h2 : fin = .eof → (S ↔ T)) : Ran o fin H T :=
  ⟨fun v r => (h.gives v r).trans (h1 _ _ _), fun v r h' => h.lacks v r ((h1 _ _ _).2 h'), fun r => (h.stops r).trans (and_congr_right fun hf => and_congr_left fun _ => h2 hf)⟩

theorem Ran.next {α β : Type} {p : Dec (β × Option Err)} {fin : Err} {s : Bytes} {G : Bool → β → Bytes → Prop} {S : Prop} (h : Ran (p.runE fin s) fin G S) (y : α) :
    Ran ((p >>= fun z => pure ((y, z.1), z.2)).runE fin s) fin (fun a v r => v.1 = y ∧ G a v.2 r) S := by
  rw [Dec.runE_bind]
  refine ⟨fun v r => ⟨fun h' => ?_, ?_⟩, ?_, fun r => ⟨?_, ?_⟩⟩
  · obtain ⟨⟨b, o⟩, m, h1, h2⟩ := Dec.runE_bind_ok (by rw [Dec.runE_bind]; exact h')
    cases h2
    exact ⟨rfl, (h.gives _ _).1 h1⟩
  · rintro ⟨rfl, h1⟩
    rw [(h.gives _ _).2 h1]
    rfl
  · rintro v r ⟨rfl, h1⟩
    rw [h.lacks _ _ h1]
    rfl
  · rintro ⟨v, h'⟩
    obtain ⟨⟨b, o⟩, m, h1, h2⟩ := Dec.runE_bind_ok (by rw [Dec.runE_bind]; exact h')
    cases h2
    exact (h.stops _).1 ⟨_, h1⟩
  · intro h'
    obtain ⟨v, hv⟩ := (h.stops _).2 h'
    rw [hv]
    exact ⟨_, rfl⟩

theorem Ran.of_does {α : Type} {p : Dec (α × Option Err)} {G : Err → α → Bytes → Bytes → Prop} {S : Bytes → Prop} (h : p.Does G S) (fin : Err) (s : Bytes) :
    Ran (p.runE fin s) fin (fun a v r => a = false ∧ G fin v s r) (S s) :=
  ⟨fun v r => (h.gives fin s v r).trans (by simp), fun _ _ h => (nomatch h.1), h.stops fin s⟩

/-- Read, stop on an error, go on with the other fields. -/
theorem Ran.bind {α β : Type} {p : Dec (β × Option Err)} {f : β × Option Err → Dec (α × Option Err)} {T : Err → β → Bytes → Bytes → Prop} {S : Bytes → Prop} (hp : p.Does T S) {fin : Err} {s : Bytes}
    {G : β → Bool → α → Bytes → Bytes → Prop} {S' : β → Bytes → Prop} (hf : ∀ b m, T fin b s m → Ran ((f (b, none)).runE fin m) fin (fun a v r => G b a v m r) (S' b m)) (he : ∀ b e, ∃ a, f (b, some e) = pure (a, some e)) :
    Ran ((p >>= f).runE fin s) fin (fun a v r => ∃ b m, T fin b s m ∧ G b a v m r) (S s ∨ ∃ b m, T .eof b s m ∧ S' b m) := by
  refine ⟨fun v r => ⟨fun h' => ?_, ?_⟩, ?_, fun r => ⟨?_, ?_⟩⟩
  · obtain ⟨⟨b, o⟩, m, h1, h2⟩ := Dec.runE_bind_ok h'
    cases o with
    | none =>
      have h1 := (hp.gives _ _ _ _).1 h1
      exact ⟨b, m, h1, ((hf b m h1).gives _ _).1 h2⟩
    | some e =>
      obtain ⟨a, ha⟩ := he b e
      rw [ha] at h2
      cases h2
  · rintro ⟨b, m, h1, h2⟩
    rw [Dec.runE_bind, (hp.gives _ _ _ _).2 h1]
    exact ((hf b m h1).gives _ _).2 h2
  · rintro v r ⟨b, m, h1, h2⟩
    rw [Dec.runE_bind, (hp.gives _ _ _ _).2 h1]
    exact (hf b m h1).lacks _ _ h2
  · rintro ⟨v, h⟩
    obtain ⟨⟨b, o⟩, m, h1, h2⟩ := Dec.runE_bind_ok h
    cases o with
    | none =>
      have h1 := (hp.gives _ _ _ _).1 h1
      obtain ⟨rfl, e2, e3⟩ := ((hf b m h1).stops _).1 ⟨v, h2⟩
      exact ⟨rfl, .inr ⟨b, m, h1, e2⟩, e3⟩
    | some e =>
      obtain ⟨a, ha⟩ := he b e
      rw [ha] at h2
      cases h2
      obtain ⟨e1, e2, e3⟩ := (hp.stops _ _ _).1 ⟨b, h1⟩
      exact ⟨e1, .inl e2, e3⟩
  · rintro ⟨rfl, (h1 | ⟨b, m, h1, h2⟩), rfl⟩
    · obtain ⟨b, h⟩ := (hp.stops .eof s []).2 ⟨rfl, h1, rfl⟩
      obtain ⟨a, ha⟩ := he b .eof
      refine ⟨a, ?_⟩
      rw [Dec.runE_bind, h]
      simp only [Out.bind, ha]
      rfl
    · obtain ⟨v, h⟩ := ((hf b m h1).stops []).2 ⟨rfl, h2, rfl⟩
      refine ⟨v, ?_⟩
      rw [Dec.runE_bind, (hp.gives .eof s b m).2 h1]
      exact h

/-- An extension: io.EOF goes into the variable. -/
theorem Ran.extension {α β : Type} {p : Dec (β × Option Err)} {f : β × Option Err → Dec (α × Option Err)} {q : Dec (α × Option Err)} {T : Err → β → Bytes → Bytes → Prop} {S : Bytes → Prop} (hp : p.Does T S) {fin : Err} {s : Bytes}
    {G : β → Bool → α → Bytes → Bytes → Prop} {S' : β → Bytes → Prop} {H : Bool → α → Bytes → Prop} {S'' : Prop}
    (hf : ∀ b m, T fin b s m → Ran ((f (b, none)).runE fin m) fin (fun a v r => G b a v m r) (S' b m)) (he : ∀ b e, e ≠ .eof → ∃ a, f (b, some e) = pure (a, some e))
    (hq : ∀ b, f (b, some .eof) = q) (hz : fin = .eof → Ran (q.runE fin []) fin H S'') :
    Ran ((p >>= f).runE fin s) fin (fun a v r => (∃ b m, T fin b s m ∧ G b a v m r) ∨ fin = .eof ∧ S s ∧ H a v r) (S s ∧ S'' ∨ ∃ b m, T .eof b s m ∧ S' b m) := by
  by_cases hs : fin = .eof ∧ S s
  · obtain ⟨rfl, hs⟩ := hs
    obtain ⟨b, hb⟩ := (hp.stops .eof s []).2 ⟨rfl, hs, rfl⟩
    have e : (p >>= f).runE .eof s = q.runE .eof [] := by
      rw [Dec.runE_bind, hb]
      show (f (b, some .eof)).runE .eof [] = _
      rw [hq]
    have no : ∀ b m, ¬ T .eof b s m := fun b' m h => by
      have := (hp.gives _ _ _ _).2 h
      rw [hb] at this
      cases this
    rw [e]
    exact (hz rfl).iff (fun a v r => ⟨fun h => .inr ⟨rfl, hs, h⟩, fun h => h.elim (fun ⟨b, m, h, _⟩ => absurd h (no b m)) fun h => h.2.2⟩)
      fun _ => ⟨fun h => .inl ⟨hs, h⟩, fun h => h.elim (fun h => h.2) fun ⟨b, m, h, _⟩ => absurd h (no b m)⟩
  · refine ⟨fun v r => ⟨fun h' => ?_, ?_⟩, ?_, fun r => ⟨?_, ?_⟩⟩
    · obtain ⟨⟨b, o⟩, m, h1, h2⟩ := Dec.runE_bind_ok h'
      cases o with
      | none =>
        have h1 := (hp.gives _ _ _ _).1 h1
        exact .inl ⟨b, m, h1, ((hf b m h1).gives _ _).1 h2⟩
      | some e =>
        by_cases h3 : e = .eof
        · subst h3
          exact absurd (let h := (hp.stops _ _ _).1 ⟨b, h1⟩; ⟨h.1, h.2.1⟩) hs
        · obtain ⟨a, ha⟩ := he b e h3
          rw [ha] at h2
          cases h2
    · rintro (⟨b, m, h1, h2⟩ | ⟨h1, h2, _⟩)
      · rw [Dec.runE_bind, (hp.gives _ _ _ _).2 h1]
        exact ((hf b m h1).gives _ _).2 h2
      · exact absurd ⟨h1, h2⟩ hs
    · rintro v r (⟨b, m, h1, h2⟩ | ⟨h1, h2, _⟩)
      · rw [Dec.runE_bind, (hp.gives _ _ _ _).2 h1]
        exact (hf b m h1).lacks _ _ h2
      · exact absurd ⟨h1, h2⟩ hs
    · rintro ⟨v, h⟩
      obtain ⟨⟨b, o⟩, m, h1, h2⟩ := Dec.runE_bind_ok h
      cases o with
      | none =>
        have h1 := (hp.gives _ _ _ _).1 h1
        obtain ⟨rfl, e2, e3⟩ := ((hf b m h1).stops _).1 ⟨v, h2⟩
        exact ⟨rfl, .inr ⟨b, m, h1, e2⟩, e3⟩
      | some e =>
        by_cases h3 : e = .eof
        · subst h3
          exact absurd (let h := (hp.stops _ _ _).1 ⟨b, h1⟩; ⟨h.1, h.2.1⟩) hs
        · obtain ⟨a, ha⟩ := he b e h3
          rw [ha] at h2
          cases h2
          exact absurd rfl h3
    · rintro ⟨rfl, (⟨h1, _⟩ | ⟨b, m, h1, h2⟩), rfl⟩
      · exact absurd ⟨rfl, h1⟩ hs
      · obtain ⟨v, h⟩ := ((hf b m h1).stops []).2 ⟨rfl, h2, rfl⟩
        refine ⟨v, ?_⟩
        rw [Dec.runE_bind, (hp.gives .eof s b m).2 h1]
        exact h

theorem readBool_does : readBool.Does (fun _ => Splits fun v w => ∃ c : UInt8, w = [c] ∧ v = decide (c ≠ 0)) fun s => s = [] := readBool_exactly.does (readBool_cut.dries.iff fun s => by simp)
theorem readByte_does : readByte.Does (fun _ => Splits fun v w => w = [v]) fun s => s = [] := readByte_exactly.does (readByte_cut.dries.iff fun s => by simp)

/-- One field. -/
theorem decodeField_ran {α β : Type} (vis : Vis) (tag : Tag) (x' zero : α) {dec : Mode → Dec (α × Option Err)} {T : Err → Mode → α → Bytes → Bytes → Prop} {S : Mode → Bytes → Prop}
    (hd : (dec .elem).Does (fun fin => T fin .elem) (S .elem)) (hv : ∀ i, (dec (.variant i)).Does (fun fin => T fin (.variant i)) (S (.variant i)))
    (xs : β) {rest : Option Err → Dec (β × Option Err)} {R : Err → Bool → Bool → β → Bytes → Bytes → Prop} {SR : Bool → Bytes → Prop}
    (hr : ∀ (before : Bool) (fin : Err) (s : Bytes), (before = true → fin = .eof ∧ s = []) → Ran ((rest (if before = true then some .eof else none)).runE fin s) fin (fun a v r => R fin before a v s r) (SR before s))
    (before : Bool) (fin : Err) (s : Bytes) (hb : before = true → fin = .eof ∧ s = []) :
    Ran ((decodeField vis tag zero x' zero dec xs (if before = true then some .eof else none) rest).runE fin s) fin
      (fun a v r => match vis, tag with
        | .blank, _ => v.1 = zero ∧ R fin before a v.2 s r
        | .unexported, _ => False
        | .exported, .optional => (∃ s', s = 0 :: s' ∧ v.1 = zero ∧ R fin before a v.2 s' r) ∨ ∃ p s' m, p ≠ 0 ∧ s = p :: s' ∧ T fin .elem v.1 s' m ∧ R fin false a v.2 m r
        | .exported, .variant => ∃ (idx : UInt8) (s' m : Bytes), s = idx :: s' ∧ T fin (.variant idx.toNat) v.1 s' m ∧ R fin false a v.2 m r
        | .exported, .extension => (∃ m, T fin .elem v.1 s m ∧ R fin false a v.2 m r) ∨ fin = .eof ∧ S .elem s ∧ v.1 = zero ∧ R fin true a v.2 [] r
        | .exported, .none => ∃ m, T fin .elem v.1 s m ∧ R fin false a v.2 m r)
      (match vis, tag with
        | .blank, _ => SR before s
        | .unexported, _ => False
        | .exported, .optional => s = [] ∨ (∃ s', s = 0 :: s' ∧ SR before s') ∨ ∃ p s', p ≠ 0 ∧ s = p :: s' ∧ (S .elem s' ∨ ∃ x m, T .eof .elem x s' m ∧ SR false m)
        | .exported, .variant => s = [] ∨ ∃ (idx : UInt8) (s' : Bytes), s = idx :: s' ∧ (S (.variant idx.toNat) s' ∨ ∃ x m, T .eof (.variant idx.toNat) x s' m ∧ SR false m)
        | .exported, .extension => (S .elem s ∧ SR true []) ∨ ∃ x m, T .eof .elem x s m ∧ SR false m
        | .exported, .none => S .elem s ∨ ∃ x m, T .eof .elem x s m ∧ SR false m) := by
  have hn : ∀ (y : α) (m : Bytes), Ran ((rest none >>= fun z => pure ((y, z.1), z.2)).runE fin m) fin (fun a (v : α × β) r => v.1 = y ∧ R fin false a v.2 m r) (SR false m) := fun y m => (hr false fin m (by simp)).next y
  have one : ∀ (mode : Mode) (m : Bytes), (dec mode).Does (fun fin => T fin mode) (S mode) → Ran ((dec mode >>= fun z => match z.2 with | some e => pure ((z.1, xs), some e) | none => (rest none >>= fun u => pure ((z.1, u.1), u.2))).runE fin m) fin
      (fun a (v : α × β) r => ∃ m', T fin mode v.1 m m' ∧ R fin false a v.2 m' r) (S mode m ∨ ∃ x m', T .eof mode x m m' ∧ SR false m') := by
    intro mode m h
    refine (Ran.bind (f := fun z => match z.2 with | some e => pure ((z.1, xs), some e) | none => (rest none >>= fun u => pure ((z.1, u.1), u.2))) h
      (G := fun y a v m' r => v.1 = y ∧ R fin false a v.2 m' r) (S' := fun _ m' => SR false m') (fun y m' _ => hn y m') fun _ _ => ⟨_, rfl⟩).iff (fun a v r => ⟨?_, ?_⟩) fun _ => Iff.rfl
    · rintro ⟨y, m', h1, rfl, h2⟩
      exact ⟨m', h1, h2⟩
    · rintro ⟨m', h1, h2⟩
      exact ⟨_, m', h1, rfl, h2⟩
  cases vis with
  | blank => exact (hr before fin s hb).next zero
  | unexported => exact ⟨fun _ _ => ⟨(nomatch ·), fun h => h.elim⟩, fun _ _ h => h.elim, fun _ => ⟨fun ⟨_, h⟩ => (nomatch h), fun h => h.2.1.elim⟩⟩
  | exported =>
    cases tag with
    | none => exact one .elem s hd
    | extension =>
      refine (Ran.extension (f := fun z => match z.2 with | some e => if e = .eof then (rest (some .eof) >>= fun u => pure ((zero, u.1), u.2)) else pure ((z.1, xs), some e) | none => (rest none >>= fun u => pure ((z.1, u.1), u.2)))
        hd (G := fun y a v m' r => v.1 = y ∧ R fin false a v.2 m' r) (S' := fun _ m' => SR false m') (fun y m' _ => hn y m') (fun b e he => ⟨_, if_neg he⟩) (fun b => if_pos rfl)
        (fun hf => (hr true fin [] fun _ => ⟨hf, rfl⟩).next zero)).iff (fun a v r => or_congr ⟨?_, ?_⟩ Iff.rfl) fun _ => Iff.rfl
      · rintro ⟨y, m', h1, rfl, h2⟩
        exact ⟨m', h1, h2⟩
      · rintro ⟨m', h1, h2⟩
        exact ⟨_, m', h1, rfl, h2⟩
    | optional =>
      refine (Ran.bind (f := fun z => match z.2 with | some e => pure ((x', xs), some e) | none => if z.1 = true then (dec .elem >>= fun z => match z.2 with | some e => pure ((z.1, xs), some e) | none => (rest none >>= fun u => pure ((z.1, u.1), u.2)))
          else (rest (if before = true then some .eof else none) >>= fun u => pure ((zero, u.1), u.2)))
        readBool_does (G := fun present a v m r => if present = true then ∃ m', T fin .elem v.1 m m' ∧ R fin false a v.2 m' r else v.1 = zero ∧ R fin before a v.2 m r)
        (S' := fun present m => if present = true then S .elem m ∨ ∃ x m', T .eof .elem x m m' ∧ SR false m' else SR before m) (fun present m hm => ?_) fun _ _ => ⟨_, rfl⟩).iff (fun a v r => ⟨?_, ?_⟩) fun _ => ⟨?_, ?_⟩
      · cases present with
        | true => exact one .elem m hd
        | false =>
          refine (hr before fin m fun h => ?_).next zero
          obtain ⟨_, h1⟩ := hb h
          obtain ⟨w, ⟨c, rfl, _⟩, h2⟩ := hm
          rw [h1] at h2
          cases h2
      · rintro ⟨p, m, ⟨_, ⟨c, rfl, rfl⟩, rfl⟩, h⟩
        by_cases hc : c = 0
        · rw [if_neg (by simp [hc])] at h
          exact .inl ⟨m, by rw [hc]; rfl, h⟩
        · rw [if_pos (by simp [hc])] at h
          obtain ⟨m', h1, h2⟩ := h
          exact .inr ⟨c, m, m', hc, rfl, h1, h2⟩
      · rintro (⟨m, rfl, h1, h2⟩ | ⟨p, m, m', h1, rfl, h2, h3⟩)
        · exact ⟨false, m, ⟨[0], ⟨0, rfl, by simp⟩, rfl⟩, by rw [if_neg (by simp)]; exact ⟨h1, h2⟩⟩
        · exact ⟨true, m, ⟨[p], ⟨p, rfl, by simp [h1]⟩, rfl⟩, by rw [if_pos rfl]; exact ⟨m', h2, h3⟩⟩
      · rintro (h | ⟨p, m, ⟨_, ⟨c, rfl, rfl⟩, rfl⟩, h⟩)
        · exact .inl h
        · by_cases hc : c = 0
          · rw [if_neg (by simp [hc])] at h
            exact .inr (.inl ⟨m, by rw [hc]; rfl, h⟩)
          · rw [if_pos (by simp [hc])] at h
            exact .inr (.inr ⟨c, m, hc, rfl, h⟩)
      · rintro (h | ⟨m, rfl, h⟩ | ⟨p, m, h1, rfl, h⟩)
        · exact .inl h
        · exact .inr ⟨false, m, ⟨[0], ⟨0, rfl, by simp⟩, rfl⟩, by rw [if_neg (by simp)]; exact h⟩
        · exact .inr ⟨true, m, ⟨[p], ⟨p, rfl, by simp [h1]⟩, rfl⟩, by rw [if_pos rfl]; exact h⟩
    | variant =>
      refine (Ran.bind (f := fun z => match z.2 with | some e => pure ((x', xs), some e) | none => (dec (.variant z.1.toNat) >>= fun z => match z.2 with | some e => pure ((z.1, xs), some e) | none => (rest none >>= fun u => pure ((z.1, u.1), u.2))))
        readByte_does (G := fun (idx : UInt8) a v m r => ∃ m', T fin (.variant idx.toNat) v.1 m m' ∧ R fin false a v.2 m' r)
        (S' := fun (idx : UInt8) m => S (.variant idx.toNat) m ∨ ∃ x m', T .eof (.variant idx.toNat) x m m' ∧ SR false m') (fun idx m _ => one (.variant idx.toNat) m (hv _)) fun _ _ => ⟨_, rfl⟩).iff (fun a v r => ⟨?_, ?_⟩) fun _ => or_congr Iff.rfl ⟨?_, ?_⟩
      · rintro ⟨idx, m, ⟨_, rfl, rfl⟩, m', h1, h2⟩
        exact ⟨idx, m, m', rfl, h1, h2⟩
      · rintro ⟨idx, m, m', rfl, h1, h2⟩
        exact ⟨idx, m, ⟨[idx], rfl, rfl⟩, m', h1, h2⟩
      · rintro ⟨idx, m, ⟨_, rfl, rfl⟩, h⟩
        exact ⟨idx, m, rfl, h⟩
      · rintro ⟨idx, m, rfl, h⟩
        exact ⟨idx, m, ⟨[idx], rfl, rfl⟩, h⟩

/-! ### All types -/

theorem ptr_does {α : Type} {p : Dec (α × Option Err)} {G : Err → α → Bytes → Bytes → Prop} {S : Bytes → Prop} (h : p.Does G S) :
    (p >>= fun z => pure ((some z.1 : Option α), z.2)).Does (fun fin v s r => ∃ x, v = some x ∧ G fin x s r) S :=
  h.map (g := some) (fun _ => rfl) fun _ _ => ⟨_, rfl⟩

theorem members_lt : (fs : Fields) → (i : Nat) → (s : Bytes) → fs.StopsMember i s → i < fs.count
  | .nil, _, _, h => h.elim
  | .cons _ _ _ _, 0, _, _ => Nat.succ_pos _
  | .cons _ _ _ fs, n + 1, s, h => Nat.succ_lt_succ (members_lt fs n s h)

theorem memberg_lt (fin : Err) : (fs : Fields) → (i : Nat) → (v : fs.Val) → (s r : Bytes) → fs.GivesMember fin i v s r → i < fs.count
  | .nil, _, _, _, _, h => h.elim
  | .cons _ _ _ _, 0, _, _, _, _ => Nat.succ_pos _
  | .cons _ _ _ fs, n + 1, _, s, r, h => Nat.succ_lt_succ (memberg_lt fin fs n _ s r h.2)

theorem struct_does {fs : Fields} (h : ∀ (before : Bool) (fin : Err) (s : Bytes), (before = true → fin = .eof ∧ s = []) →
    Ran ((decodeFields chainDecoder fs (if before = true then some .eof else none) fs.zero).runE fin s) fin (fun a v r => fs.Gives fin before a v s r) (fs.Stops before s)) :
    (decodeFields chainDecoder fs none fs.zero).Does (fun fin => fs.Gives fin false false) (fs.Stops false) :=
  ⟨fun fin s => (h false fin s (by simp)).gives, fun fin s => (h false fin s (by simp)).stops⟩

mutual
theorem ty_does : (t : Ty) → (m : Mode) → (decodeWith chainDecoder t m t.zero).Does (fun fin => t.Gives fin m) (t.Stops m)
  | .basic b, m => ((ty_exactly (.basic b) trivial m).does ((via_does (t := .basic b) rfl m _ ((basic_exactly b).does (basic_dries b)) ((readKind_exactly b _).does (readKind_dries b _))).stops.iff fun s => by
      show _ ↔ (m = .decode ∨ m = .elem ∨ m = .value ∧ b.Wide) ∧ b.Dry s
      tauto))
  | .named b, m => (ty_exactly (.named b) trivial m).does (via_does' (t := .named b) rfl m _ ((readKind_exactly b _).does (readKind_dries b _))).stops
  | .unsupported, m => (ty_exactly .unsupported trivial m).does ((via_does' (t := .unsupported) rfl m _ (does_fail _ _ (by decide))).stops.iff fun s => ⟨fun h => h.2, fun h => h.elim⟩)
  | .bytes, m => (ty_exactly .bytes trivial m).does (via_does (t := .bytes) rfl m _ ((decodeBytes_exactly none).does decodeBytes_dries) (elemBytes_exactly.does elemBytes_dries)).stops
  | .chain c, m => (ty_exactly (.chain c) trivial m).does (chain_mode_dries c m)
  | .ptr t, m => match m with
      | .elem => ptr_does (ty_does t .decode)
      | .variant i => ptr_does (ty_does t (.variant i))
      | .member => (ty_does t .decode).map (g := some) (fun _ => rfl) fun _ _ => ⟨_, rfl⟩
      | .decode => ptr_does (ty_does t .value)
      | .value => ptr_does (ty_does t .value)
  | .slice t, m => via_does' (t := .slice t) rfl m _ (decodeSlice_does t.zero t.size (ty_does t .elem))
  | .array n t, m => (via_does' (t := .array n t) rfl m _ (decEach_does (List.replicate n t.zero) fun x hx => by
      rw [List.eq_of_mem_replicate hx]
      exact ty_does t .elem)).iff (fun fin v s r => by rw [List.length_replicate]; rfl) fun s => by rw [List.length_replicate]; rfl
  | .map k e, m => via_does' (t := .map k e) rfl m _ (decodeMap_does (ty_does k .decode) (ty_does e .decode) _)
  | .struct fs, m => match m with
      | .elem => (via_does' (t := .struct fs) rfl .elem _ (struct_does (fields_ran fs))).iff (fun _ _ _ _ => ⟨fun h => h.2, fun h => ⟨.inr (.inl rfl), h⟩⟩) fun _ => ⟨fun h => h.2, fun h => ⟨.inr (.inl rfl), h⟩⟩
      | .member => (via_does' (t := .struct fs) rfl .member _ (struct_does (fields_ran fs))).iff (fun _ _ _ _ => ⟨fun h => by simp at h, fun h => h.elim⟩) fun _ => ⟨fun h => by simp at h, fun h => h.elim⟩
      | .decode => (via_does' (t := .struct fs) rfl .decode _ (struct_does (fields_ran fs))).iff (fun _ _ _ _ => ⟨fun h => h.2, fun h => ⟨.inl rfl, h⟩⟩) fun _ => ⟨fun h => h.2, fun h => ⟨.inl rfl, h⟩⟩
      | .value => (via_does' (t := .struct fs) rfl .value _ (struct_does (fields_ran fs))).iff (fun _ _ _ _ => ⟨fun h => h.2, fun h => ⟨.inr (.inr rfl), h⟩⟩) fun _ => ⟨fun h => h.2, fun h => ⟨.inr (.inr rfl), h⟩⟩
      | .variant i => by
        show Dec.Does (if i ≥ fs.count then pure (fs.zero, some errVariantIndex) else match fs.clear (some i) fs.zero with
          | none => .panic _
          | some cleared => decodeMember chainDecoder fs i cleared) (fun fin v s r => fs.NilableBut (some i) ∧ fs.GivesMember fin i v s r) fun s => fs.NilableBut (some i) ∧ fs.StopsMember i s
        split
        · rename_i hi
          exact (does_fail _ _ (by decide)).iff (fun fin v s r => ⟨fun h => h.elim, fun h => absurd (memberg_lt fin fs i v s r h.2) (by omega)⟩) fun s => ⟨fun h => h.elim, fun h => absurd (members_lt fs i s h.2) (by omega)⟩
        · rcases clearZero fs (some i) with ⟨h1, h2⟩ | ⟨h1, h2⟩
          · rw [h2]
            exact (member_does fs i).iff (fun _ _ _ _ => ⟨fun h => ⟨h1, h⟩, fun h => h.2⟩) fun _ => ⟨fun h => ⟨h1, h⟩, fun h => h.2⟩
          · rw [h2]
            exact (does_panic _).iff (fun _ _ _ _ => ⟨fun h => h.elim, fun h => h1 h.1⟩) fun _ => ⟨fun h => h.elim, fun h => h1 h.1⟩
  | .ref i s a, m => match m with
      | .variant _ => (ty_exactly (.ref i s a) trivial (.variant _)).does dries_diverge
      | .elem => (ty_exactly (.ref i s a) trivial .elem).does dries_diverge
      | .member => (ty_exactly (.ref i s a) trivial .member).does (dries_pure _ _ (by decide))
      | .decode => (ty_exactly (.ref i s a) trivial .decode).does dries_diverge
      | .value => (ty_exactly (.ref i s a) trivial .value).does dries_diverge
theorem fields_ran : (fs : Fields) → (before : Bool) → (fin : Err) → (s : Bytes) → (before = true → fin = .eof ∧ s = []) →
    Ran ((decodeFields chainDecoder fs (if before = true then some .eof else none) fs.zero).runE fin s) fin (fun a v r => fs.Gives fin before a v s r) (fs.Stops before s)
  | .nil, before, fin, s, hb => by
      cases before with
      | false =>
        refine ⟨fun v r => ⟨fun h => ?_, fun h => ?_⟩, fun v r h => (nomatch h.1), fun r => ⟨fun ⟨_, h⟩ => (nomatch h), fun h => (nomatch h.2.1)⟩⟩
        · cases h; exact ⟨rfl, rfl⟩
        · rw [← h.2]; rfl
      | true =>
        obtain ⟨rfl, rfl⟩ := hb rfl
        refine ⟨fun v r => ⟨fun h => (nomatch h), fun h => (nomatch h.1)⟩, fun v r h => ?_, fun r => ⟨fun ⟨_, h⟩ => ?_, fun h => ?_⟩⟩
        · rw [← h.2]; rfl
        · cases h; exact ⟨rfl, rfl, rfl⟩
        · rw [h.2.2]; exact ⟨(), rfl⟩
  | .cons vis tag t fs, before, fin, s, hb => by
      have h1 := ty_does t .elem
      have h2 := fun i => ty_does t (.variant i)
      rw [← alloc_zero_elem] at h1
      simp only [← alloc_zero_variant] at h2
      have := decodeField_ran vis tag (t.alloc t.zero) t.zero (dec := fun m => decodeWith chainDecoder t m (t.alloc t.zero)) (T := fun fin m => t.Gives fin m) (S := t.Stops) h1 h2 fs.zero
        (rest := fun err => decodeFields chainDecoder fs err fs.zero) (R := fun fin => fs.Gives fin) (SR := fs.Stops) (fields_ran fs) before fin s hb
      cases vis <;> cases tag <;> exact this
theorem member_does : (fs : Fields) → (i : Nat) → (decodeMember chainDecoder fs i fs.zero).Does (fun fin => fs.GivesMember fin i) (fs.StopsMember i)
  | .nil, _ => does_fail _ _ (by decide)
  | .cons vis tag t fs, 0 => by
      have : (decodeWith chainDecoder t .member t.zero >>= fun z => match z.2 with
          | some e => pure (((z.1, fs.zero) : t.Val × fs.Val), some e)
          | none => if vis = .exported then pure ((z.1, fs.zero), none) else .panic "reflect: using value obtained using unexported field").Does
          (fun fin v s r => vis = .exported ∧ v.2 = fs.zero ∧ t.Gives fin .member v.1 s r) (t.Stops .member) := by
        by_cases hv : vis = .exported
        · refine ((ty_does t .member).map (g := fun y => (y, fs.zero)) (fun b => if_pos hv) fun _ _ => ⟨_, rfl⟩).iff (fun fin v s r => ⟨?_, ?_⟩) fun _ => Iff.rfl
          · rintro ⟨x, rfl, h⟩
            exact ⟨hv, rfl, h⟩
          · rintro ⟨_, h1, h2⟩
            exact ⟨v.1, by rw [← h1], h2⟩
        · refine ((ty_does t .member).bind (f := fun z => match z.2 with
          | some e => pure (((z.1, fs.zero) : t.Val × fs.Val), some e)
          | none => if vis = .exported then pure ((z.1, fs.zero), none) else .panic "reflect: using value obtained using unexported field") (H := fun _ _ _ _ _ => False) (T := fun _ _ => False) (fun b => ?_) fun _ _ => ⟨_, rfl⟩).iff (fun fin v s r => ⟨?_, fun h => absurd (And.left h) hv⟩) fun s => by simp
          · show Dec.Does (if vis = .exported then _ else _) _ _
            rw [if_neg hv]
            exact does_panic _
          · rintro ⟨_, _, _, h⟩
            exact h.elim
      exact this
  | .cons vis tag t fs, n + 1 => ((member_does fs n).map (g := fun ys => ((t.zero, ys) : t.Val × fs.Val)) (fun _ => rfl) fun _ _ => ⟨_, rfl⟩).iff
      (fun fin v s r => ⟨fun ⟨ys, e, h⟩ => by rw [e]; exact ⟨rfl, h⟩, fun ⟨h1, h2⟩ => ⟨(show t.Val × fs.Val from v).2, Prod.ext h1 rfl, h2⟩⟩) fun _ => Iff.rfl
end

end Verif
