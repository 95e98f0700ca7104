import Verif.Model.Bench
import Verif.Props.Prim
import Verif.Lemmas.Reflect
/-! Helper lemmas: equal runs of different programs. -/
namespace Verif

/-! ## Encoding -/

/-- Same bytes or same panic, and no error of its own. -/
def Enc.Like (p q : Enc (Option Err)) : Prop := p.run = q.run ∧ ∀ e o, p.run = .ok e o → e = none

theorem Enc.Like.bind {p q : Enc (Option Err)} {f g : Option Err → Enc (Option Err)} (h : p.Like q) (hf : (f none).Like (g none)) : (p >>= f).Like (q >>= g) := by
  obtain ⟨h1, h2⟩ := h
  obtain ⟨h3, h4⟩ := hf
  simp only [Enc.Like, Enc.run_bind]
  rw [← h1]
  cases hp : p.run with
  | ok e o =>
    cases h2 e o hp
    simp only [EOut.bind_ok, h3, true_and]
    intro e o' ho
    cases hg : (g none).run with
    | ok e' o'' => rw [hg] at ho h3; cases ho; exact h4 _ _ h3
    | panic w => rw [hg] at ho; cases ho
    | diverge => rw [hg] at ho; cases ho
  | panic w => exact ⟨rfl, fun _ _ h => by cases h⟩
  | diverge => exact ⟨rfl, fun _ _ h => by cases h⟩

theorem Enc.Like.last {p q : Enc (Option Err)} {f : Option Err → Enc (Option Err)} (h : p.Like q) (hf : f none = pure none) : (p >>= f).Like q := by
  have : (p >>= f).Like (q >>= pure) := h.bind (by rw [hf]; exact ⟨rfl, fun e o ho => by cases ho; rfl⟩)
  have hq : (q >>= pure) = q := Enc.bind_ret q
  rwa [hq] at this

theorem Enc.Writes.like {p : Enc (Option Err)} {bs : Bytes} (h : p.Writes bs) : p.Like p := ⟨rfl, fun e o ho => by rw [h] at ho; cases ho; rfl⟩
theorem Enc.Like.none : Enc.Like (pure none) (pure none) := ⟨rfl, fun e o ho => by cases ho; rfl⟩
theorem varuint_like (v : UInt64) : (writeVaruint v).Like (writeVaruint v) := ⟨rfl, fun e o ho => (C02_varuint v e o ho).1⟩
theorem writeBytes_like (b : Bytes) : (writeBytes b).Like (writeBytes b) := Enc.Writes.like (writeBytes_writes b)

theorem encEach_like {α β : Type} (enc : α → Enc (Option Err)) (enc' : β → Enc (Option Err)) (g : α → β) (k : Enc (Option Err))
    (f : Option Err → Enc (Option Err)) (xs : List α) (h : ∀ x, (enc' (g x)).Like (enc x)) (hk : (f none).Like k) :
    (encEach enc' (pure none) (xs.map g) >>= f).Like (encEach enc k xs) := by
  induction xs with
  | nil => exact hk
  | cons x xs ih =>
    change Enc.Like ((enc' (g x) >>= _) >>= f) (enc x >>= _)
    rw [Enc.bind_assoc']
    exact (h x).bind ih

/-! ## Decoding -/

/-- Whenever p succeeds, q succeeds with a related value. -/
def Dec.Sim {α β : Type} (R : α → β → Prop) (p : Dec (α × Option Err)) (q : Dec (β × Option Err)) : Prop :=
  ∀ fin bs a r, p.runE fin bs = .ok (a, none) r → ∃ b, R a b ∧ q.runE fin bs = .ok (b, none) r

theorem Dec.Sim.of_eq {α β : Type} {R : α → β → Prop} {p : Dec (α × Option Err)} {q q' : Dec (β × Option Err)} (h : q = q') (hs : Dec.Sim R p q') : Dec.Sim R p q := h ▸ hs
theorem Dec.Sim.refl {α : Type} (p : Dec (α × Option Err)) : Dec.Sim Eq p p := fun _ _ a _ h => ⟨a, rfl, h⟩

theorem Dec.Sim.bind {α β γ δ : Type} {R : α → β → Prop} {S : γ → δ → Prop} {p : Dec (α × Option Err)} {q : Dec (β × Option Err)}
    {f : α × Option Err → Dec (γ × Option Err)} {g : β × Option Err → Dec (δ × Option Err)} (h : Dec.Sim R p q)
    (he : ∀ a e fin bs c r, (f (a, some e)).runE fin bs ≠ .ok (c, none) r) (hf : ∀ a b, R a b → Dec.Sim S (f (a, none)) (g (b, none))) : Dec.Sim S (p >>= f) (q >>= g) := by
  intro fin bs c r hc
  obtain ⟨⟨a, e⟩, r', h1, h2⟩ := Dec.runE_bind_ok hc
  cases e with
  | some e => exact absurd h2 (he a e fin r' c r)
  | none =>
    obtain ⟨b, hr, h3⟩ := h fin bs a r' h1
    obtain ⟨d, hs, h4⟩ := hf a b hr fin r' c r h2
    exact ⟨d, hs, by rw [Dec.runE_bind, h3]; exact h4⟩

theorem Dec.Sim.pure {α β : Type} {R : α → β → Prop} (a : α) (b : β) (h : R a b) : Dec.Sim R (Pure.pure (a, none)) (Pure.pure (b, none)) :=
  fun _ _ _ _ ho => by cases ho; exact ⟨b, h, rfl⟩

theorem Dec.Sim.map {α β γ : Type} {R : α → β → Prop} {S : γ → β → Prop} {p : Dec (γ × Option Err)} {q : Dec (β × Option Err)} (g : γ → α)
    (h : Dec.Sim S p q) (hg : ∀ c b, S c b → R (g c) b) : Dec.Sim R (p >>= fun x => Pure.pure (g x.1, x.2)) q := by
  intro fin bs a r hc
  obtain ⟨⟨c, e⟩, r', h1, h2⟩ := Dec.runE_bind_ok hc
  cases h2
  obtain ⟨b, h3, h4⟩ := h fin bs c r h1
  exact ⟨b, hg c b h3, h4⟩

theorem Dec.not_some {α : Type} (a : α) (e : Err) (fin : Err) (bs : Bytes) (c : α) (r : Bytes) : ((pure (a, some e) : Dec (α × Option Err))).runE fin bs ≠ .ok (c, none) r :=
  fun h => by cases h

/-- The first field and the others, against a program that reads them one after the other. -/
theorem field_sim {α β γ δ : Type} {R : α → γ → Prop} {S : α × β → δ → Prop} {x x' z : α} {dec : Mode → Dec (α × Option Err)} {xs : β} {rest : Option Err → Dec (β × Option Err)}
    {q : Dec (γ × Option Err)} {g : γ × Option Err → Dec (δ × Option Err)} (h : Dec.Sim R (dec .elem) q)
    (hf : ∀ a c, R a c → Dec.Sim (fun b d => S (a, b) d) (rest none) (g (c, none))) : Dec.Sim S (decodeField .exported .none x x' z dec xs none rest) (q >>= g) :=
  h.bind (fun _ _ => Dec.not_some _ _) fun a c hr => (hf a c hr).map (fun b => (a, b)) fun _ _ h => h

theorem benchField_sim {t : Ty} {fs : Fields} {γ δ : Type} {R : t.Val → γ → Prop} {S : t.Val × fs.Val → δ → Prop} {x : t.Val} {xs : fs.Val}
    {q : Dec (γ × Option Err)} {g : γ × Option Err → Dec (δ × Option Err)} (h : Dec.Sim R (decodeWith chainDecoder t .elem (t.alloc x)) q)
    (hf : ∀ a c, R a c → Dec.Sim (fun b d => S (a, b) d) (decodeFields chainDecoder fs none xs) (g (c, none))) :
    Dec.Sim (α := t.Val × fs.Val) S (decodeFields chainDecoder (benchField t fs) none ((x, xs) : t.Val × fs.Val)) (q >>= g) :=
  field_sim (x := x) (x' := t.alloc x) (z := t.zero) (dec := fun mode => decodeWith chainDecoder t mode (t.alloc x)) (rest := fun err => decodeFields chainDecoder fs err xs) h hf

theorem decode_struct (fs : Fields) (v : fs.Val) : decode (.struct fs) v = decodeFields chainDecoder fs none v := rfl

theorem decEach_sim {α β : Type} {R : α → β → Prop} {dec : α → Dec (α × Option Err)} {dec' : β → Dec (β × Option Err)} {z : α} {z' : β} (h : Dec.Sim R (dec z) (dec' z')) (n : Nat) :
    Dec.Sim (Forall2 R) (decEach dec (List.replicate n z)) (decEach dec' (List.replicate n z')) := by
  induction n with
  | zero => exact .pure _ _ .nil
  | succ n ih =>
    rw [List.replicate_succ, List.replicate_succ]
    refine h.bind (fun a e => Dec.not_some _ _) fun a b hr => ?_
    exact ih.bind (fun a e => Dec.not_some _ _) fun as bs hrs => .pure _ _ (.cons hr hrs)

/-! The other direction -/

/-- Whenever q succeeds, p succeeds with a related value or panics. -/
def Dec.Back {α β : Type} (R : α → β → Prop) (p : Dec (α × Option Err)) (q : Dec (β × Option Err)) : Prop :=
  ∀ fin bs b r, q.runE fin bs = .ok (b, none) r → (∃ a, R a b ∧ p.runE fin bs = .ok (a, none) r) ∨ ∃ w, p.runE fin bs = .panic w

theorem Dec.Back.of_eq {α β : Type} {R : α → β → Prop} {p : Dec (α × Option Err)} {q q' : Dec (β × Option Err)} (h : q = q') (hs : Dec.Back R p q') : Dec.Back R p q := h ▸ hs
theorem Dec.Back.of_eqL {α β : Type} {R : α → β → Prop} {p p' : Dec (α × Option Err)} {q : Dec (β × Option Err)} (h : p = p') (hs : Dec.Back R p' q) : Dec.Back R p q := h ▸ hs
theorem Dec.Back.refl {α : Type} (p : Dec (α × Option Err)) : Dec.Back Eq p p := fun _ _ a _ h => .inl ⟨a, rfl, h⟩

theorem Dec.Back.bind {α β γ δ : Type} {R : α → β → Prop} {S : γ → δ → Prop} {p : Dec (α × Option Err)} {q : Dec (β × Option Err)}
    {f : α × Option Err → Dec (γ × Option Err)} {g : β × Option Err → Dec (δ × Option Err)} (h : Dec.Back R p q)
    (he : ∀ b e fin bs r d r', q.runE fin bs = .ok (b, some e) r → (g (b, some e)).runE fin r ≠ .ok (d, none) r')
    (hf : ∀ a b, R a b → Dec.Back S (f (a, none)) (g (b, none))) : Dec.Back S (p >>= f) (q >>= g) := by
  intro fin bs c r hc
  obtain ⟨⟨b, e⟩, r', h1, h2⟩ := Dec.runE_bind_ok hc
  cases e with
  | some e => exact absurd h2 (he b e fin bs r' c r h1)
  | none =>
    rcases h fin bs b r' h1 with ⟨a, hr, h3⟩ | ⟨w, h3⟩
    · rcases hf a b hr fin r' c r h2 with ⟨d, hs, h4⟩ | ⟨w, h4⟩
      · exact .inl ⟨d, hs, by rw [Dec.runE_bind, h3]; exact h4⟩
      · exact .inr ⟨w, by rw [Dec.runE_bind, h3]; exact h4⟩
    · exact .inr ⟨w, by rw [Dec.runE_bind, h3]; rfl⟩

theorem Dec.Back.pure {α β : Type} {R : α → β → Prop} (a : α) (b : β) (h : R a b) : Dec.Back R (Pure.pure (a, none)) (Pure.pure (b, none)) :=
  fun _ _ _ _ ho => by cases ho; exact .inl ⟨a, h, rfl⟩

theorem Dec.Back.map {α β γ : Type} {R : α → β → Prop} {S : γ → β → Prop} {p : Dec (γ × Option Err)} {q : Dec (β × Option Err)} (g : γ → α)
    (h : Dec.Back S p q) (hg : ∀ c b, S c b → R (g c) b) : Dec.Back R (p >>= fun x => Pure.pure (g x.1, x.2)) q := by
  intro fin bs b r hc
  rcases h fin bs b r hc with ⟨c, h1, h2⟩ | ⟨w, h2⟩
  · exact .inl ⟨g c, hg c b h1, by rw [Dec.runE_bind, h2]; rfl⟩
  · exact .inr ⟨w, by rw [Dec.runE_bind, h2]; rfl⟩

theorem field_back {α β γ δ : Type} {R : α → γ → Prop} {S : α × β → δ → Prop} {x x' z : α} {dec : Mode → Dec (α × Option Err)} {xs : β} {rest : Option Err → Dec (β × Option Err)}
    {q : Dec (γ × Option Err)} {g : γ × Option Err → Dec (δ × Option Err)} (h : Dec.Back R (dec .elem) q)
    (he : ∀ b e fin bs r d r', q.runE fin bs = .ok (b, some e) r → (g (b, some e)).runE fin r ≠ .ok (d, none) r')
    (hf : ∀ a c, R a c → Dec.Back (fun b d => S (a, b) d) (rest none) (g (c, none))) : Dec.Back S (decodeField .exported .none x x' z dec xs none rest) (q >>= g) :=
  h.bind he fun a c hr => (hf a c hr).map (fun b => (a, b)) fun _ _ h => h

theorem benchField_back {t : Ty} {fs : Fields} {γ δ : Type} {R : t.Val → γ → Prop} {S : t.Val × fs.Val → δ → Prop} {x : t.Val} {xs : fs.Val}
    {q : Dec (γ × Option Err)} {g : γ × Option Err → Dec (δ × Option Err)} (h : Dec.Back R (decodeWith chainDecoder t .elem (t.alloc x)) q)
    (he : ∀ b e fin bs r d r', q.runE fin bs = .ok (b, some e) r → (g (b, some e)).runE fin r ≠ .ok (d, none) r')
    (hf : ∀ a c, R a c → Dec.Back (fun b d => S (a, b) d) (decodeFields chainDecoder fs none xs) (g (c, none))) :
    Dec.Back (α := t.Val × fs.Val) S (decodeFields chainDecoder (benchField t fs) none ((x, xs) : t.Val × fs.Val)) (q >>= g) :=
  field_back (x := x) (x' := t.alloc x) (z := t.zero) (dec := fun mode => decodeWith chainDecoder t mode (t.alloc x)) (rest := fun err => decodeFields chainDecoder fs err xs) h he hf

theorem decEach_back {α β : Type} {R : α → β → Prop} {dec : α → Dec (α × Option Err)} {dec' : β → Dec (β × Option Err)} {z : α} {z' : β} (h : Dec.Back R (dec z) (dec' z')) (n : Nat) :
    Dec.Back (Forall2 R) (decEach dec (List.replicate n z)) (decEach dec' (List.replicate n z')) := by
  induction n with
  | zero => exact .pure _ _ .nil
  | succ n ih =>
    rw [List.replicate_succ, List.replicate_succ]
    refine h.bind (fun b e fin bs r d r' _ => Dec.not_some _ _ _ _ _ _) fun a b hr => ?_
    exact ih.bind (fun b e fin bs r d r' _ => Dec.not_some _ _ _ _ _ _) fun as bs hrs => .pure _ _ (.cons hr hrs)

end Verif
