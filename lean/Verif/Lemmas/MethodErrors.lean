import Verif.Spec.MethodErrors
import Verif.Lemmas.Methods
/-! # Lemmas about methods that return an error -/
namespace Verif

/-- Returns the error after writing these bytes. -/
def Enc.Stops (e : Err) (p : Enc (Option Err)) (bs : Bytes) : Prop := p.run = .ok (some e) bs

theorem Enc.Stops.first {e : Err} {p q : Enc (Option Err)} {bs : Bytes} (h : p.Stops e bs) :
    Enc.Stops e (p.bind fun e => match e with | some e => pure (some e) | none => q) bs := by
  unfold Enc.Stops at *
  rw [Enc.run_bind', h]
  simp

theorem Enc.Stops.after {e : Err} {p : Enc (Option Err)} {g : Option Err → Enc (Option Err)} {b1 b2 : Bytes} (hp : p.Writes b1) (h : (g none).Stops e b2) :
    Enc.Stops e (p.bind g) (b1 ++ b2) := by
  unfold Enc.Stops Enc.Writes at *
  rw [Enc.run_bind', hp, EOut.bind_ok, h, EOut.prepend_ok]

theorem Enc.Stops.of_eq {e : Err} {p q : Enc (Option Err)} {bs : Bytes} (h : p = q) (hq : q.Stops e bs) : p.Stops e bs := h ▸ hq

/-- Returns the error on data that begins with these bytes and ends there. -/
def Dec.Stops {α : Type} (e : Err) (p : Dec (α × Option Err)) (bs : Bytes) : Prop := ∀ fin, ∃ w r, p.runE fin bs = .ok (w, some e) r

theorem Dec.Stops.first {α β : Type} {e : Err} {p : Dec (α × Option Err)} {g : α × Option Err → Dec (β × Option Err)} {bs : Bytes} (h : p.Stops e bs)
    (hg : ∀ w, ∃ w', g (w, some e) = pure (w', some e)) : (p.bind g).Stops e bs := by
  intro fin
  obtain ⟨w, r, h⟩ := h fin
  obtain ⟨w', hg⟩ := hg w
  refine ⟨w', r, ?_⟩
  show (p >>= g : Dec (β × Option Err)).runE fin bs = _
  rw [Dec.runE_bind, h, Out.bind_ok, hg, Dec.runE_pure]

theorem Dec.Stops.after {α β : Type} {e : Err} {p : Dec (α × Option Err)} {g : α × Option Err → Dec (β × Option Err)} {b1 b2 : Bytes} {a : α} (hp : p.Reads b1 a)
    (h : (g (a, none)).Stops e b2) : (p.bind g).Stops e (b1 ++ b2) := by
  intro fin
  obtain ⟨w, r, h⟩ := h fin
  refine ⟨w, r, ?_⟩
  show (p >>= g : Dec (β × Option Err)).runE fin (b1 ++ b2) = _
  rw [Dec.runE_bind, hp fin, Out.bind_ok, h]

variable {W : Formats} {M : Program} {F : Refusals} {e : Err}

theorem encEach_stops {α : Type} {R B : α → Bytes → Prop} {Q P : α → Prop} {enc : α → Enc (Option Err)} {xs : List α} (h : FirstBad Q P xs)
    (hq : ∀ x, Q x → ∃ b, R x b ∧ (enc x).Writes b) (hp : ∀ x, P x → ∃ b, B x b ∧ (enc x).Stops e b) : ∃ b, UpTo R B xs b ∧ (encEach enc (pure none) xs).Stops e b := by
  induction h with
  | here h =>
    obtain ⟨b, h1, h2⟩ := hp _ h
    exact ⟨b, .here h1, h2.first⟩
  | later h _ ih =>
    obtain ⟨b1, h1, h2⟩ := hq _ h
    obtain ⟨b2, h3, h4⟩ := ih
    exact ⟨b1 ++ b2, .later h1 h3, Enc.Stops.after h2 h4⟩

mutual
theorem encodeM_stops (hM : M.Keeps W) (hF : ∀ i t v bs, F i t v bs → ((M i t).marshal v).Stops e bs) : (t : MTy) → (v : t.bare.Val) → (m : Mode) →
    t.Sound W (fun i t => (M i t).receiver) m false → t.Stuck W F v → ∃ bs, t.Broken W F v bs ∧ (encodeM M t v).Stops e bs
  | .plain _, _, _, _, h => h.elim
  | .own i t, v, m, hs, h => by
    have hk := hM i t
    rw [MTy.Sound] at hs
    rw [MTy.Stuck] at h
    simp only [MTy.Broken, encodeM]
    cases hf : W i t with
    | some f =>
      simp only [hf] at hs h hk ⊢
      obtain ⟨bs, h⟩ := h
      rcases hs with hs | ⟨_, hs⟩
      · simp only [hs]; exact ⟨bs, h, hF _ _ _ _ h⟩
      · cases hs
    | none =>
      simp only [hf] at hs h hk ⊢
      obtain ⟨bs, h1, h2⟩ := encodeM_stops hM hF t v m hs h
      simp only [hk.1]
      exact ⟨bs, h1, h2⟩
  | .ptr (.own i t), v, m, hs, h => by
    obtain ⟨x, rfl, h⟩ := h
    suffices h : ∃ bs, (MTy.own i t).Broken W F x bs ∧ (encodeM M (.ptr (.own i t)) (some x : Option _)).Stops e bs from
      let ⟨bs, h1, h2⟩ := h
      ⟨bs, ⟨x, rfl, h1⟩, h2⟩
    have he := encodeM_ptr M (.own i t) x
    dsimp only at he
    have hk := hM i t
    rw [MTy.Sound, MTy.Sound] at hs
    rw [MTy.Stuck] at h
    simp only [MTy.Broken]
    cases hf : W i t with
    | some f =>
      simp only [hf] at hs h hk ⊢
      obtain ⟨bs, h⟩ := h
      rw [if_neg (by rcases hs with hs | ⟨hs, _⟩ <;> simp [hs])] at he
      exact ⟨bs, h, Enc.Stops.of_eq he (hF _ _ _ _ h)⟩
    | none =>
      simp only [hf] at hs h hk ⊢
      obtain ⟨bs, h1, h2⟩ := encodeM_stops hM hF t x _ hs h
      rw [if_pos hk.1] at he
      exact ⟨bs, h1, Enc.Stops.of_eq he h2⟩
  | .ptr (.plain t), v, m, hs, h => by
    obtain ⟨x, rfl, h⟩ := h
    exact h.elim
  | .ptr (.ptr t), v, m, hs, h => by
    obtain ⟨x, rfl, h⟩ := h
    obtain ⟨bs, h1, h2⟩ := encodeM_stops hM hF (.ptr t) x _ hs h
    exact ⟨bs, ⟨x, rfl, h1⟩, Enc.Stops.of_eq (encodeM_ptr M (.ptr t) x) h2⟩
  | .ptr (.slice t), v, m, hs, h => by
    obtain ⟨x, rfl, h⟩ := h
    obtain ⟨bs, h1, h2⟩ := encodeM_stops hM hF (.slice t) x m hs h
    exact ⟨bs, ⟨x, rfl, h1⟩, Enc.Stops.of_eq (encodeM_ptr M (.slice t) x) h2⟩
  | .ptr (.array n t), v, m, hs, h => by
    obtain ⟨x, rfl, h⟩ := h
    obtain ⟨bs, h1, h2⟩ := encodeM_stops hM hF (.array n t) x m hs h
    exact ⟨bs, ⟨x, rfl, h1⟩, Enc.Stops.of_eq (encodeM_ptr M (.array n t) x) h2⟩
  | .ptr (.struct fs), v, m, hs, h => by
    obtain ⟨x, rfl, h⟩ := h
    obtain ⟨bs, h1, h2⟩ := encodeM_stops hM hF (.struct fs) x m hs h
    exact ⟨bs, ⟨x, rfl, h1⟩, Enc.Stops.of_eq (encodeM_ptr M (.struct fs) x) h2⟩
  | .ptr (.map k t), v, m, hs, h => by
    obtain ⟨x, rfl, h⟩ := h
    obtain ⟨bs, h1, h2⟩ := encodeM_stops hM hF (.map k t) x m hs h
    exact ⟨bs, ⟨x, rfl, h1⟩, Enc.Stops.of_eq (encodeM_ptr M (.map k t) x) h2⟩
  | .slice t, v, m, hs, h => by
    obtain ⟨b, h1, h2⟩ := encEach_stops (R := t.Layout W) h.2 (fun x hx => encodeM_layout hM t x .elem hs hx) (fun x hx => encodeM_stops hM hF t x .elem hs hx)
    exact ⟨_, ⟨_, b, varuintBytes_minLeb _ h.1, h1, rfl⟩, Enc.Stops.after (writeVaruint_writes _ h.1) h2⟩
  | .array _ t, v, m, hs, h => encEach_stops (R := t.Layout W) h (fun x hx => encodeM_layout hM t x .elem hs hx) (fun x hx => encodeM_stops hM hF t x .elem hs hx)
  | .map k t, v, m, hs, h => by
    obtain ⟨b, h1, h2⟩ := encEach_stops (R := fun x bs => ∃ b1 b2, k.Layout x.1 b1 ∧ t.Layout W x.2 b2 ∧ bs = b1 ++ b2)
      (B := fun x bs => ∃ b1 b2, k.Layout x.1 b1 ∧ t.Broken W F x.2 b2 ∧ bs = b1 ++ b2) (enc := fun ((x, y) : k.Val × t.bare.Val) => do
        match ← encode k x with
        | some e => pure (some e)
        | none => encodeM M t y) (e := e) h.2
      (fun x hx => by
        obtain ⟨b1, h1, h2⟩ := encode_layout k x.1 hs.1 hx.1
        obtain ⟨b2, h3, h4⟩ := encodeM_layout hM t x.2 _ hs.2.2.2 hx.2
        exact ⟨_, ⟨b1, b2, h1, h3, rfl⟩, h2.bind h4⟩)
      (fun x hx => by
        obtain ⟨b1, h1, h2⟩ := encode_layout k x.1 hs.1 hx.1
        obtain ⟨b2, h3, h4⟩ := encodeM_stops hM hF t x.2 _ hs.2.2.2 hx.2
        exact ⟨_, ⟨b1, b2, h1, h3, rfl⟩, Enc.Stops.after h2 h4⟩)
    exact ⟨_, ⟨_, b, varuintBytes_minLeb _ h.1, rfl, h1⟩, Enc.Stops.after (writeVaruint_writes _ h.1) h2⟩
  | .struct fs, v, m, hs, h => encodeMFields_stops hM hF fs v hs h
theorem encodeMFields_stops (hM : M.Keeps W) (hF : ∀ i t v bs, F i t v bs → ((M i t).marshal v).Stops e bs) : (fs : MFields) → (v : fs.bare.Val) →
    fs.Sound W (fun i t => (M i t).receiver) → fs.Stuck W F v → ∃ bs, fs.Broken W F v bs ∧ (encodeMFields M fs v).Stops e bs
  | .nil, _, _, h => h.elim
  | .cons tag t fs, v, hs, h => by
    obtain ⟨x, xs⟩ : t.bare.Val × fs.bare.Val := v
    obtain ⟨h1, h2⟩ := hs
    change ∃ bs, ((if tag = .optional then x ≠ t.bare.zero ∧ ∃ b, t.Broken W F x b ∧ bs = 1 :: b else t.Broken W F x bs) ∨
      ∃ b1 b2, fs.Broken W F xs b2 ∧ bs = b1 ++ b2 ∧
        (if tag = .optional then (x = t.bare.zero ∧ b1 = [0]) ∨ (x ≠ t.bare.zero ∧ ∃ b, t.Layout W x b ∧ b1 = 1 :: b) else t.Layout W x b1)) ∧
      (encodeField .exported tag.tag (t.bare.isZero x) (encodeM M t x) (encodeMFields M fs xs)).Stops e bs
    have zero : x = t.bare.zero → t.bare.isZero x = true := fun hz => by unfold Ty.isZero; exact decide_eq_true hz
    have nonzero : x ≠ t.bare.zero → t.bare.isZero x = false := fun hz => by unfold Ty.isZero; exact decide_eq_false hz
    rcases h with ⟨hz, h⟩ | ⟨hw, h⟩
    · obtain ⟨b, l, s⟩ := encodeM_stops hM hF t x .elem h1 h
      cases tag
      case optional =>
        refine ⟨1 :: b, .inl ⟨hz rfl, b, l, rfl⟩, ?_⟩
        simp only [encodeField, FieldTag.tag, nonzero (hz rfl), Bool.not_false]
        exact Enc.Stops.after (b1 := [1]) (writeBool_writes true) s.first
      case none => exact ⟨b, .inl l, s.first⟩
      case extension => exact ⟨b, .inl l, s.first⟩
    · obtain ⟨b2, l2, s2⟩ := encodeMFields_stops hM hF fs xs h2 h
      cases tag
      case optional =>
        by_cases hz : x = t.bare.zero
        · refine ⟨[0] ++ b2, .inr ⟨[0], b2, l2, rfl, .inl ⟨hz, rfl⟩⟩, ?_⟩
          simp only [encodeField, FieldTag.tag, zero hz, if_true, Bool.not_true]
          exact Enc.Stops.after (writeBool_writes false) s2
        · obtain ⟨b1, l1, e1⟩ := encodeM_layout hM t x .elem h1 (hw.resolve_left fun h => hz h.2)
          refine ⟨(1 :: b1) ++ b2, .inr ⟨1 :: b1, b2, l2, rfl, .inr ⟨hz, b1, l1, rfl⟩⟩, ?_⟩
          simp only [encodeField, FieldTag.tag, nonzero hz, Bool.not_false]
          exact Enc.Stops.after (b1 := [1]) (writeBool_writes true) (Enc.Stops.after e1 s2)
      case none =>
        obtain ⟨b1, l1, e1⟩ := encodeM_layout hM t x .elem h1 (hw.resolve_left fun h => nomatch h.1)
        exact ⟨b1 ++ b2, .inr ⟨b1, b2, l2, rfl, l1⟩, Enc.Stops.after e1 s2⟩
      case extension =>
        obtain ⟨b1, l1, e1⟩ := encodeM_layout hM t x .elem h1 (hw.resolve_left fun h => nomatch h.1)
        exact ⟨b1 ++ b2, .inr ⟨b1, b2, l2, rfl, l1⟩, Enc.Stops.after e1 s2⟩
end

/-! ### Decoding -/

theorem decEach_stops {α : Type} {Q : α → Prop} {R : α → Bytes → Prop} {B : Bytes → Prop} {C : α → Prop} {dec : α → Dec (α × Option Err)} {n : Nat} {bs : Bytes}
    (h : DataUpTo Q R B n bs) (hq : ∀ x o b, Q x → C o → R x b → ∃ y, (dec o).Reads b y) (hb : ∀ o b, C o → B b → (dec o).Stops e b) (os : List α) (hl : os.length = n)
    (ho : ∀ o ∈ os, C o) : (decEach dec os).Stops e bs := by
  induction h generalizing os with
  | here h =>
    cases os with
    | nil => cases hl
    | cons o os => exact Dec.Stops.first (hb o _ (ho o (by simp)) h) fun w => ⟨w :: os, rfl⟩
  | later h1 h2 _ ih =>
    cases os with
    | nil => cases hl
    | cons o os =>
      obtain ⟨y, hy⟩ := hq _ o _ h1 (ho o (by simp)) h2
      exact Dec.Stops.after hy (Dec.Stops.first (ih os (by simpa using hl) fun z hz => ho z (by simp [hz])) fun w => ⟨y :: w, rfl⟩)

theorem decodeSlice_stops {α : Type} {Q : α → Prop} {R : α → Bytes → Prop} {B : Bytes → Prop} {C : α → Prop} {zero : α} {size : Nat} {dec : α → Dec (α × Option Err)} {n : Nat}
    {l bs : Bytes} (h : DataUpTo Q R B n bs) (hn : n < 2 ^ 28) (hs : n * size ≤ maxAlloc) (hl : MinLeb l n) (hq : ∀ x o b, Q x → C o → R x b → ∃ y, (dec o).Reads b y)
    (hb : ∀ o b, C o → B b → (dec o).Stops e b) (hz : C zero) (old : Option (List α)) (ho : ∀ o ∈ old.getD [], C o) : (decodeSlice zero size dec old).Stops e (l ++ bs) := by
  rw [minLeb_unique _ _ _ hl (varuintBytes_minLeb _ hn)]
  have hg : goInt n.toUInt64 = n := goInt_toUInt64 _ (by omega)
  refine Dec.Stops.after (readVaruint_reads _ hn) ?_
  dsimp only
  by_cases he : (old.getD []).length = n
  · rw [hg, if_neg (by simp [he])]
    exact Dec.Stops.first (decEach_stops h hq hb _ he ho) fun w => ⟨_, rfl⟩
  · unfold makeSlice
    rw [hg, if_pos (by omega), if_neg (by omega), toUInt64_toNat _ hn, if_neg (by omega)]
    exact Dec.Stops.first (decEach_stops h hq hb _ (by simp) fun o ho => (List.mem_replicate.1 ho).2 ▸ hz) fun w => ⟨_, rfl⟩

theorem mapLoop_stops {α β : Type} [DecidableEq α] {Q : α × β → Prop} {R : α × β → Bytes → Prop} {B : Bytes → Prop} {dk : Dec (α × Option Err)} {dv : Dec (β × Option Err)} {n : Nat}
    {bs : Bytes} (h : DataUpTo Q R B n bs) (hq : ∀ x b, Q x → R x b → ∃ b1 b2 y z, b = b1 ++ b2 ∧ dk.Reads b1 y ∧ dv.Reads b2 z)
    (hb : ∀ b, B b → ∃ b1 b2 y, b = b1 ++ b2 ∧ dk.Reads b1 y ∧ dv.Stops e b2) (m : List (α × β)) : (mapLoop dk dv n m).Stops e bs := by
  induction h generalizing m with
  | here h =>
    obtain ⟨b1, b2, y, rfl, h1, h2⟩ := hb _ h
    exact Dec.Stops.after h1 (Dec.Stops.first h2 fun w => ⟨m, rfl⟩)
  | later h1 h2 _ ih =>
    obtain ⟨b1, b2, y, z, rfl, h3, h4⟩ := hq _ _ h1 h2
    rw [List.append_assoc]
    exact Dec.Stops.after h3 (Dec.Stops.after h4 (ih _))

theorem decodeMap_stops {α β : Type} [DecidableEq α] {Q : α × β → Prop} {R : α × β → Bytes → Prop} {B : Bytes → Prop} {dk : Dec (α × Option Err)} {dv : Dec (β × Option Err)}
    {n : Nat} {l bs : Bytes} (h : DataUpTo Q R B n bs) (hn : n < 2 ^ 28) (hl : MinLeb l n) (hq : ∀ x b, Q x → R x b → ∃ b1 b2 y z, b = b1 ++ b2 ∧ dk.Reads b1 y ∧ dv.Reads b2 z)
    (hb : ∀ b, B b → ∃ b1 b2 y, b = b1 ++ b2 ∧ dk.Reads b1 y ∧ dv.Stops e b2) (old : Option (List (α × β))) : (decodeMap dk dv old).Stops e (l ++ bs) := by
  rw [minLeb_unique _ _ _ hl (varuintBytes_minLeb _ hn)]
  refine Dec.Stops.after (readVaruint_reads _ hn) ?_
  dsimp only
  rw [goInt_toUInt64 _ (by omega), Int.toNat_natCast]
  exact Dec.Stops.first (mapLoop_stops h hq hb []) fun w => ⟨some w, rfl⟩

variable {D : Nat → MTy → Bytes → Prop}

mutual
theorem decodeM_stops (he : e ≠ .eof) (hM : M.Keeps W)
    (hD : ∀ i t bs, D i t bs → ∃ u, (M i t).unmarshal = some u ∧ ∀ old, t.bare.Clean old → (u old).Stops e bs) : (t : MTy) → (m : Mode) → (b : Bool) → (old : t.bare.Val) →
    (bs : Bytes) → m.Plain → t.Sound W (fun i t => (M i t).receiver) m b → t.bare.Clean old → t.Spoiled W D bs → (decodeM M t m old).Stops e bs
  | .plain _, _, _, _, _, _, _, _, h => h.elim
  | .own i t, m, _, old, bs, hm, hs, hc, h => by
    have hk := hM i t
    rw [MTy.Sound] at hs
    rw [MTy.Spoiled] at h
    simp only [decodeM]
    cases hf : W i t with
    | some f =>
      simp only [hf] at h
      obtain ⟨u, hu, h⟩ := hD _ _ _ h
      simp only [hu]
      exact h old hc
    | none =>
      simp only [hf] at hs h hk
      simp only [hk.2]
      exact decodeM_stops he hM hD t m false old bs hm hs hc h
  | .ptr t, m, _, old, bs, hm, hs, hc, h => by
    have hold := clean_getD t.bare old hc
    rcases hm with rfl | rfl | rfl
    · exact Dec.Stops.first (decodeM_stops he hM hD t .value true _ bs (.inr (.inr rfl)) hs hold h) fun w => ⟨(some w : Option t.bare.Val), rfl⟩
    · exact Dec.Stops.first (decodeM_stops he hM hD t .decode true _ bs (.inl rfl) hs hold h) fun w => ⟨(some w : Option t.bare.Val), rfl⟩
    · exact Dec.Stops.first (decodeM_stops he hM hD t .value true _ bs (.inr (.inr rfl)) hs hold h) fun w => ⟨(some w : Option t.bare.Val), rfl⟩
  | .slice t, m, _, old, bs, hm, hs, hc, h => by
    obtain ⟨n, l, b, h1, h2, h3, h4, rfl⟩ := h
    exact decodeSlice_stops h4 h1 h2 h3
      (fun x o b hx ho hb => let ⟨w, _, h⟩ := decodeM_layout hM t .elem false x o b (.inr (.inl rfl)) hs hx ho hb; ⟨w, h⟩)
      (fun o b ho hb => decodeM_stops he hM hD t .elem false o b (.inr (.inl rfl)) hs ho hb) (clean_zero t.bare) old hc
  | .array n t, m, _, old, bs, hm, hs, hc, h =>
    decEach_stops h (fun x o b hx ho hb => let ⟨w, _, h⟩ := decodeM_layout hM t .elem false x o b (.inr (.inl rfl)) hs hx ho hb; ⟨w, h⟩)
      (fun o b ho hb => decodeM_stops he hM hD t .elem false o b (.inr (.inl rfl)) hs ho hb) old hc.1 hc.2
  | .map k t, m, _, old, bs, hm, hs, hc, h => by
    obtain ⟨n, l, b, h1, h2, rfl, h3⟩ := h
    refine decodeMap_stops h3 h1 h2 (fun x b hx hb => ?_) (fun b hb => ?_) old
    · obtain ⟨b1, b2, l1, l2, rfl⟩ := hb
      obtain ⟨w1, _, d1⟩ := decode_layout k .decode x.1 k.zero b1 (.inl rfl) hs.2.2.1 hx.1 (clean_zero k) l1
      obtain ⟨w2, _, d2⟩ := decodeM_layout hM t .decode false x.2 t.bare.zero b2 (.inl rfl) hs.2.2.2 hx.2 (clean_zero t.bare) l2
      exact ⟨b1, b2, w1, w2, rfl, d1, d2⟩
    · obtain ⟨x, b1, b2, hx, l1, l2, rfl⟩ := hb
      obtain ⟨w1, _, d1⟩ := decode_layout k .decode x k.zero b1 (.inl rfl) hs.2.2.1 hx (clean_zero k) l1
      exact ⟨b1, b2, w1, rfl, d1, decodeM_stops he hM hD t .decode false t.bare.zero b2 (.inl rfl) hs.2.2.2 (clean_zero t.bare) l2⟩
  | .struct fs, m, _, old, bs, hm, hs, hc, h => decodeMFields_stops he hM hD fs old bs hs hc h
theorem decodeMFields_stops (he : e ≠ .eof) (hM : M.Keeps W)
    (hD : ∀ i t bs, D i t bs → ∃ u, (M i t).unmarshal = some u ∧ ∀ old, t.bare.Clean old → (u old).Stops e bs) : (fs : MFields) → (old : fs.bare.Val) → (bs : Bytes) →
    fs.Sound W (fun i t => (M i t).receiver) → fs.bare.Clean old → fs.Spoiled W D bs → (decodeMFields M fs none old).Stops e bs
  | .nil, _, _, _, _, h => h.elim
  | .cons tag t fs, old, bs, hs, hc, h => by
    obtain ⟨o, os⟩ : t.bare.Val × fs.bare.Val := old
    have hco := clean_alloc t.bare o hc.1
    change (decodeField .exported tag.tag o (t.bare.alloc o) t.bare.zero (fun mode => decodeM M t mode (t.bare.alloc o)) os none (fun err => decodeMFields M fs err os)).Stops e bs
    rcases h with h | ⟨x, b1, b2, h2, rfl, h⟩
    · cases tag
      case none => exact Dec.Stops.first (decodeM_stops he hM hD t .elem false _ bs (.inr (.inl rfl)) hs.1 hco h) fun w => ⟨(w, os), rfl⟩
      case extension =>
        refine Dec.Stops.first (decodeM_stops he hM hD t .elem false _ bs (.inr (.inl rfl)) hs.1 hco h) fun w => ⟨(w, os), ?_⟩
        exact if_neg he
      case optional =>
        obtain ⟨b, h, rfl⟩ := h
        exact Dec.Stops.after (b1 := [1]) (readBool_reads true)
          (Dec.Stops.first (decodeM_stops he hM hD t .elem false _ b (.inr (.inl rfl)) hs.1 hco h) fun w => ⟨(w, os), rfl⟩)
    · have rest := decodeMFields_stops he hM hD fs os b2 hs.2 hc.2 h2
      rcases h with ⟨hx, b, hb, rfl⟩ | ⟨rfl, rfl⟩
      · obtain ⟨w, _, d⟩ := decodeM_layout hM t .elem false x _ b (.inr (.inl rfl)) hs.1 hx hco hb
        cases tag
        case none => exact Dec.Stops.after d (Dec.Stops.first rest fun ws => ⟨(w, ws), rfl⟩)
        case extension => exact Dec.Stops.after d (Dec.Stops.first rest fun ws => ⟨(w, ws), rfl⟩)
        case optional => exact Dec.Stops.after (b1 := [1]) (readBool_reads true) (Dec.Stops.after d (Dec.Stops.first rest fun ws => ⟨(w, ws), rfl⟩))
      · exact Dec.Stops.after (b1 := [0]) (readBool_reads false) (Dec.Stops.first rest fun ws => ⟨(t.bare.zero, ws), rfl⟩)
end

end Verif
