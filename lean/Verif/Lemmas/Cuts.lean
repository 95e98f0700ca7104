import Verif.Spec.AbiEnds
import Verif.Lemmas.AbiTakes
/-! Where the decoders of the builtin types report io.EOF. -/
namespace Verif
namespace Dec
variable {α β : Type}

/-- io.EOF is returned, with a, exactly on the inputs that S relates to a, and then the input is used up. -/
def Cuts (p : Dec (α × Option Err)) (S : α → Bytes → Prop) : Prop :=
  ∀ (fin : Err) (s : Bytes) (v : α) (r : Bytes), p.runE fin s = .ok (v, some .eof) r ↔ fin = .eof ∧ S v s ∧ r = []

theorem Cuts.iff {p : Dec (α × Option Err)} {S T : α → Bytes → Prop} (h : p.Cuts S) (hST : ∀ a w, S a w ↔ T a w) : p.Cuts T := by
  intro fin s v r
  rw [h fin s v r, hST]

theorem cuts_pure (a : α) (e : Option Err) (he : e ≠ some .eof) : (pure (a, e) : Dec (α × Option Err)).Cuts fun _ _ => False := by
  intro fin s v r
  constructor
  · intro h; cases h; exact absurd rfl he
  · rintro ⟨_, h, _⟩; exact h.elim

theorem cuts_panic (w : String) : (Dec.panic w : Dec (α × Option Err)).Cuts fun _ _ => False := by
  intro fin s v r
  constructor
  · intro h; cases h
  · rintro ⟨_, h, _⟩; exact h.elim

/-- Read, stop on an error, go on. -/
theorem Cuts.bind {p : Dec (β × Option Err)} {R S : β → Bytes → Prop} {f : β × Option Err → Dec (α × Option Err)} {g : β → α} {T : β → α → Bytes → Prop} (hp : p.Exactly R) (hc : p.Cuts S)
    (hf : ∀ b, (f (b, none)).Cuts (T b)) (he : ∀ b e, f (b, some e) = pure (g b, some e)) :
    (p >>= f).Cuts fun v s => (∃ b, S b s ∧ v = g b) ∨ ∃ b w s', R b w ∧ T b v s' ∧ s = w ++ s' := by
  intro fin s v r
  constructor
  · intro h
    obtain ⟨⟨b, o⟩, m, h1, h2⟩ := Dec.runE_bind_ok h
    cases o with
    | none =>
      obtain ⟨w, rfl, hw⟩ := (hp _ _ _ _).1 h1
      obtain ⟨e1, e2, e3⟩ := (hf b _ _ _ _).1 h2
      exact ⟨e1, .inr ⟨b, w, m, hw, e2, rfl⟩, e3⟩
    | some e =>
      rw [he] at h2
      cases h2
      obtain ⟨e1, e2, e3⟩ := (hc _ _ _ _).1 h1
      exact ⟨e1, .inl ⟨b, e2, rfl⟩, e3⟩
  · rintro ⟨rfl, (⟨b, h1, rfl⟩ | ⟨b, w, s', h1, h2, rfl⟩), rfl⟩
    · rw [Dec.runE_bind, (hc .eof s b []).2 ⟨rfl, h1, rfl⟩]
      simp only [Out.bind, he]
      rfl
    · rw [Dec.runE_bind, (hp .eof (w ++ s') b s').2 ⟨w, rfl, h1⟩]
      exact (hf b .eof s' v []).2 ⟨rfl, h2, rfl⟩

theorem Cuts.map {p : Dec (β × Option Err)} {S : β → Bytes → Prop} {f : β × Option Err → Dec (α × Option Err)} {g : β → α} (hc : p.Cuts S)
    (hf : ∀ b, ∃ a, f (b, none) = pure (a, none)) (he : ∀ b e, f (b, some e) = pure (g b, some e)) : (p >>= f).Cuts fun v s => ∃ b, S b s ∧ v = g b := by
  intro fin s v r
  constructor
  · intro h
    obtain ⟨⟨b, o⟩, m, h1, h2⟩ := Dec.runE_bind_ok h
    cases o with
    | none =>
      obtain ⟨x, hx⟩ := hf b
      rw [hx] at h2
      cases h2
    | some e =>
      rw [he] at h2
      cases h2
      obtain ⟨e1, e2, e3⟩ := (hc _ _ _ _).1 h1
      exact ⟨e1, ⟨b, e2, rfl⟩, e3⟩
  · rintro ⟨rfl, ⟨b, h1, rfl⟩, rfl⟩
    rw [Dec.runE_bind, (hc .eof s b []).2 ⟨rfl, h1, rfl⟩]
    simp only [Out.bind, he]
    rfl
end Dec
open Dec

theorem shortErr_eof {fin : Err} {k : Nat} : shortErr fin k = .eof ↔ fin = .eof ∧ k = 0 := by
  unfold shortErr
  split
  · rename_i h
    constructor
    · intro h'; cases h'
    · rintro ⟨_, rfl⟩; exact absurd rfl h.1
  · rename_i h
    constructor
    · rintro rfl
      exact ⟨rfl, by_contra fun hk => h ⟨hk, rfl⟩⟩
    · exact fun h => h.1

theorem readBytes_cut (n : Int) (fin : Err) (s b r : Bytes) (k : Nat) : (readBytes n).runE fin s = .ok (k, b, some .eof) r ↔
    fin = .eof ∧ s = [] ∧ r = [] ∧ 0 < n ∧ n ≤ maxAlloc ∧ b = List.replicate n.toNat 0 ∧ k = 0 := by
  unfold readBytes
  split
  · constructor
    · intro h; cases h
    · rintro ⟨_, _, _, _, _⟩; omega
  · split
    · constructor
      · intro h; cases h
      · rintro ⟨_, _, _, _, _⟩; omega
    · split
      · constructor
        · intro h; cases h
        · rintro ⟨_, _, _, _, _⟩; omega
      · show (if n.toNat ≤ s.length then _ else _) = _ ↔ _
        split
        · constructor
          · intro h; cases h
          · rintro ⟨_, rfl, _⟩
            rename_i h
            simp at h
            omega
        · simp only [Dec.runE, Out.ok.injEq, Prod.mk.injEq, Option.some.injEq, shortErr_eof]
          constructor
          · rintro ⟨⟨rfl, rfl, h1, h2⟩, rfl⟩
            have : s = [] := List.length_eq_zero_iff.1 h2
            subst this
            exact ⟨h1, rfl, rfl, by omega, by omega, by simp, rfl⟩
          · rintro ⟨rfl, rfl, rfl, _, _, rfl, rfl⟩
            simp

/-- Read bytes, stop on an error, go on. -/
theorem Dec.cuts_bytes {α : Type} {n : Int} {f : Nat × Bytes × Option Err → Dec (α × Option Err)} {g : Bytes → α} {T : Bytes → α → Bytes → Prop} (hf : ∀ b : Bytes, (f (b.length, b, none)).Cuts (T b))
    (he : ∀ k b e, f (k, b, some e) = pure (g b, some e)) :
    (readBytes n >>= f).Cuts fun v s => (s = [] ∧ 0 < n ∧ n ≤ maxAlloc ∧ v = g (List.replicate n.toNat 0)) ∨ ∃ b s' : Bytes, (b.length : Int) = n ∧ b.length ≤ maxAlloc ∧ T b v s' ∧ s = b ++ s' := by
  intro fin s v r
  constructor
  · intro h
    obtain ⟨⟨k, b, o⟩, m, h1, h2⟩ := Dec.runE_bind_ok h
    cases o with
    | none =>
      obtain ⟨rfl, q2, rfl, q4⟩ := (readBytes_ok _ _ _ _ _ _).1 h1
      obtain ⟨e1, e2, e3⟩ := (hf b _ _ _ _).1 h2
      exact ⟨e1, .inr ⟨b, m, q2, q4, e2, rfl⟩, e3⟩
    | some e =>
      rw [he] at h2
      cases h2
      obtain ⟨e1, e2, e3, e4, e5, e6, e7⟩ := (readBytes_cut _ _ _ _ _ _).1 h1
      exact ⟨e1, .inl ⟨e2, e4, e5, by rw [e6]⟩, e3⟩
  · rintro ⟨rfl, (⟨rfl, h1, h2, rfl⟩ | ⟨b, s', h1, h2, h3, rfl⟩), rfl⟩
    · rw [Dec.runE_bind, (readBytes_cut n .eof [] (List.replicate n.toNat 0) [] 0).2 ⟨rfl, rfl, rfl, h1, h2, rfl, rfl⟩]
      simp only [Out.bind, he]
      rfl
    · rw [Dec.runE_bind, (readBytes_ok n .eof (b ++ s') b s' b.length).2 ⟨rfl, h1, rfl, h2⟩]
      exact (hf b .eof s' v []).2 ⟨rfl, h3, rfl⟩

theorem Dec.cuts_bytes_map {α : Type} {n : Int} {f : Nat × Bytes × Option Err → Dec (α × Option Err)} (g : Bytes → α) (h0 : 0 < n) (hn : n ≤ maxAlloc)
    (hf : ∀ b : Bytes, ∃ a, f (b.length, b, none) = pure (a, none)) (he : ∀ k b e, f (k, b, some e) = pure (g b, some e)) :
    (readBytes n >>= f).Cuts fun v s => v = g (List.replicate n.toNat 0) ∧ s = [] := by
  refine (Dec.cuts_bytes (T := fun _ _ _ => False) (fun b => ?_) he).iff fun v s => ?_
  · obtain ⟨a, ha⟩ := hf b
    rw [ha]
    exact cuts_pure _ _ (by simp)
  · constructor
    · rintro (⟨rfl, _, _, rfl⟩ | ⟨_, _, _, _, h, _⟩)
      · exact ⟨rfl, rfl⟩
      · exact h.elim
    · rintro ⟨rfl, rfl⟩
      exact .inl ⟨rfl, h0, hn, rfl⟩

theorem readByte_cut : readByte.Cuts fun v s => v = 0 ∧ s = [] := cuts_bytes_map (n := 1) (fun _ => 0) (by decide) (by decide) (fun _ => ⟨_, rfl⟩) fun _ _ _ => rfl
theorem readUint64_cut : readUint64.Cuts fun v s => v = 0 ∧ s = [] := cuts_bytes_map (n := 8) (fun _ => 0) (by decide) (by decide) (fun _ => ⟨_, rfl⟩) fun _ _ _ => rfl
theorem readUint32_cut : readUint32.Cuts fun v s => v = 0 ∧ s = [] := cuts_bytes_map (n := 4) (fun _ => 0) (by decide) (by decide) (fun _ => ⟨_, rfl⟩) fun _ _ _ => rfl
theorem readUint16_cut : readUint16.Cuts fun v s => v = 0 ∧ s = [] := cuts_bytes_map (n := 2) (fun _ => 0) (by decide) (by decide) (fun _ => ⟨_, rfl⟩) fun _ _ _ => rfl

/-- Reads that pass on what another read yields. -/
theorem Dec.Cuts.again {α β : Type} {p : Dec (β × Option Err)} {z : β} {f : β × Option Err → Dec (α × Option Err)} {z' : α} (hc : p.Cuts fun v s => v = z ∧ s = [])
    (hf : ∀ b, ∃ a, f (b, none) = pure (a, none)) (he : ∀ b e, f (b, some e) = pure (z', some e)) : (p >>= f).Cuts fun v s => v = z' ∧ s = [] :=
  (hc.map hf he).iff fun v s => ⟨fun ⟨_, h1, h2⟩ => ⟨h2, h1.2⟩, fun h => ⟨z, ⟨rfl, h.2⟩, h.1⟩⟩

theorem readUint8_cut : readUint8.Cuts fun v s => v = 0 ∧ s = [] := readByte_cut.again (fun _ => ⟨_, rfl⟩) fun _ _ => rfl
theorem readInt8_cut : readInt8.Cuts fun v s => v = 0 ∧ s = [] := readByte_cut.again (fun _ => ⟨_, rfl⟩) fun _ _ => rfl
theorem readInt16_cut : readInt16.Cuts fun v s => v = 0 ∧ s = [] := readUint16_cut.again (fun _ => ⟨_, rfl⟩) fun _ _ => rfl
theorem readInt32_cut : readInt32.Cuts fun v s => v = 0 ∧ s = [] := readUint32_cut.again (fun _ => ⟨_, rfl⟩) fun _ _ => rfl
theorem readInt64_cut : readInt64.Cuts fun v s => v = 0 ∧ s = [] := readUint64_cut.again (fun _ => ⟨_, rfl⟩) fun _ _ => rfl
theorem readFloat32_cut : readFloat32.Cuts fun v s => v = 0 ∧ s = [] := readUint32_cut.again (fun _ => ⟨_, rfl⟩) fun _ _ => rfl
theorem readFloat64_cut : readFloat64.Cuts fun v s => v = 0 ∧ s = [] := readUint64_cut.again (fun _ => ⟨_, rfl⟩) fun _ _ => rfl
theorem readBool_cut : readBool.Cuts fun v s => v = false ∧ s = [] := by
  refine (Cuts.map (g := fun b : UInt8 => b != 0) readByte_cut (fun _ => ⟨_, rfl⟩) fun _ _ => rfl).iff fun v s => ⟨?_, ?_⟩
  · rintro ⟨_, ⟨rfl, rfl⟩, rfl⟩; exact ⟨rfl, rfl⟩
  · rintro ⟨rfl, rfl⟩; exact ⟨0, ⟨rfl, rfl⟩, rfl⟩

theorem uvarintLoop_cut (fin : Err) : ∀ (left : Nat) (x sh : UInt64) (s r : Bytes), left * 7 + sh.toNat < 100 →
    ((∃ v, (readUvarintLoop readByte left x sh).runE fin s = .ok (v, some .eof) r) ↔
      fin = .eof ∧ r = [] ∧ s.length < left ∧ (∀ b ∈ s, 128 ≤ b.toNat) ∧ (goLegacyUvarint = true ∨ s = [] ∧ sh = 0)) := by
  intro left
  induction left with
  | zero =>
    intro x sh s r _
    constructor
    · rintro ⟨v, h⟩; cases h
    · rintro ⟨_, _, h, _⟩; omega
  | succ left ih =>
    intro x sh s r hsh
    have hs7 : (sh + 7).toNat = sh.toNat + 7 := by
      rw [UInt64.toNat_add]
      show (sh.toNat + 7) % 2 ^ 64 = _
      omega
    cases s with
    | nil =>
      constructor
      · rintro ⟨v, h⟩
        obtain ⟨⟨b, o⟩, m, h1, h2⟩ := Dec.runE_bind_ok (show (readByte >>= _).runE fin [] = _ from h)
        have e : readByte.runE fin [] = .ok (0, some fin) [] := rfl
        rw [e] at h1
        cases h1
        simp only [Pure.pure, Dec.runE, Out.ok.injEq, Prod.mk.injEq, Option.some.injEq] at h2
        obtain ⟨⟨_, h2⟩, rfl⟩ := h2
        split at h2
        · cases h2
        · rename_i hq
          subst h2
          refine ⟨rfl, rfl, by simp, by simp, ?_⟩
          by_cases hl : goLegacyUvarint = true
          · exact .inl hl
          · exact .inr ⟨rfl, by_contra fun hne => hq ⟨rfl, hne, by simpa using hl⟩⟩
      · rintro ⟨rfl, rfl, _, _, h⟩
        refine ⟨x, ?_⟩
        show (readByte >>= _).runE .eof [] = _
        rw [Dec.runE_bind, show readByte.runE .eof [] = .ok (0, some .eof) [] from rfl]
        simp only [Out.bind, Pure.pure, Dec.runE]
        rw [if_neg (by
          rintro ⟨_, h1, h2⟩
          rcases h with h | ⟨_, h⟩
          · rw [h] at h2; cases h2
          · exact h1 h)]
    | cons c s =>
      have e : readByte.runE fin (c :: s) = .ok (c, none) s := by
        have h := (readBytes_ok 1 fin (c :: s) [c] s 1).2 ⟨rfl, rfl, rfl, (by decide : 1 ≤ maxAlloc)⟩
        show (readBytes 1 >>= _).runE fin (c :: s) = _
        rw [Dec.runE_bind, h]
        rfl
      have e' : (readUvarintLoop readByte (left + 1) x sh).runE fin (c :: s) =
          (if c < 0x80 then
            if left = 0 ∧ c > 1 then pure (x, some errVarintOverflow)
            else pure (x ||| (c.toUInt64 <<< sh), none)
          else readUvarintLoop readByte left (x ||| ((c &&& 0x7f).toUInt64 <<< sh)) (sh + 7) : Dec (UInt64 × Option Err)).runE fin s := by
        show (readByte >>= _).runE fin (c :: s) = _
        rw [Dec.runE_bind, e]
        rfl
      rw [e']
      split
      · rename_i hc
        have hc : c.toNat < 128 := by simpa [UInt8.lt_iff_toNat_lt] using hc
        constructor
        · rintro ⟨v, h⟩
          split at h <;> cases h
        · rintro ⟨_, _, _, h, _⟩
          have := h c (by simp)
          omega
      · rename_i hc
        have hc : 128 ≤ c.toNat := by simpa [UInt8.lt_iff_toNat_lt] using hc
        rw [ih _ _ _ _ (by omega)]
        constructor
        · rintro ⟨h1, h2, h3, h4, h5⟩
          refine ⟨h1, h2, by simp; omega, by intro b hb; rcases List.mem_cons.1 hb with rfl | hb; exact hc; exact h4 b hb, .inl ?_⟩
          rcases h5 with h5 | ⟨_, h5⟩
          · exact h5
          · rw [h5] at hs7; simp at hs7
        · rintro ⟨h1, h2, h3, h4, h5⟩
          refine ⟨h1, h2, by simpa using h3, fun b hb => h4 b (by simp [hb]), ?_⟩
          rcases h5 with h5 | ⟨h5, _⟩
          · exact .inl h5
          · cases h5

theorem uvarint_cut (fin : Err) (s r : Bytes) : (∃ v, (readUvarint readByte).runE fin s = .ok (v, some .eof) r) ↔ fin = .eof ∧ CutLeb s ∧ r = [] := by
  unfold readUvarint
  rw [uvarintLoop_cut fin 10 0 0 s r (by decide)]
  unfold CutLeb
  constructor
  · rintro ⟨h1, h2, h3, h4, (h5 | ⟨h5, _⟩)⟩
    · exact ⟨h1, .inr ⟨h5, h3, h4⟩, h2⟩
    · exact ⟨h1, .inl h5, h2⟩
  · rintro ⟨h1, (rfl | ⟨h5, h3, h4⟩), h2⟩
    · exact ⟨h1, h2, by simp, by simp, .inr ⟨rfl, rfl⟩⟩
    · exact ⟨h1, h2, h3, h4, .inl h5⟩

/-- Reads whose result on an error does not depend on the bytes seen. -/
theorem Dec.cuts_const {α β : Type} {p : Dec (β × Option Err)} {S : Bytes → Prop} {f : β × Option Err → Dec (α × Option Err)} {z : α}
    (hp : ∀ fin s r, (∃ v, p.runE fin s = .ok (v, some .eof) r) ↔ fin = .eof ∧ S s ∧ r = [])
    (hf : ∀ b, ∃ a, f (b, none) = pure (a, none)) (he : ∀ b e, f (b, some e) = pure (z, some e)) : (p >>= f).Cuts fun v s => v = z ∧ S s := by
  intro fin s v r
  constructor
  · intro h
    obtain ⟨⟨b, o⟩, m, h1, h2⟩ := Dec.runE_bind_ok h
    cases o with
    | none =>
      obtain ⟨x, hx⟩ := hf b
      rw [hx] at h2
      cases h2
    | some e =>
      rw [he] at h2
      cases h2
      obtain ⟨e1, e2, e3⟩ := (hp _ _ _).1 ⟨b, h1⟩
      exact ⟨e1, ⟨rfl, e2⟩, e3⟩
  · rintro ⟨rfl, ⟨rfl, h1⟩, rfl⟩
    obtain ⟨b, hb⟩ := (hp .eof s []).2 ⟨rfl, h1, rfl⟩
    rw [Dec.runE_bind, hb]
    simp only [Out.bind, he]
    rfl

theorem readVaruint_cut : readVaruint.Cuts fun v s => v = 0 ∧ CutLeb s := cuts_const uvarint_cut (fun _ => ⟨_, rfl⟩) fun _ _ => rfl

theorem readVarintD_cut : readVarintD.Cuts fun v s => v = 0 ∧ CutLeb s := by
  refine cuts_const (fun fin s r => ?_) (fun _ => ⟨_, rfl⟩) fun _ _ => rfl
  rw [← uvarint_cut]
  constructor
  · rintro ⟨v, h⟩
    obtain ⟨⟨b, o⟩, m, h1, h2⟩ := Dec.runE_bind_ok (show (readUvarint readByte >>= _).runE fin s = _ from h)
    cases h2
    exact ⟨b, h1⟩
  · rintro ⟨v, h⟩
    refine ⟨unzigzag v, ?_⟩
    show (readUvarint readByte >>= _).runE fin s = _
    rw [Dec.runE_bind, h]
    rfl

theorem goInt_len (l : UInt64) : (0 < goInt l ∧ goInt l ≤ maxAlloc) ↔ 0 < l.toNat ∧ l.toNat ≤ maxAlloc := by
  have hm : maxAlloc < 2 ^ 63 := by decide
  generalize maxAlloc = m at *
  constructor
  · rintro ⟨h1, h2⟩
    have h := (goInt_eq l (goInt l).toNat).1 (by omega)
    omega
  · rintro ⟨h1, h2⟩
    have h := (goInt_eq l l.toNat).2 ⟨rfl, by omega⟩
    omega

/-- A length and as many bytes -/
theorem Dec.cuts_sized {α : Type} {f : UInt64 × Option Err → Dec (α × Option Err)} {g : UInt64 → Nat × Bytes × Option Err → Dec (α × Option Err)} {z : α} {T : α → Bytes → Prop}
    (hf : ∀ l, f (l, none) = readBytes (goInt l) >>= g l) (he : ∀ b e, f (b, some e) = pure (z, some e))
    (hg : ∀ l b, (g l (b.length, b, none)).Cuts T) (hge : ∀ l k b e, g l (k, b, some e) = pure (z, some e)) :
    (readVaruint >>= f).Cuts fun v s => v = z ∧ CutSized s ∨ ∃ b x s', Sized b x ∧ T v s' ∧ s = b ++ s' := by
  refine (Cuts.bind (g := fun _ => z) (T := fun l v s => (s = [] ∧ 0 < goInt l ∧ goInt l ≤ maxAlloc ∧ v = z) ∨
    ∃ b s' : Bytes, (b.length : Int) = goInt l ∧ b.length ≤ maxAlloc ∧ T v s' ∧ s = b ++ s') readVaruint_exactly readVaruint_cut (fun l => ?_) he).iff fun v s => ?_
  · rw [hf]
    exact Dec.cuts_bytes (g := fun _ => z) (hg l) (hge l)
  · constructor
    · rintro (⟨l, ⟨rfl, h1⟩, rfl⟩ | ⟨l, w, s', h1, (⟨rfl, h2, h3, rfl⟩ | ⟨b, s'', h2, h3, h4, rfl⟩), rfl⟩)
      · exact .inl ⟨rfl, .inl h1⟩
      · obtain ⟨h2, h3⟩ := (goInt_len l).1 ⟨h2, h3⟩
        exact .inl ⟨rfl, .inr ⟨l.toNat, by rwa [List.append_nil], h2, h3⟩⟩
      · have := ((goInt_eq l b.length).1 h2.symm).1
        exact .inr ⟨w ++ b, b, s'', ⟨w, this ▸ h1, h3, rfl⟩, h4, by rw [List.append_assoc]⟩
    · rintro (⟨rfl, (h | ⟨n, h1, h2, h3⟩)⟩ | ⟨_, x, s', ⟨lb, h1, h2, rfl⟩, h3, rfl⟩)
      · exact .inl ⟨0, ⟨rfl, h⟩, rfl⟩
      · have hn := h1.2.2.2
        have e : n.toUInt64.toNat = n := by simp; omega
        obtain ⟨q1, q2⟩ := (goInt_len n.toUInt64).2 (by rw [e]; exact ⟨h2, h3⟩)
        exact .inr ⟨n.toUInt64, s, [], e.symm ▸ h1, .inl ⟨rfl, q1, q2, rfl⟩, (List.append_nil _).symm⟩
      · have hn := h1.2.2.2
        have hm : maxAlloc < 2 ^ 63 := by decide
        have e : x.length.toUInt64.toNat = x.length := by simp; omega
        refine .inr ⟨x.length.toUInt64, lb, x ++ s', e.symm ▸ h1, .inr ⟨x, s', ?_, h2, h3, rfl⟩, by rw [List.append_assoc]⟩
        exact ((goInt_eq _ _).2 ⟨e, by omega⟩).symm

theorem Dec.cuts_sized_last {α : Type} {f : UInt64 × Option Err → Dec (α × Option Err)} {g : UInt64 → Nat × Bytes × Option Err → Dec (α × Option Err)} {z : α}
    (hf : ∀ l, f (l, none) = readBytes (goInt l) >>= g l) (he : ∀ b e, f (b, some e) = pure (z, some e))
    (hg : ∀ l b, (g l (b.length, b, none)).Cuts fun _ _ => False) (hge : ∀ l k b e, g l (k, b, some e) = pure (z, some e)) :
    (readVaruint >>= f).Cuts fun v s => v = z ∧ CutSized s :=
  (cuts_sized hf he hg hge).iff fun v s => ⟨fun h => h.elim id fun ⟨_, _, _, _, h, _⟩ => h.elim, .inl⟩

theorem readString_cut : readString.Cuts fun v s => v = [] ∧ CutSized s :=
  cuts_sized_last (fun _ => rfl) (fun _ _ => rfl) (fun _ _ => cuts_pure _ _ (by simp)) fun _ _ _ _ => rfl

theorem unmarshalBytes_cut (old : Option Bytes) : (unmarshalBytes old).Cuts fun v s => v = old ∧ CutSized s := by
  have h : (BytesT.unmarshal (old.getD [])).Cuts fun v s => v = old.getD [] ∧ CutSized s :=
    cuts_sized_last (fun _ => rfl) (fun _ _ => rfl) (fun _ _ => cuts_pure _ _ (by simp)) fun _ _ _ _ => rfl
  refine (h.map (g := fun _ => old) (fun _ => ⟨_, rfl⟩) fun _ _ => rfl).iff fun v s => ⟨?_, ?_⟩
  · rintro ⟨_, ⟨_, hs⟩, rfl⟩; exact ⟨rfl, hs⟩
  · rintro ⟨rfl, hs⟩; exact ⟨_, ⟨rfl, hs⟩, rfl⟩

theorem basic_cut (b : Basic) : b.read.Cuts b.Cut := by
  cases b
  case string => exact readString_cut
  case int => exact readVarintD_cut
  case uint => exact readVaruint_cut
  case bool => exact readBool_cut
  case u8 => exact readUint8_cut
  case u16 => exact readUint16_cut
  case u32 => exact readUint32_cut
  case u64 => exact readUint64_cut
  case i8 => exact readInt8_cut
  case i16 => exact readInt16_cut
  case i32 => exact readInt32_cut
  case i64 => exact readInt64_cut
  case f32 => exact readFloat32_cut
  case f64 => exact readFloat64_cut

theorem leForm_some {n : Nat} (hn : n = 8) (s : Bytes) : s.length = n ↔ ∃ v : UInt64, LeForm 8 v.toNat s := by
  subst hn
  constructor
  · intro h
    refine ⟨(leNat s).toUInt64, ?_⟩
    rw [leForm_eq]
    have := leNat_lt s
    rw [h] at this
    refine ⟨h, ?_⟩
    simp
    omega
  · rintro ⟨_, h⟩; exact h.1

theorem u128_cut (old : U128) : (U128.unmarshal old).Cuts fun v s => v = old ∧ (s = [] ∨ s.length = 8) := by
  refine (Cuts.bind (g := fun _ => old) (T := fun _ v s => v = old ∧ s = []) readUint64_exactly readUint64_cut (fun lo => by
    dsimp only
    exact readUint64_cut.again (fun _ => ⟨_, rfl⟩) fun _ _ => rfl) fun _ _ => rfl).iff fun v s => ⟨?_, ?_⟩
  · rintro (⟨_, ⟨_, rfl⟩, rfl⟩ | ⟨_, w, _, h, ⟨rfl, rfl⟩, rfl⟩)
    · exact ⟨rfl, .inl rfl⟩
    · exact ⟨rfl, .inr (by rw [List.append_nil]; exact h.1)⟩
  · rintro ⟨rfl, (rfl | h)⟩
    · exact .inl ⟨0, ⟨rfl, rfl⟩, rfl⟩
    · obtain ⟨x, hx⟩ := (leForm_some rfl s).1 h
      exact .inr ⟨x, s, [], hx, ⟨rfl, rfl⟩, (List.append_nil _).symm⟩

theorem asset_cut : (Asset.unmarshal ⟨0, 0⟩).Cuts AssetCut := by
  have hs : (Symbol.unmarshal 0).Cuts fun v s => v = 0 ∧ s = [] := readUint64_cut.again (fun _ => ⟨_, rfl⟩) fun _ _ => rfl
  refine (Cuts.bind (g := fun _ => (⟨0, 0⟩ : Asset)) (T := fun x v s => ∃ sy, (sy = 0 ∧ s = []) ∧ v = ⟨x, sy⟩) readInt64_exactly readInt64_cut
    (fun x => by
      dsimp only
      exact hs.map (fun _ => ⟨_, rfl⟩) fun _ _ => rfl) fun _ _ => rfl).iff fun v s => ⟨?_, ?_⟩
  · rintro (⟨_, ⟨_, rfl⟩, rfl⟩ | ⟨x, w, _, h, ⟨_, ⟨rfl, rfl⟩, rfl⟩, rfl⟩)
    · exact .inl ⟨rfl, rfl⟩
    · exact .inr ⟨by rw [List.append_nil]; exact h, rfl⟩
  · rintro (⟨rfl, rfl⟩ | ⟨h1, h2⟩)
    · exact .inl ⟨0, ⟨rfl, rfl⟩, rfl⟩
    · exact .inr ⟨v.value, s, [], h1, ⟨0, ⟨rfl, rfl⟩, by rw [← h2]⟩, (List.append_nil _).symm⟩

theorem extendedAsset_cut : (ExtendedAsset.unmarshal ⟨⟨0, 0⟩, 0⟩).Cuts fun v s => v.contract = 0 ∧ (AssetCut v.quantity s ∨ AssetLayout v.quantity s) := by
  have hs : (Name.unmarshal 0).Cuts fun v s => v = 0 ∧ s = [] := readUint64_cut.again (fun _ => ⟨_, rfl⟩) fun _ _ => rfl
  refine (Cuts.bind (g := fun q => (⟨q, 0⟩ : ExtendedAsset)) (T := fun q v s => ∃ c, (c = 0 ∧ s = []) ∧ v = ⟨q, c⟩) (asset_exactly _) asset_cut
    (fun x => by
      dsimp only
      exact hs.map (fun _ => ⟨_, rfl⟩) fun _ _ => rfl) fun _ _ => rfl).iff fun v s => ⟨?_, ?_⟩
  · rintro (⟨_, h, rfl⟩ | ⟨x, w, _, h, ⟨_, ⟨rfl, rfl⟩, rfl⟩, rfl⟩)
    · exact ⟨rfl, .inl h⟩
    · exact ⟨rfl, .inr (by rw [List.append_nil]; exact h)⟩
  · obtain ⟨q, c⟩ := v
    rintro ⟨rfl, (h | h)⟩
    · exact .inl ⟨q, h, rfl⟩
    · exact .inr ⟨q, s, [], h, ⟨0, ⟨rfl, rfl⟩, rfl⟩, (List.append_nil _).symm⟩

theorem putLen_cut {α : Type} (l : UInt64) {f : Bytes → Dec (α × Option Err)} (hf : ∀ b, (f b).Cuts fun _ _ => False) : (putLen l f).Cuts fun _ _ => False := by
  unfold putLen
  split
  · exact cuts_panic _
  · exact hf _

theorem key_cut : (PubKey.unmarshal ⟨0, []⟩).Cuts KeyCut := by
  refine (Cuts.bind (g := fun _ => (⟨0, []⟩ : PubKey)) (T := fun t v s => (t = 0 ∨ t = 1) ∧ v = ⟨t, List.replicate 33 0⟩ ∧ s = [] ∨
      t = 2 ∧ v = ⟨2, []⟩ ∧ (s = [] ∨ ∃ point s', point.length = 34 ∧ CutSized s' ∧ s = point ++ s')) readByte_exactly readByte_cut (fun t => ?_) fun _ _ => rfl).iff fun v s => ⟨?_, ?_⟩
  · dsimp only
    split
    · rename_i h
      have h : t = 0 ∨ t = 1 := by simpa using h
      refine (cuts_bytes_map (n := 33) (fun b => (⟨t, b⟩ : PubKey)) (by decide) (by decide) (fun _ => ⟨_, rfl⟩) fun _ _ _ => rfl).iff fun v s => ⟨fun h' => .inl ⟨h, h'⟩, ?_⟩
      rintro (h' | ⟨rfl, _⟩)
      · exact h'.2
      · rcases h with h | h <;> cases h
    · rename_i hne
      split
      · rename_i h
        obtain rfl : t = 2 := by simpa using h
        refine (cuts_bytes (n := 34) (g := fun _ => (⟨2, []⟩ : PubKey)) (T := fun _ v s => v = ⟨2, []⟩ ∧ CutSized s)
          (fun b => cuts_sized_last (fun _ => rfl) (fun _ _ => rfl) (fun _ _ => putLen_cut _ fun _ => cuts_pure _ _ (by simp)) fun _ _ _ _ => rfl) fun _ _ _ => rfl).iff fun v s => ⟨?_, ?_⟩
        · rintro (⟨rfl, _, _, rfl⟩ | ⟨b, s', h1, _, ⟨rfl, h2⟩, rfl⟩)
          · exact .inr ⟨rfl, rfl, .inl rfl⟩
          · exact .inr ⟨rfl, rfl, .inr ⟨b, s', by omega, h2, rfl⟩⟩
        · rintro (⟨h, _⟩ | ⟨_, rfl, (rfl | ⟨b, s', h1, h2, rfl⟩)⟩)
          · rcases h with h | h <;> cases h
          · exact .inl ⟨rfl, by decide, by decide, rfl⟩
          · exact .inr ⟨b, s', by omega, by rw [h1]; decide, ⟨rfl, h2⟩, rfl⟩
      · rename_i h
        refine (cuts_pure _ _ (by simp [errKeyType])).iff fun v s => ⟨False.elim, ?_⟩
        rintro (⟨h', _⟩ | ⟨rfl, _⟩)
        · exact hne (by simpa using h')
        · exact h rfl
  · rintro (⟨_, ⟨_, rfl⟩, rfl⟩ | ⟨t, w, s', h, (⟨h1, rfl, rfl⟩ | ⟨rfl, rfl, h1⟩), rfl⟩)
    · exact .inl ⟨rfl, rfl⟩
    · obtain rfl : w = [t] := h
      exact .inr (.inl ⟨h1, rfl, rfl⟩)
    · obtain rfl : w = [2] := h
      refine .inr (.inr ⟨rfl, ?_⟩)
      rcases h1 with rfl | ⟨b, s', h1, h2, rfl⟩
      · exact .inl rfl
      · exact .inr ⟨b, s', h1, h2, rfl⟩
  · rintro (⟨rfl, rfl⟩ | ⟨h1, h2, rfl⟩ | ⟨rfl, h⟩)
    · exact .inl ⟨0, ⟨rfl, rfl⟩, rfl⟩
    · refine .inr ⟨v.type, [v.type], [], rfl, .inl ⟨h1, ?_, rfl⟩, rfl⟩
      obtain ⟨t, d⟩ := v
      exact congrArg _ h2
    · rcases h with rfl | ⟨b, s', h1, h2, rfl⟩
      · exact .inr ⟨2, [2], [], rfl, .inr ⟨rfl, rfl, .inl rfl⟩, rfl⟩
      · exact .inr ⟨2, [2], b ++ s', rfl, .inr ⟨rfl, rfl, .inr ⟨b, s', h1, h2, rfl⟩⟩, rfl⟩

theorem sig_cut : (Sig.unmarshal ⟨0, []⟩).Cuts SigCut := by
  refine (Cuts.bind (g := fun _ => (⟨0, []⟩ : Sig)) (T := fun t v s => (t = 0 ∨ t = 1) ∧ v = ⟨t, List.replicate 65 0⟩ ∧ s = [] ∨
      t = 2 ∧ v = ⟨2, []⟩ ∧ (s = [] ∨ ∃ sig s', sig.length = 65 ∧ s = sig ++ s' ∧ (CutSized s' ∨ ∃ ad ad' s'', Sized ad ad' ∧ CutSized s'' ∧ s' = ad ++ s'')))
      readByte_exactly readByte_cut (fun t => ?_) fun _ _ => rfl).iff fun v s => ⟨?_, ?_⟩
  · dsimp only
    split
    · rename_i h
      have h : t = 0 ∨ t = 1 := by simpa using h
      refine (cuts_bytes_map (n := 65) (fun b => (⟨t, b⟩ : Sig)) (by decide) (by decide) (fun _ => ⟨_, rfl⟩) fun _ _ _ => rfl).iff fun v s => ⟨fun h' => .inl ⟨h, h'⟩, ?_⟩
      rintro (h' | ⟨rfl, _⟩)
      · exact h'.2
      · rcases h with h | h <;> cases h
    · rename_i hne
      split
      · rename_i h
        obtain rfl : t = 2 := by simpa using h
        refine (cuts_bytes (n := 65) (g := fun _ => (⟨2, []⟩ : Sig)) (T := fun _ v s => v = ⟨2, []⟩ ∧ CutSized s ∨ ∃ b x s', Sized b x ∧ (v = ⟨2, []⟩ ∧ CutSized s') ∧ s = b ++ s')
          (fun b => cuts_sized (fun _ => rfl) (fun _ _ => rfl) (fun _ _ => cuts_sized_last (fun _ => rfl) (fun _ _ => rfl)
            (fun _ _ => putLen_cut _ fun _ => putLen_cut _ fun _ => cuts_pure _ _ (by simp)) fun _ _ _ _ => rfl) fun _ _ _ _ => rfl) fun _ _ _ => rfl).iff fun v s => ⟨?_, ?_⟩
        · rintro (⟨rfl, _, _, rfl⟩ | ⟨b, s', h1, _, (⟨rfl, h2⟩ | ⟨c, x, s'', h2, ⟨rfl, h3⟩, rfl⟩), rfl⟩)
          · exact .inr ⟨rfl, rfl, .inl rfl⟩
          · exact .inr ⟨rfl, rfl, .inr ⟨b, s', by omega, rfl, .inl h2⟩⟩
          · exact .inr ⟨rfl, rfl, .inr ⟨b, _, by omega, rfl, .inr ⟨c, x, s'', h2, h3, rfl⟩⟩⟩
        · rintro (⟨h, _⟩ | ⟨_, rfl, (rfl | ⟨b, s', h1, rfl, (h2 | ⟨c, x, s'', h2, h3, rfl⟩)⟩)⟩)
          · rcases h with h | h <;> cases h
          · exact .inl ⟨rfl, by decide, by decide, rfl⟩
          · exact .inr ⟨b, s', by omega, by rw [h1]; decide, .inl ⟨rfl, h2⟩, rfl⟩
          · exact .inr ⟨b, _, by omega, by rw [h1]; decide, .inr ⟨c, x, s'', h2, ⟨rfl, h3⟩, rfl⟩, rfl⟩
      · rename_i h
        refine (cuts_pure _ _ (by simp [errKeyType])).iff fun v s => ⟨False.elim, ?_⟩
        rintro (⟨h', _⟩ | ⟨rfl, _⟩)
        · exact hne (by simpa using h')
        · exact h rfl
  · rintro (⟨_, ⟨_, rfl⟩, rfl⟩ | ⟨t, w, s', h, (⟨h1, rfl, rfl⟩ | ⟨rfl, rfl, h1⟩), rfl⟩)
    · exact .inl ⟨rfl, rfl⟩
    · obtain rfl : w = [t] := h
      exact .inr (.inl ⟨h1, rfl, rfl⟩)
    · obtain rfl : w = [2] := h
      refine .inr (.inr ⟨rfl, ?_⟩)
      rcases h1 with rfl | ⟨b, s', h1, rfl, h2⟩
      · exact .inl rfl
      · exact .inr ⟨b, s', h1, rfl, h2⟩
  · rintro (⟨rfl, rfl⟩ | ⟨h1, h2, rfl⟩ | ⟨rfl, h⟩)
    · exact .inl ⟨0, ⟨rfl, rfl⟩, rfl⟩
    · refine .inr ⟨v.type, [v.type], [], rfl, .inl ⟨h1, ?_, rfl⟩, rfl⟩
      obtain ⟨t, d⟩ := v
      exact congrArg _ h2
    · rcases h with rfl | ⟨b, s', h1, rfl, h2⟩
      · exact .inr ⟨2, [2], [], rfl, .inr ⟨rfl, rfl, .inl rfl⟩, rfl⟩
      · exact .inr ⟨2, [2], b ++ s', rfl, .inr ⟨rfl, rfl, .inr ⟨b, s', h1, rfl, h2⟩⟩, rfl⟩

theorem chain_cut {b : Bytes} {c : ChainTy} (h : (b, c) ∈ abiChains ∨ c = .bytes) : (c.unmarshal c.zero).Cuts c.Cut := by
  have hc : c ∈ abiChains.map Prod.snd ∨ c = .bytes := h.imp (fun h => List.mem_map.2 ⟨_, h, rfl⟩) id
  have no : ∀ {c : ChainTy}, decide (c ∈ abiChains.map Prod.snd ∨ c = .bytes) = false → ¬ (c ∈ abiChains.map Prod.snd ∨ c = .bytes) := fun h => of_decide_eq_false h
  cases c
  case bytes => exact unmarshalBytes_cut _
  case int128 => exact u128_cut _
  case uint128 => exact u128_cut _
  case asset => exact asset_cut
  case extendedAsset => exact extendedAsset_cut
  case publicKey => exact key_cut
  case signature => exact sig_cut
  case float128 => exact cuts_bytes_map (n := 16) (fun _ => ChainTy.zero .float128) (by decide) (by decide) (fun _ => ⟨_, rfl⟩) fun _ _ _ => rfl
  case checksum160 => exact cuts_bytes_map (n := 20) (fun _ => ChainTy.zero .checksum160) (by decide) (by decide) (fun _ => ⟨_, rfl⟩) fun _ _ _ => rfl
  case checksum256 => exact cuts_bytes_map (n := 32) (fun _ => ChainTy.zero .checksum256) (by decide) (by decide) (fun _ => ⟨_, rfl⟩) fun _ _ _ => rfl
  case checksum512 => exact cuts_bytes_map (n := 64) (fun _ => ChainTy.zero .checksum512) (by decide) (by decide) (fun _ => ⟨_, rfl⟩) fun _ _ _ => rfl
  case name => exact readUint64_cut.again (fun _ => ⟨_, rfl⟩) fun _ _ => rfl
  case symbol => exact readUint64_cut.again (fun _ => ⟨_, rfl⟩) fun _ _ => rfl
  case symbolCode => exact readUint64_cut.again (fun _ => ⟨_, rfl⟩) fun _ _ => rfl
  case uint64 => exact readUint64_cut.again (fun _ => ⟨_, rfl⟩) fun _ _ => rfl
  case timePoint => exact readInt64_cut.again (fun _ => ⟨_, rfl⟩) fun _ _ => rfl
  case timePointSec => exact readUint32_cut.again (fun _ => ⟨_, rfl⟩) fun _ _ => rfl
  case blockTimestamp => exact readUint32_cut.again (fun _ => ⟨_, rfl⟩) fun _ _ => rfl
  all_goals exact absurd hc (no (by decide +kernel))

theorem decBasic_cut {b : Bytes} {ty : Basic} {r : Dec (ty.Val × Option Err)} (h : r.Cuts ty.Cut) (h1 : (b, ty) ∈ abiBasics) (h2 : ∀ e ∈ abiBasics, e.1 = b → e.2 = ty)
    (h3 : ∀ e ∈ abiChains, e.1 ≠ b) (h4 : b ≠ asc "bytes") : (decBasic ty r).Cuts (StopsAs b) := by
  refine (h.map (g := AV.basic ty) (fun _ => ⟨_, rfl⟩) fun _ _ => rfl).iff fun v w => ⟨?_, ?_⟩
  · rintro ⟨x, hx, rfl⟩
    exact .basic h1 hx
  · rintro (⟨hm, hx⟩ | ⟨hm, hx⟩ | _)
    · obtain rfl := h2 _ hm rfl
      exact ⟨_, hx, rfl⟩
    · exact absurd rfl (h3 _ hm)
    · exact absurd rfl h4

theorem decChain_cut {b : Bytes} {c : ChainTy} {r : Dec (c.Val × Option Err)} (h : r.Cuts c.Cut) (h1 : (b, c) ∈ abiChains) (h2 : ∀ e ∈ abiChains, e.1 = b → e.2 = c)
    (h3 : ∀ e ∈ abiBasics, e.1 ≠ b) (h4 : b ≠ asc "bytes") : (r >>= fun z => pure (AV.chain c z.1, z.2)).Cuts (StopsAs b) := by
  refine (h.map (g := AV.chain c) (fun _ => ⟨_, rfl⟩) fun _ _ => rfl).iff fun v w => ⟨?_, ?_⟩
  · rintro ⟨x, hx, rfl⟩
    exact .chain h1 hx
  · rintro (⟨hm, hx⟩ | ⟨hm, hx⟩ | _)
    · exact absurd rfl (h3 _ hm)
    · obtain rfl := h2 _ hm rfl
      exact ⟨_, hx, rfl⟩
    · exact absurd rfl h4

theorem decCases_cut : ∀ c ∈ decCases, c.2.Cuts (StopsAs c.1) := by
  have basic : ∀ (b : Bytes) (ty : Basic) (r : Dec (ty.Val × Option Err)), r = ty.read → ((b, ty) ∈ abiBasics ∧ (∀ e ∈ abiBasics, e.1 = b → e.2 = ty) ∧ (∀ e ∈ abiChains, e.1 ≠ b) ∧ b ≠ asc "bytes") →
      (decBasic ty r).Cuts (StopsAs b) := fun b ty r e h => decBasic_cut (e ▸ basic_cut ty) h.1 h.2.1 h.2.2.1 h.2.2.2
  have chain : ∀ (b : Bytes) (c : ChainTy), ((b, c) ∈ abiChains ∧ (∀ e ∈ abiChains, e.1 = b → e.2 = c) ∧ (∀ e ∈ abiBasics, e.1 ≠ b) ∧ b ≠ asc "bytes") →
      (decChain c).Cuts (StopsAs b) := fun b c h => decChain_cut (chain_cut (.inl h.1)) h.1 h.2.1 h.2.2.1 h.2.2.2
  intro c hc
  simp only [decCases, List.mem_cons, List.not_mem_nil, or_false] at hc
  rcases hc with rfl | rfl | rfl | rfl | rfl | rfl | rfl | rfl | rfl | rfl | rfl | rfl | rfl | rfl | rfl | rfl | rfl | rfl | rfl | rfl | rfl | rfl | rfl | rfl | rfl | rfl | rfl | rfl | rfl | rfl | rfl
  case inr.inr.inr.inr.inr.inr.inr.inr.inr.inl => exact decChain_cut (c := .uint64) readUint64_cut (by decide +kernel) (by decide +kernel) (by decide +kernel) (by decide +kernel)
  all_goals dsimp only
  all_goals first
    | (refine basic _ _ _ ?_ ?_; rfl; decide +kernel)
    | (refine chain _ _ ?_; decide +kernel)
    | skip
  show Dec.Cuts (decChain .bytes) _
  unfold decChain
  refine (Dec.Cuts.map (chain_cut (b := []) (c := .bytes) (.inr rfl)) (g := AV.chain .bytes) (fun _ => ⟨_, rfl⟩) fun _ _ => rfl).iff fun v w => ⟨?_, ?_⟩
  · rintro ⟨x, ⟨rfl, h⟩, rfl⟩
    exact .bytes h
  · intro h
    have h1 : ∀ e ∈ abiBasics, e.1 ≠ asc "bytes" := by decide +kernel
    have h2 : ∀ e ∈ abiChains, e.1 ≠ asc "bytes" := by decide +kernel
    generalize hb : asc "bytes" = b at h
    cases h with
    | basic h _ => exact absurd hb.symm (h1 _ h)
    | chain h _ => exact absurd hb.symm (h2 _ h)
    | bytes h => exact ⟨_, ⟨rfl, h⟩, rfl⟩

theorem builtin_cut (b : Bytes) : (decodeBuiltin b).Cuts (StopsAs b) := by
  unfold decodeBuiltin
  split
  · rename_i h
    refine (cuts_pure _ _ (by simp [errUnknownType])).iff fun v w => ⟨False.elim, fun hv => ?_⟩
    have h' : ∀ c ∈ decCases.map Prod.fst, c ≠ b := by
      intro c hc
      obtain ⟨d, hd, rfl⟩ := List.mem_map.1 hc
      simpa using List.find?_eq_none.1 h d hd
    have h1 : ∀ e ∈ abiBasics, e.1 ∈ decCases.map Prod.fst := by decide +kernel
    have h2 : ∀ e ∈ abiChains, e.1 ∈ decCases.map Prod.fst := by decide +kernel
    have h3 : asc "bytes" ∈ decCases.map Prod.fst := by decide +kernel
    cases hv with
    | basic h _ => exact h' _ (h1 _ h) rfl
    | chain h _ => exact h' _ (h2 _ h) rfl
    | bytes h => exact h' _ h3 rfl
  · rename_i c h
    have h1 := List.find?_some h
    have h2 := decCases_cut c (List.mem_of_find?_eq_some h)
    rw [show c.1 = b by simpa using h1] at h2
    exact h2

end Verif
