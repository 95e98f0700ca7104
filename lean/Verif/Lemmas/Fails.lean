import Verif.Spec.Fails
import Verif.Lemmas.ReflectEnds
import Verif.Props.Prim
/-! How decoders fail. -/
namespace Verif

theorem Out.faults_or {α : Type} (o : Out (α × Option Err)) : (∃ v r, o = .ok (v, none) r) ∨ ∃ x, o.Faults x := by
  cases o with
  | ok a r =>
    obtain ⟨v, e⟩ := a
    cases e with
    | none => exact .inl ⟨v, r, rfl⟩
    | some e => exact .inr ⟨.err e, v, r, rfl⟩
  | panic w => exact .inr ⟨.panic, w, rfl⟩
  | diverge => exact .inr ⟨.endless, rfl⟩

/-- What a call does, if it does not succeed. -/
def Out.fault {α : Type} : Out (α × Option Err) → Option Failure
  | .ok (_, none) _ => none
  | .ok (_, some e) _ => some (.err e)
  | .panic _ => some .panic
  | .diverge => some .endless

theorem Out.faults_fault {α : Type} {o : Out (α × Option Err)} {x : Failure} (h : o.Faults x) : o.fault = some x := by
  cases x with
  | err e => obtain ⟨v, r, rfl⟩ := h; rfl
  | panic => obtain ⟨w, rfl⟩ := h; rfl
  | endless => rw [show o = .diverge from h]; rfl

theorem Out.faults_unique {α : Type} {o : Out (α × Option Err)} {x y : Failure} (hx : o.Faults x) (hy : o.Faults y) : x = y :=
  Option.some.inj ((Out.faults_fault hx).symm.trans (Out.faults_fault hy))

theorem Out.faults_ok {α : Type} {v : α} {r : Bytes} (x : Failure) : ¬ (Out.ok (v, none) r : Out (α × Option Err)).Faults x := by
  cases x with
  | err e => rintro ⟨_, _, h⟩; cases h
  | panic => rintro ⟨_, h⟩; cases h
  | endless => exact fun h => nomatch h

theorem Out.faults_err {α : Type} {v : α} {r : Bytes} (e : Err) (x : Failure) : (Out.ok (v, some e) r : Out (α × Option Err)).Faults x ↔ x = .err e := by
  constructor
  · intro h
    exact Out.faults_unique h ⟨v, r, rfl⟩
  · rintro rfl
    exact ⟨v, r, rfl⟩

theorem Out.faults_panic {α : Type} {w : String} (x : Failure) : (Out.panic w : Out (α × Option Err)).Faults x ↔ x = .panic := by
  constructor
  · intro h
    exact Out.faults_unique h ⟨w, rfl⟩
  · rintro rfl
    exact ⟨w, rfl⟩

theorem Out.faults_diverge {α : Type} (x : Failure) : (Out.diverge : Out (α × Option Err)).Faults x ↔ x = .endless := by
  constructor
  · intro h
    exact Out.faults_unique h rfl
  · rintro rfl
    rfl

namespace Dec
variable {α β : Type}

/-- Success with v and the rest r exactly if G. -/
def Yields (p : Dec (α × Option Err)) (G : Err → α → Bytes → Bytes → Prop) : Prop := ∀ (fin : Err) (s : Bytes) (v : α) (r : Bytes), p.runE fin s = .ok (v, none) r ↔ G fin v s r

/-- It fails exactly as F says. -/
def Faults (p : Dec (α × Option Err)) (F : Err → Bytes → Failure → Prop) : Prop := ∀ (fin : Err) (s : Bytes) (x : Failure), (p.runE fin s).Faults x ↔ F fin s x

theorem Exactly.yields {p : Dec (α × Option Err)} {R : α → Bytes → Prop} (h : p.Exactly R) : p.Yields fun _ => Splits R :=
  fun fin s v r => (h fin s v r).trans ⟨fun ⟨w, h1, h2⟩ => ⟨w, h2, h1⟩, fun ⟨w, h1, h2⟩ => ⟨w, h2, h1⟩⟩

theorem Faults.iff {p : Dec (α × Option Err)} {F K : Err → Bytes → Failure → Prop} (h : p.Faults F) (h1 : ∀ fin s x, F fin s x ↔ K fin s x) : p.Faults K := fun fin s x => (h fin s x).trans (h1 fin s x)

theorem faults_pure (a : α) : (pure (a, none) : Dec (α × Option Err)).Faults fun _ _ _ => False := fun _ _ x => ⟨Out.faults_ok x, fun h => h.elim⟩
theorem faults_fail (a : α) (e : Err) : (pure (a, some e) : Dec (α × Option Err)).Faults fun _ _ x => x = .err e := fun _ _ x => Out.faults_err e x
theorem faults_panic (w : String) : (Dec.panic w : Dec (α × Option Err)).Faults fun _ _ x => x = .panic := fun _ _ x => Out.faults_panic x
theorem faults_diverge : (Dec.diverge : Dec (α × Option Err)).Faults fun _ _ x => x = .endless := fun _ _ x => Out.faults_diverge x

/-- Read, stop on an error, go on. -/
theorem Faults.bind {p : Dec (β × Option Err)} {G : Err → β → Bytes → Bytes → Prop} {F : Err → Bytes → Failure → Prop} {f : β × Option Err → Dec (α × Option Err)} {K : β → Err → Bytes → Failure → Prop}
    (hp : p.Faults F) (hg : p.Yields G) (hf : ∀ b, (f (b, none)).Faults (K b)) (he : ∀ b e, ∃ a, f (b, some e) = pure (a, some e)) :
    (p >>= f).Faults fun fin s x => F fin s x ∨ ∃ b m, G fin b s m ∧ K b fin m x := by
  intro fin s x
  rw [Dec.runE_bind]
  have h0 := hp fin s x
  have h1 := hg fin s
  cases h : p.runE fin s with
  | ok a m =>
    obtain ⟨b, e⟩ := a
    rw [h] at h0 h1
    cases e with
    | none =>
      show ((f (b, none)).runE fin m).Faults x ↔ _
      rw [hf b fin m x]
      constructor
      · exact fun h' => .inr ⟨b, m, (h1 b m).1 rfl, h'⟩
      · rintro (h' | ⟨b', m', h', h''⟩)
        · exact (Out.faults_ok x (h0.2 h')).elim
        · have := (h1 b' m').2 h'
          cases this
          exact h''
    | some e =>
      obtain ⟨a, ha⟩ := he b e
      show ((f (b, some e)).runE fin m).Faults x ↔ _
      rw [ha]
      refine (Out.faults_err e x).trans (((Out.faults_err e x).symm.trans h0).trans ⟨.inl, ?_⟩)
      rintro (h' | ⟨b', m', h', _⟩)
      · exact h'
      · exact nomatch (h1 b' m').2 h'
  | panic w =>
    rw [h] at h0 h1
    refine (Out.faults_panic x).trans (((Out.faults_panic x).symm.trans h0).trans ⟨.inl, ?_⟩)
    rintro (h' | ⟨b', m', h', _⟩)
    · exact h'
    · exact nomatch (h1 b' m').2 h'
  | diverge =>
    rw [h] at h0 h1
    refine (Out.faults_diverge x).trans (((Out.faults_diverge x).symm.trans h0).trans ⟨.inl, ?_⟩)
    rintro (h' | ⟨b', m', h', _⟩)
    · exact h'
    · exact nomatch (h1 b' m').2 h'

theorem Faults.map {p : Dec (β × Option Err)} {F : Err → Bytes → Failure → Prop} {f : β × Option Err → Dec (α × Option Err)}
    (hp : p.Faults F) (hf : ∀ b, ∃ a, f (b, none) = pure (a, none)) (he : ∀ b e, ∃ a, f (b, some e) = pure (a, some e)) : (p >>= f).Faults F := by
  refine (hp.bind (G := fun fin v s r => p.runE fin s = .ok (v, none) r) (fun _ _ _ _ => Iff.rfl) (K := fun _ _ _ _ => False) (fun b => ?_) he).iff fun fin s x => by simp
  obtain ⟨a, ha⟩ := hf b
  rw [ha]
  exact faults_pure a

/-- n bytes, n given by an int. -/
theorem faults_block (l : UInt64) {f : Nat × Bytes × Option Err → Dec (α × Option Err)} {K : Bytes → Err → Bytes → Failure → Prop}
    (hf : ∀ k b, (f (k, b, none)).Faults (K b)) (he : ∀ k b e, ∃ a, f (k, b, some e) = pure (a, some e)) :
    (readBytes (goInt l) >>= f).Faults fun fin s x => BlockFault l.toNat fin s x ∨ ∃ b s', b.length = l.toNat ∧ l.toNat ≤ maxAlloc ∧ s = b ++ s' ∧ K b fin s' x := by
  intro fin s x
  have hm : maxAlloc < 2 ^ 63 := by decide
  rw [Dec.runE_bind]
  unfold readBytes
  split
  · rename_i h
    have h1 : 2 ^ 63 ≤ l.toNat := by
      rcases Nat.lt_or_ge l.toNat (2 ^ 63) with h' | h'
      · have := (goInt_eq l _).2 ⟨rfl, h'⟩
        omega
      · exact h'
    obtain ⟨a, ha⟩ := he 0 [] (.msg "abi: read with negative count")
    show ((f (0, [], some (.msg "abi: read with negative count"))).runE fin s).Faults x ↔ _
    rw [ha]
    refine (Out.faults_err _ x).trans ⟨fun h => .inl (.inl ⟨h1, h⟩), ?_⟩
    rintro ((⟨_, h⟩ | ⟨_, h, _⟩ | ⟨h, _⟩) | ⟨b, _, _, h, _⟩)
    · exact h
    all_goals omega
  · rename_i h
    have h2 := goInt_nonneg l (by omega)
    have h3 : l.toNat < 2 ^ 63 := ((goInt_eq l l.toNat).1 h2.symm).2
    split
    · rename_i h4
      have h5 : l.toNat = 0 := by omega
      show ((f (0, [], none)).runE fin s).Faults x ↔ _
      rw [hf, h5]
      constructor
      · exact fun h => .inr ⟨[], s, rfl, by decide, rfl, h⟩
      · rintro ((⟨h, _⟩ | ⟨h, _⟩ | ⟨_, h, _⟩) | ⟨b, s', h, _, rfl, h'⟩)
        · omega
        · omega
        · omega
        · obtain rfl := List.eq_nil_of_length_eq_zero h
          exact h'
    · rename_i h4
      rw [show (goInt l).toNat = l.toNat by omega]
      split
      · rename_i h5
        refine (Out.faults_panic x).trans ⟨fun h => .inl (.inr (.inl ⟨h5, h3, h⟩)), ?_⟩
        rintro ((⟨h, _⟩ | ⟨_, _, h⟩ | ⟨h, _⟩) | ⟨b, _, _, h, _⟩)
        · omega
        · exact h
        · omega
        · omega
      · rename_i h5
        rcases Nat.lt_or_ge s.length l.toNat with h6 | h6
        · rw [Dec.runE_read_short _ _ _ _ h6]
          obtain ⟨a, ha⟩ := he s.length (s ++ List.replicate (l.toNat - s.length) 0) (shortErr fin s.length)
          show ((f (s.length, s ++ List.replicate (l.toNat - s.length) 0, some (shortErr fin s.length))).runE fin []).Faults x ↔ _
          rw [ha]
          have e : shortErr fin s.length = if s ≠ [] ∧ fin = .eof then .unexpectedEOF else fin := by
            unfold shortErr
            simp only [ne_eq, List.length_eq_zero_iff]
          rw [e]
          refine (Out.faults_err _ x).trans ⟨fun h => .inl (.inr (.inr ⟨by omega, h6, h⟩)), ?_⟩
          rintro ((⟨h, _⟩ | ⟨h, _⟩ | ⟨_, _, h⟩) | ⟨b, s', h, _, rfl, _⟩)
          · omega
          · omega
          · exact h
          · simp at h6; omega
        · have e : s = s.take l.toNat ++ s.drop l.toNat := (List.take_append_drop _ _).symm
          have hl : (s.take l.toNat).length = l.toNat := by simp; omega
          rw [e, Dec.runE_read_full _ _ _ _ _ hl, ← e]
          show ((f (l.toNat, s.take l.toNat, none)).runE fin (s.drop l.toNat)).Faults x ↔ _
          rw [hf]
          constructor
          · exact fun h => .inr ⟨_, _, hl, by omega, e, h⟩
          · rintro ((⟨h, _⟩ | ⟨h, _⟩ | ⟨_, h, _⟩) | ⟨b, s', h, _, rfl, h'⟩)
            · omega
            · omega
            · omega
            · rw [← h]
              simpa using h'

/-- A fixed number of bytes. -/
theorem faults_bytes (n : Nat) (hn : n ≤ maxAlloc) {f : Nat × Bytes × Option Err → Dec (α × Option Err)} {K : Bytes → Err → Bytes → Failure → Prop}
    (hf : ∀ k b, (f (k, b, none)).Faults (K b)) (he : ∀ k b e, ∃ a, f (k, b, some e) = pure (a, some e)) :
    (readBytes n >>= f).Faults fun fin s x => Torn n fin s x ∨ ∃ b s', b.length = n ∧ s = b ++ s' ∧ K b fin s' x := by
  have hm : maxAlloc < 2 ^ 63 := by decide
  have e : n.toUInt64.toNat = n := by simp; omega
  have := faults_block n.toUInt64 hf he
  rw [(goInt_eq _ n).2 ⟨e, by omega⟩] at this
  refine this.iff fun fin s x => ?_
  rw [e]
  unfold BlockFault
  constructor
  · rintro ((⟨h, _⟩ | ⟨h, _⟩ | ⟨_, h⟩) | ⟨b, s', h, _, h'⟩)
    · omega
    · omega
    · exact .inl h
    · exact .inr ⟨b, s', h, h'⟩
  · rintro (h | ⟨b, s', h, h'⟩)
    · exact .inl (.inr (.inr ⟨hn, h⟩))
    · exact .inr ⟨b, s', h, hn, h'⟩

theorem faults_fixed (n : Nat) (hn : n ≤ maxAlloc) {f : Nat × Bytes × Option Err → Dec (α × Option Err)}
    (hf : ∀ k b, ∃ a, f (k, b, none) = pure (a, none)) (he : ∀ k b e, ∃ a, f (k, b, some e) = pure (a, some e)) : (readBytes n >>= f).Faults (Torn n) :=
  (faults_bytes n hn (K := fun _ _ _ _ => False) (fun k b => by obtain ⟨a, ha⟩ := hf k b; rw [ha]; exact faults_pure a) he).iff fun fin s x => by simp

/-- The same after a name whose error is dropped: then the input is used up. -/
theorem faults_name {old : UInt64} {f : UInt64 × Option Err → Dec (α × Option Err)} {K : UInt64 → Err → Bytes → Failure → Prop} (hf : ∀ b, (f (b, none)).Faults (K b))
    (he : ∀ e fin x, ((f (old, some e)).runE fin []).Faults x ↔ x = .err fin) :
    (Name.unmarshal old >>= f).Faults fun fin s x => s.length < 8 ∧ x = .err fin ∨ ∃ b w s', LeForm 8 b.toNat w ∧ s = w ++ s' ∧ K b fin s' x := by
  intro fin s x
  by_cases hs : s.length < 8
  · obtain ⟨e, h⟩ := name_short old fin s hs
    rw [Dec.runE_bind, h]
    show ((f (old, some e)).runE fin []).Faults x ↔ _
    rw [he]
    refine ⟨fun h => .inl ⟨hs, h⟩, ?_⟩
    rintro (h | ⟨b, w, s', h1, rfl, _⟩)
    · exact h.2
    · have := leForm_length h1
      simp at hs; omega
  · obtain ⟨v, w, m, h1, rfl, h3⟩ := name_long old fin s (by omega)
    rw [Dec.runE_bind, h3]
    show ((f (v, none)).runE fin m).Faults x ↔ _
    rw [hf v]
    refine ⟨fun h => .inr ⟨v, w, m, h1, rfl, h⟩, ?_⟩
    rintro (h | ⟨b, w', m', h4, h5, h6⟩)
    · exact absurd h.1 hs
    · have h7 := List.append_inj h5 (by rw [leForm_length h1, leForm_length h4])
      obtain ⟨rfl, rfl⟩ := h7
      have := (name_exactly old fin (w ++ m) b m).2 ⟨w, rfl, h4⟩
      rw [h3] at this
      cases this
      exact h6

end Dec
open Dec

/-! ### Numbers -/

theorem readByte_faults : readByte.Faults (Torn 1) := faults_fixed 1 (by decide) (fun _ _ => ⟨_, rfl⟩) fun _ _ _ => ⟨_, rfl⟩
theorem readUint64_faults : readUint64.Faults (Torn 8) := faults_fixed 8 (by decide) (fun _ _ => ⟨_, rfl⟩) fun _ _ _ => ⟨_, rfl⟩
theorem readUint32_faults : readUint32.Faults (Torn 4) := faults_fixed 4 (by decide) (fun _ _ => ⟨_, rfl⟩) fun _ _ _ => ⟨_, rfl⟩
theorem readUint16_faults : readUint16.Faults (Torn 2) := faults_fixed 2 (by decide) (fun _ _ => ⟨_, rfl⟩) fun _ _ _ => ⟨_, rfl⟩
theorem readUint8_faults : readUint8.Faults (Torn 1) := by
  unfold readUint8
  exact readByte_faults.map (fun _ => ⟨_, rfl⟩) fun _ _ => ⟨_, rfl⟩
theorem readBool_faults : readBool.Faults (Torn 1) := by
  unfold readBool
  refine readByte_faults.map (fun _ => ⟨_, rfl⟩) fun _ _ => ⟨_, rfl⟩

theorem readInt64_faults : readInt64.Faults (Torn 8) := by
  unfold readInt64
  exact readUint64_faults.map (fun _ => ⟨_, rfl⟩) fun _ _ => ⟨_, rfl⟩
theorem readInt32_faults : readInt32.Faults (Torn 4) := by
  unfold readInt32
  exact readUint32_faults.map (fun _ => ⟨_, rfl⟩) fun _ _ => ⟨_, rfl⟩
theorem readInt16_faults : readInt16.Faults (Torn 2) := by
  unfold readInt16
  exact readUint16_faults.map (fun _ => ⟨_, rfl⟩) fun _ _ => ⟨_, rfl⟩
theorem readInt8_faults : readInt8.Faults (Torn 1) := by
  unfold readInt8
  exact readByte_faults.map (fun _ => ⟨_, rfl⟩) fun _ _ => ⟨_, rfl⟩
theorem readFloat32_faults : readFloat32.Faults (Torn 4) := by
  unfold readFloat32
  exact readUint32_faults.map (fun _ => ⟨_, rfl⟩) fun _ _ => ⟨_, rfl⟩
theorem readFloat64_faults : readFloat64.Faults (Torn 8) := by
  unfold readFloat64
  exact readUint64_faults.map (fun _ => ⟨_, rfl⟩) fun _ _ => ⟨_, rfl⟩

theorem readVaruint_faults : readVaruint.Faults LebFault := by
  intro fin s x
  have herr : ∀ e, (∀ b ∈ s, 128 ≤ b.toNat) → s.length < 10 → readVaruint.runE fin s = .ok (0, some e) [] → (e = fin ∨ (fin = .eof ∧ e = .unexpectedEOF)) →
      e = if s ≠ [] ∧ fin = .eof ∧ goLegacyUvarint = false then .unexpectedEOF else fin := by
    intro e h1 h2 h3 h4
    have hcut := varuint_dries fin s []
    by_cases hf : fin = .eof
    · subst hf
      by_cases hs : s = []
      · rw [if_neg (by simp [hs])]
        obtain ⟨v, hv⟩ := hcut.2 ⟨rfl, .inl hs, rfl⟩
        rw [h3] at hv
        cases hv
        rfl
      · by_cases hl : goLegacyUvarint = true
        · rw [if_neg (by simp [hl])]
          obtain ⟨v, hv⟩ := hcut.2 ⟨rfl, .inr ⟨hl, h2, h1⟩, rfl⟩
          rw [h3] at hv
          cases hv
          rfl
        · rw [if_pos ⟨hs, rfl, by simpa using hl⟩]
          rcases h4 with rfl | h4
          · obtain ⟨_, h5 | h5, _⟩ := hcut.1 ⟨_, h3⟩
            · exact absurd h5 hs
            · exact absurd h5.1 hl
          · exact h4.2
    · rw [if_neg (by simp [hf])]
      rcases h4 with h4 | h4
      · exact h4
      · exact absurd h4.1 hf
  constructor
  · intro h
    rcases C05_readVaruint_total fin s with ⟨p, rest, _, _, _, _, h1⟩ | ⟨p, rest, rfl, h2, _, h3, h1⟩ | ⟨h1, h2, e, h3, h4⟩
    · rw [h1] at h
      exact (Out.faults_ok x h).elim
    · rw [h1] at h
      exact .inr ⟨p, rest, rfl, h3.imp id fun h => ⟨h2, h⟩, (Out.faults_err _ x).1 h⟩
    · have := herr e h1 h2 h3 h4
      rw [h3] at h
      exact .inl ⟨h2, h1, by rw [← this]; exact (Out.faults_err _ x).1 h⟩
  · have hread : ∀ v e r, (readUvarintLoop readByte 10 0 0).runE fin s = .ok (v, some e) r → readVaruint.runE fin s = .ok (0, some e) r := by
      intro v e r h; simp [readVaruint, readUvarint, h]
    rintro (⟨h1, h2, rfl⟩ | ⟨p, r, rfl, h, rfl⟩)
    · obtain ⟨v, e, h3, h4⟩ := readUvarintLoop_trunc fin 10 0 0 s h1 h2
      have h3 := hread _ _ _ h3
      rw [← herr e h2 h1 h3 h4, h3]
      exact (Out.faults_err _ _).2 rfl
    · obtain ⟨v, hv⟩ := readUvarintLoop_overflow fin 10 0 0 p r (by simp) (by simp) (h.symm.imp (fun ⟨h1, h2, h3⟩ => ⟨h2, h1, by simpa using h3⟩) id)
      rw [hread _ _ _ hv]
      exact (Out.faults_err _ _).2 rfl

theorem varuint_yields : readVaruint.Yields fun _ => Splits fun (v : UInt64) w => AnyLeb w v.toNat := readVaruint_exactly.yields

theorem Dec.Faults.unmap {α β : Type} {p : Dec (β × Option Err)} {F : Err → Bytes → Failure → Prop} {f : β × Option Err → Dec (α × Option Err)}
    (hp : (p >>= f).Faults F) (hf : ∀ b, ∃ a, f (b, none) = pure (a, none)) (he : ∀ b e, ∃ a, f (b, some e) = pure (a, some e)) : p.Faults F := by
  have h : p.Faults fun fin s x => (p.runE fin s).Faults x := fun _ _ _ => Iff.rfl
  intro fin s x
  rw [← hp fin s x]
  exact (h.map hf he fin s x).symm

theorem readVarintD_faults : readVarintD.Faults LebFault := by
  have h : (readUvarint readByte).Faults LebFault := Faults.unmap (f := fun x => match x with | (v, err) => match err with | some e => pure ((0 : UInt64), some e) | none => pure (v, none))
    readVaruint_faults (fun _ => ⟨_, rfl⟩) fun _ _ => ⟨_, rfl⟩
  unfold readVarintD readVarint
  refine Faults.map (Faults.map h ?_ ?_) ?_ ?_
  · exact fun _ => ⟨_, rfl⟩
  · exact fun _ _ => ⟨_, rfl⟩
  · exact fun _ => ⟨_, rfl⟩
  · exact fun _ _ => ⟨_, rfl⟩

/-- A number, then that many bytes. -/
theorem Dec.faults_sized {α : Type} {f : UInt64 → Nat × Bytes × Option Err → Dec (α × Option Err)} {g : UInt64 × Option Err → Dec (α × Option Err)} {K : UInt64 → Bytes → Err → Bytes → Failure → Prop}
    (hg : ∀ l, g (l, none) = readBytes (goInt l) >>= f l) (hge : ∀ l e, ∃ a, g (l, some e) = pure (a, some e))
    (hf : ∀ l k b, (f l (k, b, none)).Faults (K l b)) (he : ∀ l k b e, ∃ a, f l (k, b, some e) = pure (a, some e)) :
    (readVaruint >>= g).Faults fun fin s x => SizedFault fin s x ∨ ∃ l w b s', l.toNat = b.length ∧ Sized w b ∧ s = w ++ s' ∧ K l b fin s' x := by
  refine (readVaruint_faults.bind varuint_yields (fun l => by rw [hg]; exact faults_block l (hf l) (he l)) hge).iff fun fin s x => ?_
  constructor
  · rintro (h | ⟨l, m, ⟨lb, h1, rfl⟩, h2 | ⟨b, s', h2, h3, rfl, h4⟩⟩)
    · exact .inl (.inl h)
    · exact .inl (.inr ⟨_, lb, m, h1, rfl, h2⟩)
    · exact .inr ⟨l, lb ++ b, b, s', h2.symm, ⟨lb, by rw [h2]; exact h1, by omega, rfl⟩, by simp, h4⟩
  · rintro ((h | ⟨n, lb, m, h1, rfl, h2⟩) | ⟨l, _, b, s', h1, ⟨lb, h2, h3, rfl⟩, rfl, h4⟩)
    · exact .inl h
    · obtain ⟨l, rfl, h5⟩ := anyLeb_u64 h1
      exact .inr ⟨l, m, ⟨lb, h5, rfl⟩, .inl h2⟩
    · exact .inr ⟨l, b ++ s', ⟨lb, show AnyLeb lb l.toNat by rw [h1]; exact h2, by simp⟩, .inr ⟨b, s', h1.symm, by omega, rfl, h4⟩⟩

theorem Dec.faults_sized_last {α : Type} {f : UInt64 → Nat × Bytes × Option Err → Dec (α × Option Err)} {g : UInt64 × Option Err → Dec (α × Option Err)}
    (hg : ∀ l, g (l, none) = readBytes (goInt l) >>= f l) (hge : ∀ l e, ∃ a, g (l, some e) = pure (a, some e))
    (hf : ∀ l k b, ∃ a, f l (k, b, none) = pure (a, none)) (he : ∀ l k b e, ∃ a, f l (k, b, some e) = pure (a, some e)) : (readVaruint >>= g).Faults SizedFault :=
  (faults_sized hg hge (K := fun _ _ _ _ _ => False) (fun l k b => by obtain ⟨a, ha⟩ := hf l k b; rw [ha]; exact faults_pure a) he).iff fun fin s x => by simp

theorem readString_faults : readString.Faults SizedFault := by
  unfold readString
  exact faults_sized_last (fun _ => rfl) (fun _ _ => ⟨_, rfl⟩) (fun _ _ _ => ⟨_, rfl⟩) fun _ _ _ _ => ⟨_, rfl⟩

theorem bytesT_faults (old : Bytes) : (BytesT.unmarshal old).Faults SizedFault := by
  unfold BytesT.unmarshal
  exact faults_sized_last (fun _ => rfl) (fun _ _ => ⟨_, rfl⟩) (fun _ _ _ => ⟨_, rfl⟩) fun _ _ _ _ => ⟨_, rfl⟩

theorem unmarshalBytes_faults (old : Option Bytes) : (unmarshalBytes old).Faults SizedFault := by
  unfold unmarshalBytes
  exact (bytesT_faults _).map (fun _ => ⟨_, rfl⟩) fun _ _ => ⟨_, rfl⟩

theorem decodeBytes_faults (old : Option Bytes) : (decodeBytes old).Faults SizedFault := by
  unfold decodeBytes
  exact faults_sized_last (fun _ => rfl) (fun _ _ => ⟨_, rfl⟩) (fun _ _ _ => ⟨_, rfl⟩) fun _ _ _ _ => ⟨_, rfl⟩

theorem basic_faults (b : Basic) : b.read.Faults b.Failure := by
  cases b
  case bool => exact readBool_faults
  case string => exact readString_faults
  case u8 => exact readUint8_faults
  case u16 => exact readUint16_faults
  case u32 => exact readUint32_faults
  case u64 => exact readUint64_faults
  case i8 => exact readInt8_faults
  case i16 => exact readInt16_faults
  case i32 => exact readInt32_faults
  case i64 => exact readInt64_faults
  case f32 => exact readFloat32_faults
  case f64 => exact readFloat64_faults
  case int => exact readVarintD_faults
  case uint => exact readVaruint_faults

theorem readKind_faults (b : Basic) (old : b.Val) : (b.readKind old).Faults fun fin s x => b.Wide ∧ b.Failure fin s x ∨ ¬ b.Wide ∧ Unsupported x := by
  have key : ∀ p : Dec (b.Val × Option Err), p.Faults b.Failure → b.Wide → (p >>= fun (v, err) => match err with | some e => pure (old, some e) | none => pure (v, none)).Faults
      fun fin s x => b.Wide ∧ b.Failure fin s x ∨ ¬ b.Wide ∧ Unsupported x := by
    intro p h hb
    have := h.map (f := fun x => match x with | (v, err) => match err with | some e => pure (old, some e) | none => pure (v, none)) (fun _ => ⟨_, rfl⟩) fun _ _ => ⟨_, rfl⟩
    exact this.iff fun fin s x => by simp [hb]
  have h := basic_faults b
  cases b
  case u64 => exact key _ h trivial
  case u32 => exact key _ h trivial
  case i64 => exact key _ h trivial
  case i32 => exact key _ h trivial
  all_goals exact (faults_fail _ _).iff fun fin s x => ⟨fun h => .inr ⟨id, h⟩, fun h => h.elim (fun h => (h.1 : False).elim) fun h => h.2⟩

/-! ### Elements -/

theorem decEach_faults {α : Type} {G : Err → α → Bytes → Bytes → Prop} {F : Err → Bytes → Failure → Prop} {dec : α → Dec (α × Option Err)} (xs : List α) (hg : ∀ x ∈ xs, (dec x).Yields G) (h : ∀ x ∈ xs, (dec x).Faults F) :
    (decEach dec xs).Faults fun fin => FaultAmong (G fin) (F fin) xs.length := by
  induction xs with
  | nil => exact (faults_pure []).iff fun fin s x => ⟨fun h => h.elim, fun ⟨_, _, h, _⟩ => by simp at h⟩
  | cons x xs ih =>
    have ih := ih (fun y hy => hg y (List.mem_cons_of_mem _ hy)) (fun y hy => h y (List.mem_cons_of_mem _ hy))
    apply Faults.iff
    case h =>
      unfold decEach
      exact (h x List.mem_cons_self).bind (hg x List.mem_cons_self) (fun y => ih.map (fun _ => ⟨_, rfl⟩) fun _ _ => ⟨_, rfl⟩) fun _ _ => ⟨_, rfl⟩
    · intro fin s x
      constructor
      · rintro (h | ⟨y, m, h1, ys, m', h2, h3, h4⟩)
        · exact ⟨[], s, by simp, .nil, h⟩
        · exact ⟨y :: ys, m', by simpa using h2, .cons h1 h3, h4⟩
      · rintro ⟨ys, m, h1, h2, h3⟩
        cases h2 with
        | nil => exact .inl h3
        | cons h4 h5 => exact .inr ⟨_, _, h4, _, m, by simpa using h1, h5, h3⟩

theorem makeSlice_faults {α β : Type} {zero : α} {size : Nat} {l : UInt64} {k : List α → Dec (β × Option Err)} {F : Err → Bytes → Failure → Prop} (h : (k (List.replicate l.toNat zero)).Faults F) :
    (makeSlice zero size l k).Faults fun fin s x => (2 ^ 63 ≤ l.toNat ∨ maxAlloc < l.toNat * size) ∧ x = .panic ∨ l.toNat < 2 ^ 63 ∧ l.toNat * size ≤ maxAlloc ∧ F fin s x := by
  unfold makeSlice
  split
  · rename_i h0
    have : ¬ l.toNat < 2 ^ 63 := fun hh => by
      have := (goInt_eq l _).2 ⟨rfl, hh⟩
      omega
    exact (faults_panic _).iff fun _ _ _ => ⟨fun h => .inl ⟨.inl (by omega), h⟩, fun h => h.elim (fun h => h.2) fun h => absurd h.1 this⟩
  · split
    · rename_i h1
      exact (faults_panic _).iff fun _ _ _ => ⟨fun h => .inl ⟨.inr (by omega), h⟩, fun h => h.elim (fun h => h.2) fun h => absurd h.2.1 (by omega)⟩
    · rename_i h0 h1
      have h2 : l.toNat < 2 ^ 63 := ((goInt_eq l l.toNat).1 (goInt_nonneg l (by omega)).symm).2
      exact h.iff fun _ _ _ => ⟨fun h => .inr ⟨h2, by omega, h⟩, fun h => h.elim (fun h => by omega) fun h => h.2.2⟩

/-- A number, then elements. -/
theorem slice_faults {α : Type} {G : Err → α → Bytes → Bytes → Prop} {F : Err → Bytes → Failure → Prop} {size : Nat}
    {β : Type} {g : UInt64 × Option Err → Dec (β × Option Err)}
    (hg : ∀ l, (g (l, none)).Faults fun fin s x => (2 ^ 63 ≤ l.toNat ∨ maxAlloc < l.toNat * size) ∧ x = .panic ∨ l.toNat < 2 ^ 63 ∧ l.toNat * size ≤ maxAlloc ∧ FaultAmong (G fin) (F fin) l.toNat s x)
    (hge : ∀ l e, ∃ a, g (l, some e) = pure (a, some e)) : (readVaruint >>= g).Faults fun fin => FaultSlice size (G fin) (F fin) fin := by
  refine (readVaruint_faults.bind varuint_yields hg hge).iff fun fin s x => or_congr Iff.rfl ⟨?_, ?_⟩
  · rintro ⟨l, m, ⟨lb, h1, rfl⟩, h⟩
    exact ⟨l.toNat, lb, m, h1, rfl, h⟩
  · rintro ⟨n, lb, m, h1, rfl, h⟩
    obtain ⟨l, rfl, h5⟩ := anyLeb_u64 h1
    exact ⟨l, m, ⟨lb, h5, rfl⟩, h⟩

theorem decSlice_faults {α : Type} {G : Err → α → Bytes → Bytes → Prop} {F : Err → Bytes → Failure → Prop} (zero : α) (size : Nat) {dec : α → Dec (α × Option Err)} (old : List α)
    (hg : (dec zero).Yields G) (h : (dec zero).Faults F) : (decSlice zero size dec old).Faults fun fin => FaultSlice size (G fin) (F fin) fin := by
  unfold decSlice
  refine slice_faults (fun l => ?_) fun _ _ => ⟨_, rfl⟩
  have := decEach_faults (List.replicate l.toNat zero) (fun x hx => by rw [List.eq_of_mem_replicate hx]; exact hg) (fun x hx => by rw [List.eq_of_mem_replicate hx]; exact h)
  rw [List.length_replicate] at this
  exact makeSlice_faults this

theorem decodeSlice_faults {α : Type} {G : Err → α → Bytes → Bytes → Prop} {F : Err → Bytes → Failure → Prop} (zero : α) (size : Nat) {dec : α → Dec (α × Option Err)}
    (hg : (dec zero).Yields G) (h : (dec zero).Faults F) : (decodeSlice zero size dec none).Faults fun fin => FaultSlice size (G fin) (F fin) fin := by
  unfold decodeSlice
  refine slice_faults (fun l => ?_) fun _ _ => ⟨_, rfl⟩
  have := decEach_faults (List.replicate l.toNat zero) (fun x hx => by rw [List.eq_of_mem_replicate hx]; exact hg) (fun x hx => by rw [List.eq_of_mem_replicate hx]; exact h)
  rw [List.length_replicate] at this
  show Dec.Faults (if _ then _ else _) _
  split
  · exact makeSlice_faults (this.map (fun _ => ⟨_, rfl⟩) fun _ _ => ⟨_, rfl⟩)
  · rename_i hl
    have hz : l.toNat = 0 := ((goInt_eq l 0).1 (by simpa using (Decidable.not_not.1 hl).symm)).1
    rw [hz]
    refine Faults.iff (Faults.map (decEach_faults (G := G) (F := F) [] (fun _ h => nomatch h) fun _ h => nomatch h) (fun _ => ⟨_, rfl⟩) fun _ _ => ⟨_, rfl⟩) fun fin s x => ?_
    constructor
    · exact fun h => .inr ⟨by omega, by omega, h⟩
    · rintro (h | h)
      · omega
      · exact h.2.2

theorem mapLoop_faults {α β : Type} [DecidableEq α] {dk : Dec (α × Option Err)} {dv : Dec (β × Option Err)} {K : Err → α → Bytes → Bytes → Prop} {V : Err → β → Bytes → Bytes → Prop} {FK FV : Err → Bytes → Failure → Prop}
    (hk : dk.Yields K) (hv : dv.Yields V) (hfk : dk.Faults FK) (hfv : dv.Faults FV) (n : Nat) (m : List (α × β)) :
    (mapLoop dk dv n m).Faults fun fin => FaultAmong (fun (y : α × β) s r => ∃ m, K fin y.1 s m ∧ V fin y.2 m r) (fun s x => FK fin s x ∨ ∃ v m, K fin v s m ∧ FV fin m x) n := by
  induction n generalizing m with
  | zero => exact (faults_pure m).iff fun fin s x => ⟨fun h => h.elim, fun ⟨_, _, h, _⟩ => by simp at h⟩
  | succ n ih =>
    apply Faults.iff
    case h =>
      unfold mapLoop
      exact hfk.bind hk (fun k => hfv.bind hv (fun v => ih (mapSet k v m)) fun _ _ => ⟨_, rfl⟩) fun _ _ => ⟨_, rfl⟩
    · intro fin s x
      constructor
      · rintro (h | ⟨k, m1, h1, (h2 | ⟨v, m2, h2, ys, m3, h3, h4, h5⟩)⟩)
        · exact ⟨[], s, by simp, .nil, .inl h⟩
        · exact ⟨[], s, by simp, .nil, .inr ⟨k, m1, h1, h2⟩⟩
        · exact ⟨(k, v) :: ys, m3, by simpa using h3, .cons ⟨m1, h1, h2⟩ h4, h5⟩
      · rintro ⟨ys, m, h1, h2, h3⟩
        cases h2 with
        | nil =>
          rcases h3 with h3 | ⟨k, m1, h3, h4⟩
          · exact .inl h3
          · exact .inr ⟨k, m1, h3, .inl h4⟩
        | cons h4 h5 =>
          obtain ⟨m1, h6, h7⟩ := h4
          exact .inr ⟨_, m1, h6, .inr ⟨_, _, h7, _, m, by simpa using h1, h5, h3⟩⟩

/-- A number, then a loop. -/
theorem loop_faults {α β : Type} {R : Err → α → Bytes → Bytes → Prop} {F : Err → Bytes → Failure → Prop} {g : UInt64 × Option Err → Dec (β × Option Err)}
    (hg : ∀ l, (g (l, none)).Faults fun fin => FaultAmong (R fin) (F fin) (goInt l).toNat) (hge : ∀ l e, ∃ a, g (l, some e) = pure (a, some e)) :
    (readVaruint >>= g).Faults fun fin => FaultLoop (R fin) (F fin) fin := by
  refine (readVaruint_faults.bind varuint_yields hg hge).iff fun fin s x => or_congr Iff.rfl ⟨?_, ?_⟩
  · rintro ⟨l, m, ⟨lb, h1, rfl⟩, h2⟩
    exact ⟨_, lb, m, goInt_anyCount l lb _ h1 rfl, rfl, h2⟩
  · rintro ⟨n, lb, m, h1, rfl, h2⟩
    obtain ⟨l, h4, h5⟩ := anyCount_goInt _ _ h1
    exact ⟨l, m, ⟨lb, h4, rfl⟩, h5 ▸ h2⟩

theorem decodeMap_faults {α β : Type} [DecidableEq α] {dk : Dec (α × Option Err)} {dv : Dec (β × Option Err)} {K : Err → α → Bytes → Bytes → Prop} {V : Err → β → Bytes → Bytes → Prop} {FK FV : Err → Bytes → Failure → Prop}
    (hk : dk.Yields K) (hv : dv.Yields V) (hfk : dk.Faults FK) (hfv : dv.Faults FV) (old : Option (List (α × β))) :
    (decodeMap dk dv old).Faults fun fin => FaultLoop (fun (y : α × β) s r => ∃ m, K fin y.1 s m ∧ V fin y.2 m r) (fun s x => FK fin s x ∨ ∃ v m, K fin v s m ∧ FV fin m x) fin := by
  unfold decodeMap
  exact loop_faults (R := fun fin (y : α × β) s r => ∃ m, K fin y.1 s m ∧ V fin y.2 m r) (F := fun fin s x => FK fin s x ∨ ∃ v m, K fin v s m ∧ FV fin m x)
    (fun l => (mapLoop_faults hk hv hfk hfv _ _).map (fun _ => ⟨_, rfl⟩) fun _ _ => ⟨_, rfl⟩) fun _ _ => ⟨_, rfl⟩

end Verif
