import Verif.Spec.Takes
import Verif.Props.Prim
import Verif.Lemmas.Reflect
/-! Exact acceptance of decoders, by composition. -/
namespace Verif
namespace Dec
variable {α β : Type}

/-- Decoding never succeeds. -/
def Never (p : Dec (α × Option Err)) : Prop := ∀ fin bs a r, p.runE fin bs ≠ .ok (a, none) r

theorem never_fail (a : α) (e : Err) : (pure (a, some e) : Dec (α × Option Err)).Never := fun _ _ _ _ h => by cases h
theorem never_panic (w : String) : (Dec.panic w : Dec (α × Option Err)).Never := fun _ _ _ _ h => by cases h
theorem never_diverge : (Dec.diverge : Dec (α × Option Err)).Never := fun _ _ _ _ h => by cases h

theorem Never.exactly {p : Dec (α × Option Err)} {R : α → Bytes → Prop} (h : p.Never) (hR : ∀ a w, ¬ R a w) : p.Exactly R :=
  fun fin bs a r => ⟨fun hr => absurd hr (h fin bs a r), fun ⟨_, _, hw⟩ => absurd hw (hR _ _)⟩

theorem Exactly.never {p : Dec (α × Option Err)} (h : p.Exactly fun _ _ => False) : p.Never := fun fin bs a r hr => by
  obtain ⟨_, _, hf⟩ := (h fin bs a r).1 hr
  exact hf

theorem Exactly.iff {p : Dec (α × Option Err)} {R S : α → Bytes → Prop} (h : p.Exactly R) (hRS : ∀ a w, R a w ↔ S a w) : p.Exactly S := by
  intro fin bs a r
  rw [h fin bs a r]
  exact exists_congr fun w => and_congr_right fun _ => hRS a w

theorem exactly_pure (a : α) : (pure (a, none) : Dec (α × Option Err)).Exactly fun b w => b = a ∧ w = [] := by
  intro fin bs b r
  constructor
  · intro h
    cases h
    exact ⟨[], rfl, rfl, rfl⟩
  · rintro ⟨w, rfl, rfl, rfl⟩
    rfl

theorem Exactly.reads {p : Dec (α × Option Err)} {R : α → Bytes → Prop} (h : p.Exactly R) {a : α} {w : Bytes} (hw : R a w) : p.Reads w a :=
  fun fin rest => (h fin _ a rest).2 ⟨w, rfl, hw⟩

theorem exactly_bind {p : Dec β} {f : β → Dec (α × Option Err)} {ok : β → Prop} {Q : β → Bytes → Prop} {S : β → α → Bytes → Prop}
    (hp : ∀ fin bs b r, ok b → (p.runE fin bs = .ok b r ↔ ∃ w, bs = w ++ r ∧ Q b w)) (hbad : ∀ fin bs b r, ¬ ok b → p.runE fin bs = .ok b r → ∀ a r', (f b).runE fin r ≠ .ok (a, none) r')
    (hf : ∀ b, ok b → (f b).Exactly (S b)) : (p >>= f).Exactly fun a w => ∃ b w1 w2, ok b ∧ Q b w1 ∧ S b a w2 ∧ w = w1 ++ w2 := by
  intro fin bs a r
  constructor
  · intro h
    obtain ⟨b, r', h1, h2⟩ := Dec.runE_bind_ok h
    by_cases hb : ok b
    · obtain ⟨w1, e1, hq⟩ := (hp fin bs b r' hb).1 h1
      obtain ⟨w2, e2, hs⟩ := (hf b hb fin r' a r).1 h2
      exact ⟨w1 ++ w2, by rw [e1, e2, List.append_assoc], b, w1, w2, hb, hq, hs, rfl⟩
    · exact absurd h2 (hbad fin bs b r' hb h1 a r)
  · rintro ⟨w, rfl, b, w1, w2, hb, hq, hs, rfl⟩
    rw [Dec.runE_bind, (hp fin (w1 ++ w2 ++ r) b (w2 ++ r) hb).2 ⟨w1, by rw [List.append_assoc], hq⟩]
    exact (hf b hb fin (w2 ++ r) a r).2 ⟨w2, rfl, hs⟩

/-- Read, stop on an error, go on. -/
theorem Exactly.bind {p : Dec (β × Option Err)} {R : β → Bytes → Prop} {f : β × Option Err → Dec (α × Option Err)} {S : β → α → Bytes → Prop} (hp : p.Exactly R)
    (hf : ∀ b, (f (b, none)).Exactly (S b)) (he : ∀ b e, (f (b, some e)).Never) : (p >>= f).Exactly fun a w => ∃ b w1 w2, R b w1 ∧ S b a w2 ∧ w = w1 ++ w2 := by
  refine (exactly_bind (ok := fun b => b.2 = none) (Q := fun b w => R b.1 w) (S := fun b => S b.1) ?_ ?_ ?_).iff ?_
  · rintro fin bs ⟨b, e⟩ r rfl
    exact hp fin bs b r
  · rintro fin bs ⟨b, e⟩ r hne - a r'
    cases e with
    | none => exact absurd rfl hne
    | some e => exact he b e fin r a r'
  · rintro ⟨b, e⟩ rfl
    exact hf b
  · intro a w
    constructor
    · rintro ⟨⟨b, e⟩, w1, w2, -, h⟩
      exact ⟨b, w1, w2, h⟩
    · rintro ⟨b, w1, w2, h⟩
      exact ⟨(b, none), w1, w2, rfl, h⟩

theorem Exactly.map {p : Dec (β × Option Err)} {R : β → Bytes → Prop} {f : β × Option Err → Dec (α × Option Err)} {g : β → α} (hp : p.Exactly R)
    (hf : ∀ b, f (b, none) = pure (g b, none)) (he : ∀ b e, ∃ a e', f (b, some e) = pure (a, some e')) : (p >>= f).Exactly fun a w => ∃ b, R b w ∧ a = g b := by
  refine (Exactly.bind (S := fun b a w => a = g b ∧ w = []) hp ?_ ?_).iff ?_
  · intro b
    rw [hf]
    exact exactly_pure _
  · intro b e
    obtain ⟨a, e', h⟩ := he b e
    rw [h]
    exact never_fail _ _
  · intro a w
    constructor
    · rintro ⟨b, w1, w2, h1, ⟨rfl, rfl⟩, rfl⟩
      exact ⟨b, by rw [List.append_nil]; exact h1, rfl⟩
    · rintro ⟨b, h1, rfl⟩
      exact ⟨b, w, [], h1, ⟨rfl, rfl⟩, (List.append_nil _).symm⟩

theorem Exactly.same {p : Dec (α × Option Err)} {R : α → Bytes → Prop} {f : α × Option Err → Dec (α × Option Err)} (hp : p.Exactly R)
    (hf : ∀ b, f (b, none) = pure (b, none)) (he : ∀ b e, ∃ a e', f (b, some e) = pure (a, some e')) : (p >>= f).Exactly R :=
  (hp.map (g := id) hf he).iff fun a w => ⟨fun ⟨_, h, e⟩ => e ▸ h, fun h => ⟨a, h, rfl⟩⟩

end Dec
open Dec

theorem readBytes_ok (n : Int) (fin : Err) (bs b r : Bytes) (k : Nat) : (readBytes n).runE fin bs = .ok (k, b, none) r ↔ bs = b ++ r ∧ (b.length : Int) = n ∧ k = b.length ∧ b.length ≤ maxAlloc := by
  constructor
  · intro h
    obtain ⟨h0, h1, h2⟩ := readBytes_inv n fin bs r b k h
    have hm : n.toNat ≤ maxAlloc := by
      unfold readBytes at h
      split at h
      · cases h
      · split at h
        · rename_i h3; rw [h3]; decide
        · split at h
          · cases h
          · omega
    have hl : b.length = n.toNat := by omega
    refine ⟨h2, h1, ?_, by omega⟩
    have := readBytes_reads fin b.length (by omega) b r rfl
    rw [h1, ← h2, h] at this
    cases this
    rfl
  · rintro ⟨rfl, rfl, rfl, hm⟩
    exact readBytes_reads fin b.length hm b r rfl

theorem Dec.exactly_bytes {α : Type} {n : Int} {f : Nat × Bytes × Option Err → Dec (α × Option Err)} {S : Bytes → α → Bytes → Prop} (hf : ∀ b : Bytes, (b.length : Int) = n → (f (b.length, b, none)).Exactly (S b))
    (he : ∀ k b e, (f (k, b, some e)).Never) : (readBytes n >>= f).Exactly fun a w => ∃ b w2 : Bytes, (b.length : Int) = n ∧ b.length ≤ maxAlloc ∧ S b a w2 ∧ w = b ++ w2 := by
  refine (exactly_bind (ok := fun b => b.2.2 = none ∧ b.1 = b.2.1.length ∧ (b.2.1.length : Int) = n)
    (Q := fun b w => w = b.2.1 ∧ b.2.1.length ≤ maxAlloc) (S := fun b => S b.2.1) ?_ ?_ ?_).iff ?_
  · rintro fin bs ⟨k, b, e⟩ r ⟨rfl, hk, hn⟩
    rw [readBytes_ok]
    constructor
    · rintro ⟨rfl, _, _, h⟩
      exact ⟨b, rfl, rfl, h⟩
    · rintro ⟨w, rfl, rfl, h⟩
      exact ⟨rfl, hn, hk, h⟩
  · rintro fin bs ⟨k, b, e⟩ r hne h a r'
    cases e with
    | none =>
      obtain ⟨_, h1, h2, _⟩ := (readBytes_ok n fin bs b r k).1 h
      exact absurd ⟨rfl, h2, h1⟩ hne
    | some e => exact he k b e fin r a r'
  · rintro ⟨k, b, e⟩ ⟨h1, h2, hn⟩
    obtain rfl : e = none := h1
    obtain rfl : k = b.length := h2
    exact hf b hn
  · intro a w
    constructor
    · rintro ⟨⟨k, b, e⟩, w1, w2, ⟨_, _, hn⟩, ⟨rfl, hm⟩, hs, rfl⟩
      exact ⟨_, w2, hn, hm, hs, rfl⟩
    · rintro ⟨b, w2, hn, hm, hs, rfl⟩
      exact ⟨(b.length, b, none), b, w2, ⟨rfl, rfl, hn⟩, ⟨rfl, hm⟩, hs, rfl⟩

theorem Dec.exactly_bytes_map {α : Type} {n : Nat} {f : Nat × Bytes × Option Err → Dec (α × Option Err)} (g : Bytes → α) (hn : n ≤ maxAlloc) (hf : ∀ b : Bytes, b.length = n → f (b.length, b, none) = pure (g b, none))
    (he : ∀ k b e, ∃ a e', f (k, b, some e) = pure (a, some e')) : (readBytes n >>= f).Exactly fun a w => w.length = n ∧ a = g w := by
  refine (exactly_bytes (S := fun b a w => a = g b ∧ w = []) ?_ ?_).iff ?_
  · intro b hb
    rw [hf b (by omega)]
    exact exactly_pure _
  · intro k b e
    obtain ⟨a, e', h⟩ := he k b e
    rw [h]
    exact never_fail _ _
  · intro a w
    constructor
    · rintro ⟨b, w2, h1, h2, ⟨rfl, rfl⟩, rfl⟩
      exact ⟨by rw [List.append_nil]; omega, by rw [List.append_nil]⟩
    · rintro ⟨h1, rfl⟩
      exact ⟨w, [], by omega, by omega, ⟨rfl, rfl⟩, (List.append_nil _).symm⟩

/-! ### Reading methods -/

theorem readByte_exactly : readByte.Exactly fun b w => w = [b] := by
  intro fin bs b r
  constructor
  · intro h
    exact ⟨[b], readByte_inv fin bs r b h, rfl⟩
  · rintro ⟨w, rfl, rfl⟩
    exact readByte_cons fin b r

theorem readUint8_exactly : readUint8.Exactly fun b w => w = [b] := readByte_exactly.same (fun _ => rfl) fun _ _ => ⟨_, _, rfl⟩

theorem readBool_exactly : readBool.Exactly fun v w => ∃ c : UInt8, w = [c] ∧ v = decide (c ≠ 0) := by
  refine (readByte_exactly.map (g := fun b => decide (b ≠ 0)) ?_ fun _ _ => ⟨_, _, rfl⟩).iff fun a w => Iff.rfl
  intro b
  show pure (b != 0, none) = _
  congr 2
  by_cases h : b = 0 <;> simp [h]

theorem leForm_eq (n : Nat) (w : Bytes) (v : Nat) : LeForm n v w ↔ w.length = n ∧ v = leNat w := by
  unfold LeForm
  rw [leValue_eq_leNat]
  exact and_congr_right fun _ => eq_comm

theorem readUint64_exactly : readUint64.Exactly fun v w => LeForm 8 v.toNat w := by
  refine (exactly_bytes_map (n := 8) (fun b => (leNat b).toUInt64) (by decide) (fun _ _ => rfl) fun _ _ _ => ⟨_, _, rfl⟩).iff fun v w => ?_
  rw [leForm_eq]
  refine and_congr_right fun hl => ?_
  have := leNat_lt w
  rw [hl] at this
  constructor
  · rintro rfl
    simp; omega
  · intro h
    apply UInt64.toNat.inj
    rw [h]; simp; omega

theorem readUint32_exactly : readUint32.Exactly fun v w => LeForm 4 v.toNat w := by
  refine (exactly_bytes_map (n := 4) (fun b => (leNat b).toUInt32) (by decide) (fun _ _ => rfl) fun _ _ _ => ⟨_, _, rfl⟩).iff fun v w => ?_
  rw [leForm_eq]
  refine and_congr_right fun hl => ?_
  have := leNat_lt w
  rw [hl] at this
  constructor
  · rintro rfl
    simp; omega
  · intro h
    apply UInt32.toNat.inj
    rw [h]; simp; omega

theorem readUint16_exactly : readUint16.Exactly fun v w => LeForm 2 v.toNat w := by
  refine (exactly_bytes_map (n := 2) (fun b => (leNat b).toUInt16) (by decide) (fun _ _ => rfl) fun _ _ _ => ⟨_, _, rfl⟩).iff fun v w => ?_
  rw [leForm_eq]
  refine and_congr_right fun hl => ?_
  have := leNat_lt w
  rw [hl] at this
  constructor
  · rintro rfl
    simp; omega
  · intro h
    apply UInt16.toNat.inj
    rw [h]; simp; omega

theorem u8_form (v : UInt8) (w : Bytes) : LeForm 1 v.toNat w ↔ w = [v] := by
  rw [leForm_eq]
  constructor
  · rintro ⟨h1, h2⟩
    match w, h1 with
    | [c], _ => rw [UInt8.toNat.inj (h2.trans (show leNat [c] = c.toNat by simp [leNat]))]
  · rintro rfl
    simp [leNat]

theorem readInt64_exactly : readInt64.Exactly fun v w => LeFormI 8 v.toInt w := by
  refine (readUint64_exactly.map (g := UInt64.toInt64) (fun _ => rfl) fun _ _ => ⟨_, _, rfl⟩).iff fun v w => ?_
  unfold LeFormI LeForm
  constructor
  · rintro ⟨u, ⟨h1, h2⟩, rfl⟩
    refine ⟨h1, ?_⟩
    rw [h2, toInt64_toInt]
    have := u.toNat_lt
    rw [Int.bmod_def]; omega
  · rintro ⟨h1, h2⟩
    refine ⟨v.toUInt64, ⟨h1, ?_⟩, by simp⟩
    have : v = v.toUInt64.toInt64 := by simp
    rw [this, toInt64_toInt, Int.bmod_def] at h2
    have := v.toUInt64.toNat_lt
    omega

theorem readInt32_exactly : readInt32.Exactly fun v w => LeFormI 4 v.toInt w := by
  refine (readUint32_exactly.map (g := UInt32.toInt32) (fun _ => rfl) fun _ _ => ⟨_, _, rfl⟩).iff fun v w => ?_
  have key : ∀ u : UInt32, u.toInt32.toInt = (u.toNat : Int).bmod (2 ^ 32) := fun u => BitVec.toInt_eq_toNat_bmod _
  unfold LeFormI LeForm
  constructor
  · rintro ⟨u, ⟨h1, h2⟩, rfl⟩
    refine ⟨h1, ?_⟩
    rw [h2, key]
    have := u.toNat_lt
    rw [Int.bmod_def]; omega
  · rintro ⟨h1, h2⟩
    refine ⟨v.toUInt32, ⟨h1, ?_⟩, by simp⟩
    have : v = v.toUInt32.toInt32 := by simp
    rw [this, key, Int.bmod_def] at h2
    have := v.toUInt32.toNat_lt
    omega

theorem readInt16_exactly : readInt16.Exactly fun v w => LeFormI 2 v.toInt w := by
  refine (readUint16_exactly.map (g := UInt16.toInt16) (fun _ => rfl) fun _ _ => ⟨_, _, rfl⟩).iff fun v w => ?_
  have key : ∀ u : UInt16, u.toInt16.toInt = (u.toNat : Int).bmod (2 ^ 16) := fun u => BitVec.toInt_eq_toNat_bmod _
  unfold LeFormI LeForm
  constructor
  · rintro ⟨u, ⟨h1, h2⟩, rfl⟩
    refine ⟨h1, ?_⟩
    rw [h2, key]
    have := u.toNat_lt
    rw [Int.bmod_def]; omega
  · rintro ⟨h1, h2⟩
    refine ⟨v.toUInt16, ⟨h1, ?_⟩, by simp⟩
    have : v = v.toUInt16.toInt16 := by simp
    rw [this, key, Int.bmod_def] at h2
    have := v.toUInt16.toNat_lt
    omega

theorem readInt8_exactly : readInt8.Exactly fun v w => LeFormI 1 v.toInt w := by
  refine (readByte_exactly.map (g := UInt8.toInt8) (fun _ => rfl) fun _ _ => ⟨_, _, rfl⟩).iff fun v w => ?_
  have key : ∀ u : UInt8, u.toInt8.toInt = (u.toNat : Int).bmod (2 ^ 8) := fun u => BitVec.toInt_eq_toNat_bmod _
  have hf : ∀ u : UInt8, w = [u] ↔ LeForm 1 u.toNat w := fun u => (u8_form u w).symm
  unfold LeFormI
  constructor
  · rintro ⟨u, hw, rfl⟩
    obtain ⟨h1, h2⟩ := (hf u).1 hw
    refine ⟨h1, ?_⟩
    rw [h2, key]
    have := u.toNat_lt
    rw [Int.bmod_def]; omega
  · rintro ⟨h1, h2⟩
    refine ⟨v.toUInt8, (hf _).2 ⟨h1, ?_⟩, by simp⟩
    have : v = v.toUInt8.toInt8 := by simp
    rw [this, key, Int.bmod_def] at h2
    have := v.toUInt8.toNat_lt
    omega

theorem readVaruint_exactly : readVaruint.Exactly fun v w => AnyLeb w v.toNat := by
  intro fin bs v r
  constructor
  · intro h
    rcases C05_readVaruint_total fin bs with ⟨p, rest, hb, h1, h2, h3, h4⟩ | ⟨p, rest, _, _, _, _, h4⟩ | ⟨_, _, e, h4, _⟩
    · rw [h4] at h
      cases h
      refine ⟨p, hb, h1, h2, ?_, UInt64.toNat_lt _⟩
      simp; omega
    · rw [h4] at h; cases h
    · rw [h4] at h; cases h
  · rintro ⟨w, rfl, h1, h2, h3, h4⟩
    rw [readVaruint_leb fin w r h1 h2 (by omega), h3]
    congr 2
    apply UInt64.toNat.inj
    simp

theorem unzigzag_iff (u : UInt64) (v : Int64) : v = unzigzag u ↔ (u.toNat : Int) = if 0 ≤ v.toInt then 2 * v.toInt else -2 * v.toInt - 1 := by
  have hz : ∀ v : Int64, (u.toNat : Int) = (if 0 ≤ v.toInt then 2 * v.toInt else -2 * v.toInt - 1) → v = unzigzag u := by
    intro v h
    have : zigzag v = u := by
      apply UInt64.toNat.inj
      rw [zigzag_toNat]
      split at h <;> rename_i h0
      · rw [if_pos h0]; omega
      · rw [if_neg h0]; omega
    rw [← this, unzigzag_zigzag]
  constructor
  · intro h
    have hu := u.toNat_lt
    have hi : ∀ i : Int, -2 ^ 63 ≤ i → i < 2 ^ 63 → (Int64.ofInt i).toInt = i := fun i h1 h2 => Int64.toInt_ofInt_of_le h1 h2
    by_cases hp : u.toNat % 2 = 0
    · have e := hi (u.toNat / 2) (by omega) (by omega)
      have := hz (Int64.ofInt (u.toNat / 2)) (by rw [e, if_pos (by omega)]; omega)
      rw [h, ← this, e, if_pos (by omega)]; omega
    · have e := hi (-((u.toNat + 1) / 2)) (by omega) (by omega)
      have := hz (Int64.ofInt (-((u.toNat + 1) / 2))) (by rw [e, if_neg (by omega)]; omega)
      rw [h, ← this, e, if_neg (by omega)]; omega
  · exact hz v

theorem readVarintD_exactly : readVarintD.Exactly fun v w => ∃ n : Nat, AnyLeb w n ∧ (n : Int) = if 0 ≤ v.toInt then 2 * v.toInt else -2 * v.toInt - 1 := by
  have e : readVarintD.Exactly fun v w => ∃ u : UInt64, AnyLeb w u.toNat ∧ v = unzigzag u := by
    have h : (readUvarint readByte).Exactly fun v w => AnyLeb w v.toNat := by
      intro fin bs v r
      rw [← readVaruint_exactly fin bs v r]
      unfold readVaruint
      rw [Dec.runE_bind]
      cases (readUvarint readByte).runE fin bs with
      | ok a r' =>
        obtain ⟨x, _ | e⟩ := a <;> simp
      | panic w => simp
      | diverge => simp
    exact (h.map (g := unzigzag) (fun _ => rfl) fun _ _ => ⟨_, _, rfl⟩).same (fun _ => rfl) fun _ _ => ⟨_, _, rfl⟩
  refine e.iff fun v w => ?_
  constructor
  · rintro ⟨u, h1, h2⟩
    exact ⟨_, h1, (unzigzag_iff u v).1 h2⟩
  · rintro ⟨n, h1, h2⟩
    have : n.toUInt64.toNat = n := by have := h1.2.2.2; simp; omega
    exact ⟨n.toUInt64, by rw [this]; exact h1, (unzigzag_iff _ v).2 (by rw [this]; exact h2)⟩

theorem goInt_eq (l : UInt64) (n : Nat) : goInt l = n ↔ l.toNat = n ∧ n < 2 ^ 63 := by
  have hl := l.toNat_lt
  unfold goInt
  rw [toInt64_toInt, Int.bmod_def]
  omega

/-- length, then that many bytes -/
theorem Dec.exactly_sized {α : Type} {f : UInt64 × Option Err → Dec (α × Option Err)} (g : Bytes → α)
    (hf : ∀ l, (f (l, none)).Exactly fun a w => (w.length : Int) = goInt l ∧ w.length ≤ maxAlloc ∧ a = g w) (he : ∀ b e, (f (b, some e)).Never) :
    (readVaruint >>= f).Exactly fun a w => ∃ b, Sized w b ∧ a = g b := by
  refine (readVaruint_exactly.bind hf he).iff fun a w => ?_
  constructor
  · rintro ⟨l, w1, w2, h1, ⟨h2, h3, rfl⟩, rfl⟩
    rw [eq_comm, goInt_eq] at h2
    exact ⟨w2, ⟨w1, h2.1 ▸ h1, h3, rfl⟩, rfl⟩
  · rintro ⟨b, ⟨lb, h1, h2, rfl⟩, rfl⟩
    have : b.length.toUInt64.toNat = b.length := by have := h1.2.2.2; simp; omega
    refine ⟨b.length.toUInt64, lb, b, by rw [this]; exact h1, ⟨((goInt_eq _ _).2 ⟨this, ?_⟩).symm, h2, rfl⟩, rfl⟩
    have : maxAlloc < 2 ^ 63 := by decide
    omega

theorem Dec.exactly_bytes_int {α : Type} {n : Int} {f : Nat × Bytes × Option Err → Dec (α × Option Err)} (g : Bytes → α) (hf : ∀ b : Bytes, (b.length : Int) = n → f (b.length, b, none) = pure (g b, none))
    (he : ∀ k b e, ∃ a e', f (k, b, some e) = pure (a, some e')) : (readBytes n >>= f).Exactly fun a w => (w.length : Int) = n ∧ w.length ≤ maxAlloc ∧ a = g w := by
  refine (exactly_bytes (S := fun b a w => a = g b ∧ w = []) ?_ ?_).iff ?_
  · intro b hb
    rw [hf b hb]
    exact exactly_pure _
  · intro k b e
    obtain ⟨a, e', h⟩ := he k b e
    rw [h]
    exact never_fail _ _
  · intro a w
    constructor
    · rintro ⟨b, w2, h1, h2, ⟨rfl, rfl⟩, rfl⟩
      rw [List.append_nil]
      exact ⟨h1, h2, rfl⟩
    · rintro ⟨h1, h2, rfl⟩
      exact ⟨w, [], h1, h2, ⟨rfl, rfl⟩, (List.append_nil _).symm⟩

theorem bytes_exactly (old : Bytes) : (BytesT.unmarshal old).Exactly fun v w => Sized w v :=
  (exactly_sized id (fun _ => exactly_bytes_int id (fun _ _ => rfl) fun _ _ _ => ⟨_, _, rfl⟩) fun _ _ => never_fail _ _).iff
    fun v _ => ⟨fun ⟨_, h, e⟩ => e ▸ h, fun h => ⟨v, h, rfl⟩⟩

theorem readString_exactly : readString.Exactly fun v w => Sized w v :=
  (exactly_sized id (fun _ => exactly_bytes_int id (fun _ _ => rfl) fun _ _ _ => ⟨_, _, rfl⟩) fun _ _ => never_fail _ _).iff
    fun v _ => ⟨fun ⟨_, h, e⟩ => e ▸ h, fun h => ⟨v, h, rfl⟩⟩

theorem basic_exactly (b : Basic) : b.read.Exactly b.Takes := by
  cases b with
  | bool => exact readBool_exactly
  | string => exact readString_exactly
  | u8 => exact readUint8_exactly.iff fun v w => (u8_form v w).symm
  | u16 => exact readUint16_exactly
  | u32 => exact readUint32_exactly
  | u64 => exact readUint64_exactly
  | i8 => exact readInt8_exactly
  | i16 => exact readInt16_exactly
  | i32 => exact readInt32_exactly
  | i64 => exact readInt64_exactly
  | f32 => exact readUint32_exactly.same (fun _ => rfl) fun _ _ => ⟨_, _, rfl⟩
  | f64 => exact readUint64_exactly.same (fun _ => rfl) fun _ _ => ⟨_, _, rfl⟩
  | int => exact readVarintD_exactly
  | uint => exact readVaruint_exactly

end Verif
