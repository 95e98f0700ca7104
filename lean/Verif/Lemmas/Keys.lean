import Verif.Model.Keys
import Verif.Spec.Keys
import Verif.Props.Base58
import Verif.Lemmas.PrimStrict
import Verif.Lemmas.Codec
import Verif.Lemmas.Numbers
namespace Verif

theorem lebValue_lt (xs : Bytes) : lebValue xs < 128 ^ xs.length := by
  induction xs with
  | nil => simp
  | cons x xs ih =>
    simp only [lebValue_cons, List.length_cons, Nat.pow_succ]
    have := Nat.mod_lt x.toNat (y := 128) (by decide)
    omega

theorem lebValue_snoc (xs : Bytes) (l : UInt8) : lebValue (xs ++ [l]) = lebValue xs + l.toNat % 128 * 128 ^ xs.length := by
  induction xs with
  | nil => simp [lebValue_cons]
  | cons x xs ih =>
    simp only [List.cons_append, lebValue_cons, ih, List.length_cons, Nat.pow_succ, Nat.mul_add]
    have : 128 * (l.toNat % 128 * 128 ^ xs.length) = l.toNat % 128 * (128 ^ xs.length * 128) := by
      rw [Nat.mul_left_comm, Nat.mul_comm 128]
    omega

theorem putUvarint_minLeb (cap : Nat) (x : UInt64) (bs : Bytes) (h : putUvarint cap x = some bs) : MinLeb bs x.toNat := by
  obtain ⟨a, b, c, d⟩ := putUvarint_spec _ _ _ h
  refine ⟨a, b, ?_⟩
  rcases d with d | d
  · exact Or.inl d
  · right
    intro hl
    obtain ⟨init, last, rfl, _, _⟩ := a
    simp at hl
    subst hl
    rw [lebValue_snoc] at b
    simp at d b
    have := lebValue_lt init
    omega

theorem isLeb_unique_prefix (a b : Bytes) (ha : IsLeb a) (hb : IsLeb b) (h : a.length = b.length) (hv : lebValue a = lebValue b) : a = b := by
  induction a generalizing b with
  | nil => exact absurd ha not_isLeb_nil
  | cons x a ih =>
    cases b with
    | nil => exact absurd hb not_isLeb_nil
    | cons y b =>
      rw [isLeb_cons] at ha hb
      rw [lebValue_cons, lebValue_cons] at hv
      simp only [List.length_cons, Nat.add_right_cancel_iff] at h
      have hx : x.toNat < 256 := x.toNat_lt
      have hy : y.toNat < 256 := y.toNat_lt
      rcases ha with ⟨rfl, ha⟩ | ⟨ha, ha'⟩
      · have : b = [] := List.eq_nil_of_length_eq_zero h.symm
        subst this
        rcases hb with ⟨_, hb⟩ | ⟨_, hb⟩
        · simp at hv
          have : x.toNat = y.toNat := by omega
          rw [UInt8.toNat_inj.1 this]
        · exact absurd hb not_isLeb_nil
      · rcases hb with ⟨rfl, hb⟩ | ⟨hb, hb'⟩
        · have : a = [] := List.eq_nil_of_length_eq_zero h
          subst this
          exact absurd ha' not_isLeb_nil
        · have : x.toNat = y.toNat := by omega
          rw [UInt8.toNat_inj.1 this, ih b ha' hb' h (by omega)]

/-- The length of the minimal form is determined by the number. -/
theorem minLeb_bounds (lb : Bytes) (n : Nat) (h : MinLeb lb n) : n < 128 ^ lb.length ∧ (lb.length = 1 ∨ 128 ^ (lb.length - 1) ≤ n) ∧ 1 ≤ lb.length := by
  obtain ⟨a, b, c⟩ := h
  refine ⟨b ▸ lebValue_lt lb, ?_, ?_⟩
  · rcases c with c | c
    · exact Or.inl c
    · right
      obtain ⟨init, last, rfl, _, hl⟩ := a
      simp at c
      rw [lebValue_snoc] at b
      have h1 : last.toNat ≠ 0 := fun e => c (UInt8.toNat_inj.1 e)
      have h2 : last.toNat % 128 = last.toNat := Nat.mod_eq_of_lt hl
      rw [h2] at b
      simp only [List.length_append, List.length_singleton, Nat.add_sub_cancel]
      have : 1 * 128 ^ init.length ≤ last.toNat * 128 ^ init.length := Nat.mul_le_mul_right _ (by omega)
      omega
  · obtain ⟨init, last, rfl, _, hl⟩ := a
    simp

theorem minLeb_unique (a b : Bytes) (n : Nat) (ha : MinLeb a n) (hb : MinLeb b n) : a = b := by
  have h1 := minLeb_bounds a n ha
  have h2 := minLeb_bounds b n hb
  apply isLeb_unique_prefix a b ha.1 hb.1 _ (ha.2.1.trans hb.2.1.symm)
  rcases Nat.lt_trichotomy a.length b.length with h | h | h
  · exfalso
    have := Nat.pow_le_pow_right (n := 128) (by decide) (show a.length ≤ b.length - 1 by omega)
    omega
  · exact h
  · exfalso
    have := Nat.pow_le_pow_right (n := 128) (by decide) (show b.length ≤ a.length - 1 by omega)
    omega

theorem putUvarint5 (n : Nat) (h : n < 2 ^ 35) : ∃ bs, putUvarint 5 n.toUInt64 = some bs ∧ MinLeb bs n := by
  have e : n.toUInt64.toNat = n := by simp; omega
  have : (putUvarint 5 n.toUInt64).isSome := (putUvarint_isSome 5 _).mpr ⟨by rw [e]; simpa using h, by decide⟩
  obtain ⟨bs, hbs⟩ := Option.isSome_iff_exists.mp this
  exact ⟨bs, hbs, by have := putUvarint_minLeb _ _ _ hbs; rwa [e] at this⟩

/-- A length in minimal form, as the WebAuthn branches read it and write it back. -/
theorem minLeb_reads (lb : Bytes) (n : Nat) (hn : n < 2 ^ 35) (h : MinLeb lb n) :
    readVaruint.Reads lb n.toUInt64 ∧ putUvarint 5 n.toUInt64 = some lb := by
  obtain ⟨bs, h1, h2⟩ := putUvarint5 n hn
  have e := minLeb_unique _ _ _ h h2
  subst e
  have hl := (putUvarint_spec _ _ _ h1).2.2.1
  refine ⟨?_, h1⟩
  intro fin rest
  rw [readVaruint_leb fin lb rest h.1 (by omega) (by rw [h.2.1]; omega), h.2.1]


/-! ### Inverting runs -/

theorem Dec.runE_bind_ok {α β : Type} {p : Dec α} {f : α → Dec β} {fin : Err} {bs r : Bytes} {c : β} (h : (p >>= f).runE fin bs = .ok c r) :
    ∃ a r', p.runE fin bs = .ok a r' ∧ (f a).runE fin r' = .ok c r := by
  rw [Dec.runE_bind] at h
  cases hp : p.runE fin bs with
  | ok a r' => rw [hp] at h; exact ⟨a, r', rfl, h⟩
  | panic w => rw [hp] at h; cases h
  | diverge => rw [hp] at h; cases h

theorem readBytes_inv (n : Int) (fin : Err) (bs r b : Bytes) (k : Nat) (h : (readBytes n).runE fin bs = .ok (k, b, none) r) :
    0 ≤ n ∧ (b.length : Int) = n ∧ bs = b ++ r := by
  unfold readBytes at h
  split at h
  · cases h
  · split at h
    · rename_i h0
      cases h
      exact ⟨by omega, by simp [h0], rfl⟩
    · split at h
      · cases h
      · rename_i h1 h2 h3
        by_cases hl : n.toNat ≤ bs.length
        · have e : bs = bs.take n.toNat ++ bs.drop n.toNat := (List.take_append_drop _ _).symm
          have ht : (bs.take n.toNat).length = n.toNat := by simp; omega
          rw [e, Dec.runE_read_full _ _ _ _ _ ht] at h
          cases h
          exact ⟨by omega, by rw [ht]; omega, e⟩
        · rw [Dec.runE_read_short _ _ _ _ (by omega)] at h
          cases h

theorem goInt_nonneg (l : UInt64) (h : 0 ≤ goInt l) : (l.toNat : Int) = goInt l := by
  have hl := l.toNat_lt
  unfold goInt at *
  rw [toInt64_toInt, Int.bmod_def] at *
  omega

theorem readByte_inv (fin : Err) (bs r : Bytes) (b : UInt8) (h : readByte.runE fin bs = .ok (b, none) r) : bs = b :: r := by
  cases bs with
  | nil => rw [readByte_nil] at h; cases h
  | cons c t => rw [readByte_cons] at h; cases h; rfl

end Verif
