import Verif.Go.Float
import Mathlib.Tactic.Ring
import Mathlib.Tactic.Linarith
/-! # Rounding to the nearest float -/
namespace Verif

theorem two_pow_pos (n : Nat) : 0 < 2 ^ n := Nat.pow_pos (by decide)

variable (f : FloatFmt)

theorem scaled_low (q : Nat) (h : q < 2 ^ f.mant) : f.scaled q = q := by
  rw [FloatFmt.scaled, if_pos (Nat.div_eq_of_lt h)]
theorem scaled_norm (e q : Nat) (h1 : 2 ^ f.mant ≤ q) (h2 : q < 2 * 2 ^ f.mant) : f.scaled (e * 2 ^ f.mant + q) = q * 2 ^ e := by
  have hp := two_pow_pos f.mant
  obtain ⟨m, rfl⟩ := Nat.exists_eq_add_of_le h1
  have hm : m < 2 ^ f.mant := by omega
  have hd : (e * 2 ^ f.mant + (2 ^ f.mant + m)) / 2 ^ f.mant = e + 1 := by
    rw [show e * 2 ^ f.mant + (2 ^ f.mant + m) = m + (e + 1) * 2 ^ f.mant by ring, Nat.add_mul_div_right _ _ hp, Nat.div_eq_of_lt hm]; omega
  have hr : (e * 2 ^ f.mant + (2 ^ f.mant + m)) % 2 ^ f.mant = m := by
    rw [show e * 2 ^ f.mant + (2 ^ f.mant + m) = m + (e + 1) * 2 ^ f.mant by ring, Nat.add_mul_mod_self_right, Nat.mod_eq_of_lt hm]
  rw [FloatFmt.scaled, hd, hr, if_neg (by omega)]
  congr 1
theorem scaled_norm' (e q : Nat) (h1 : 2 ^ f.mant ≤ q) (h2 : q ≤ 2 * 2 ^ f.mant) : f.scaled (e * 2 ^ f.mant + q) = q * 2 ^ e := by
  rcases Nat.lt_or_ge q (2 * 2 ^ f.mant) with h | h
  · exact scaled_norm f e q h1 h
  · have : q = 2 * 2 ^ f.mant := by omega
    subst this
    rw [show e * 2 ^ f.mant + 2 * 2 ^ f.mant = (e + 1) * 2 ^ f.mant + 2 ^ f.mant by ring, scaled_norm f (e + 1) _ (Nat.le_refl _) (by have := two_pow_pos f.mant; omega), Nat.pow_succ]
    ring
/-- Every magnitude is of one of these forms. -/
theorem mag_cases (b : Nat) : b < 2 ^ f.mant ∨ ∃ e q, b = e * 2 ^ f.mant + q ∧ 2 ^ f.mant ≤ q ∧ q < 2 * 2 ^ f.mant := by
  have hp := two_pow_pos f.mant
  rcases Nat.lt_or_ge b (2 ^ f.mant) with h | h
  · exact .inl h
  · have hr := Nat.mod_lt b hp
    refine .inr ⟨b / 2 ^ f.mant - 1, 2 ^ f.mant + b % 2 ^ f.mant, ?_, by omega, by omega⟩
    have hd : 1 ≤ b / 2 ^ f.mant := (Nat.one_le_div_iff hp).2 h
    obtain ⟨k, hk⟩ := Nat.exists_eq_add_of_le hd
    have := Nat.div_add_mod b (2 ^ f.mant)
    rw [hk] at this ⊢
    rw [show 1 + k - 1 = k by omega]
    nlinarith
theorem scaled_low_step (q : Nat) (h : q ≤ 2 ^ f.mant) : f.scaled q = q := by
  rcases Nat.lt_or_ge q (2 ^ f.mant) with h' | h'
  · exact scaled_low f q h'
  · have : q = 2 ^ f.mant := by omega
    have e := scaled_norm f 0 q (by omega) (by have := two_pow_pos f.mant; omega)
    simpa using e
theorem scaled_succ (b : Nat) : f.scaled b < f.scaled (b + 1) := by
  rcases mag_cases f b with h | ⟨e, q, rfl, h1, h2⟩
  · rw [scaled_low f b h, scaled_low_step f (b + 1) h]; omega
  · rw [scaled_norm f e q h1 h2, Nat.add_assoc, scaled_norm' f e (q + 1) (by omega) (by omega)]
    have := two_pow_pos e
    nlinarith
theorem scaled_mono : StrictMono f.scaled := strictMono_nat_of_lt_succ (scaled_succ f)
theorem scaled_zero : f.scaled 0 = 0 := scaled_low f 0 (two_pow_pos _)
theorem scaled_le {a b : Nat} (h : a ≤ b) : f.scaled a ≤ f.scaled b := (scaled_mono f).monotone h

theorem roundDiv_cases (a b : Nat) : roundDiv a b = a / b ∧ 2 * (a % b) ≤ b ∨ roundDiv a b = a / b + 1 ∧ b ≤ 2 * (a % b) := by
  unfold roundDiv
  split
  · exact .inl ⟨rfl, by omega⟩
  · split
    · exact .inr ⟨rfl, by omega⟩
    · rcases Nat.mod_two_eq_zero_or_one (a / b) with h | h <;> rw [h]
      · exact .inl ⟨rfl, by omega⟩
      · exact .inr ⟨rfl, by omega⟩
theorem roundDiv_tie (a b : Nat) (h : 2 * (a % b) = b) : roundDiv a b % 2 = 0 := by
  unfold roundDiv
  rw [if_neg (by omega), if_neg (by omega)]
  omega

/-- The magnitude below n / d: the parts of `round`. -/
theorem round_parts (n d : Nat) (hd : 0 < d) : ∃ e q, f.round n d = e * 2 ^ f.mant + roundDiv n (d * 2 ^ e) ∧ q = n / (d * 2 ^ e) ∧
    f.scaled (e * 2 ^ f.mant + q) = q * 2 ^ e ∧ f.scaled (e * 2 ^ f.mant + q + 1) = (q + 1) * 2 ^ e ∧ (0 < e → 2 ^ f.mant ≤ q) ∧ q < 2 * 2 ^ f.mant := by
  refine ⟨(n / d).log2 - f.mant, n / (d * 2 ^ ((n / d).log2 - f.mant)), rfl, rfl, ?_⟩
  rw [← Nat.div_div_eq_div_mul]
  generalize hk : n / d = k
  rcases Nat.lt_or_ge k (2 ^ f.mant) with h | h
  · have : k.log2 - f.mant = 0 := by
      rcases Nat.eq_zero_or_pos k with rfl | hk
      · simp
      · have := (Nat.log2_lt (by omega)).2 h; omega
    rw [this]
    simp only [Nat.pow_zero, Nat.div_one, Nat.zero_mul, Nat.zero_add, Nat.mul_one]
    refine ⟨scaled_low f k h, scaled_low_step f (k + 1) h, by omega, by omega⟩
  · have hk0 : k ≠ 0 := by have := two_pow_pos f.mant; omega
    have hl : f.mant ≤ k.log2 := (Nat.le_log2 hk0).2 h
    obtain ⟨e, he⟩ := Nat.exists_eq_add_of_le hl
    rw [he, show f.mant + e - f.mant = e by omega]
    have h1 : 2 ^ (f.mant + e) ≤ k := he ▸ Nat.log2_self_le hk0
    have h2 : k < 2 ^ (f.mant + e + 1) := he ▸ Nat.lt_log2_self
    have q1 : 2 ^ f.mant ≤ k / 2 ^ e := by rw [Nat.le_div_iff_mul_le (two_pow_pos e), ← Nat.pow_add]; exact h1
    have q2 : k / 2 ^ e < 2 * 2 ^ f.mant := by
      rw [Nat.div_lt_iff_lt_mul (two_pow_pos e)]
      calc k < 2 ^ (f.mant + e + 1) := h2
        _ = _ := by rw [Nat.pow_succ, Nat.pow_add]; ring
    exact ⟨scaled_norm f e _ q1 q2, by rw [Nat.add_assoc]; exact scaled_norm' f e _ (by omega) (by omega), fun _ => q1, q2⟩

/-- The distance of two numbers -/
def distNat (a b : Nat) : Nat := (a - b) + (b - a)

/-- What it means that a magnitude is nearest to n / d: no other one is nearer, and if another one is as near, it is even. -/
def FloatFmt.Near (n d b : Nat) : Prop := ∀ b', distNat (f.scaled b * d) n ≤ distNat (f.scaled b' * d) n ∧ (b' ≠ b → distNat (f.scaled b * d) n = distNat (f.scaled b' * d) n → b % 2 = 0)

theorem round_near (hf : 0 < f.mant) (n d : Nat) (hd : 0 < d) : f.Near n d (f.round n d) := by
  obtain ⟨e, q, hr, hq, s1, s2, _, _⟩ := round_parts f n d hd
  have hM : 0 < d * 2 ^ e := Nat.mul_pos hd (two_pow_pos e)
  have hdiv := Nat.div_add_mod n (d * 2 ^ e)
  have hmod := Nat.mod_lt n hM
  have hev : ∀ x, (e * 2 ^ f.mant + x) % 2 = x % 2 := fun x => by
    obtain ⟨m, hm⟩ := Nat.exists_eq_add_of_lt hf
    rw [hm, Nat.pow_add_one, ← Nat.mul_assoc]; omega
  have t1 : f.scaled (e * 2 ^ f.mant + q) * d = d * 2 ^ e * q := by rw [s1]; ring
  have t2 : f.scaled (e * 2 ^ f.mant + q + 1) * d = d * 2 ^ e * q + d * 2 ^ e := by rw [s2]; ring
  rw [← hq] at hdiv
  generalize hw : d * 2 ^ e = w at *
  have side : ∀ b', f.scaled b' * d ≤ w * q ∧ b' ≤ e * 2 ^ f.mant + q ∨ w * q + w ≤ f.scaled b' * d ∧ e * 2 ^ f.mant + q + 1 ≤ b' := by
    intro b'
    rcases Nat.lt_or_ge b' (e * 2 ^ f.mant + q + 1) with h | h
    · exact .inl ⟨t1 ▸ Nat.mul_le_mul_right d (scaled_le f (by omega)), by omega⟩
    · exact .inr ⟨t2 ▸ Nat.mul_le_mul_right d (scaled_le f h), h⟩
  intro b'
  rcases roundDiv_cases n w with ⟨h1, h2⟩ | ⟨h1, h2⟩
  · have hb : f.round n d = e * 2 ^ f.mant + q := by rw [hr, h1, hq]
    rw [hb, t1]
    refine ⟨?_, fun hne heq => ?_⟩
    · rcases side b' with h | h <;> (unfold distNat; omega)
    · have hlt : b' < e * 2 ^ f.mant + q → f.scaled b' * d < w * q := fun h => by rw [← t1]; exact Nat.mul_lt_mul_of_pos_right (scaled_mono f h) hd
      have htie : 2 * (n % w) = w := by
        rcases side b' with ⟨h, h'⟩ | ⟨h, h'⟩
        · have := hlt (by omega); unfold distNat at heq; omega
        · unfold distNat at heq; omega
      have := roundDiv_tie n w htie
      rw [hev, hq, ← h1]; exact this
  · have hb : f.round n d = e * 2 ^ f.mant + q + 1 := by rw [hr, h1, hq]; rfl
    rw [hb, t2]
    refine ⟨?_, fun hne heq => ?_⟩
    · rcases side b' with h | h <;> (unfold distNat; omega)
    · have hlt : e * 2 ^ f.mant + q + 1 < b' → w * q + w < f.scaled b' * d := fun h => by rw [← t2]; exact Nat.mul_lt_mul_of_pos_right (scaled_mono f h) hd
      have htie : 2 * (n % w) = w := by
        rcases side b' with ⟨h, h'⟩ | ⟨h, h'⟩
        · unfold distNat at heq; omega
        · have := hlt (by omega); unfold distNat at heq; omega
      have := roundDiv_tie n w htie
      rw [Nat.add_assoc, hev, hq, ← h1]; exact this

/-- There is only one nearest magnitude. -/
theorem near_unique (n d b c : Nat) (hd : 0 < d) (hb : f.Near n d b) (hc : f.Near n d c) : b = c := by
  have key : ∀ b c, b < c → f.Near n d b → f.Near n d c → False := by
    intro b c hlt hb hc
    have e1 := hb c
    have e2 := hc b
    have e : distNat (f.scaled b * d) n = distNat (f.scaled c * d) n := Nat.le_antisymm e1.1 e2.1
    have p1 := e1.2 (by omega) e
    have p2 := e2.2 (by omega) e.symm
    have m1 := Nat.mul_lt_mul_of_pos_right (scaled_mono f (show b < b + 1 by omega)) hd
    have m2 := Nat.mul_lt_mul_of_pos_right (scaled_mono f (show b + 1 < c by omega)) hd
    have e3 := (hb (b + 1)).1
    have e4 := (hc (b + 1)).1
    unfold distNat at *
    omega
  rcases Nat.lt_trichotomy b c with h | h | h
  · exact (key b c h hb hc).elim
  · exact h
  · exact (key c b h hc hb).elim

/-- A number between the middles of a magnitude and its neighbours is rounded to it. The ends count if it is even. -/
theorem near_between (n d b : Nat) (hd : 0 < d) (hlo : 0 < b → (f.scaled (b - 1) + f.scaled b) * d < 2 * n ∨ (b % 2 = 0 ∧ (f.scaled (b - 1) + f.scaled b) * d = 2 * n))
    (hhi : 2 * n < (f.scaled b + f.scaled (b + 1)) * d ∨ (b % 2 = 0 ∧ 2 * n = (f.scaled b + f.scaled (b + 1)) * d)) : f.Near n d b := by
  intro b'
  rw [Nat.add_mul] at hhi
  have up := Nat.mul_lt_mul_of_pos_right (scaled_mono f (show b < b + 1 by omega)) hd
  rcases Nat.lt_trichotomy b' b with h | rfl | h
  · have hlo := hlo (by omega)
    rw [Nat.add_mul] at hlo
    have := Nat.mul_le_mul_right d (scaled_le f (show b' ≤ b - 1 by omega))
    have := Nat.mul_lt_mul_of_pos_right (scaled_mono f (show b - 1 < b by omega)) hd
    unfold distNat
    constructor
    · omega
    · intros; omega
  · exact ⟨Nat.le_refl _, fun h => (h rfl).elim⟩
  · have := Nat.mul_le_mul_right d (scaled_le f (show b + 1 ≤ b' by omega))
    by_cases hb : b = 0
    · subst hb
      rw [scaled_zero f] at hhi ⊢
      unfold distNat
      constructor
      · omega
      · intros; omega
    · have hlo := hlo (by omega)
      rw [Nat.add_mul] at hlo
      have := Nat.mul_lt_mul_of_pos_right (scaled_mono f (show b - 1 < b by omega)) hd
      unfold distNat
      constructor
      · omega
      · intros; omega

/-- Rounding preserves the order. -/
theorem round_mono (hf : 0 < f.mant) (n m d : Nat) (hd : 0 < d) (h : n ≤ m) : f.round n d ≤ f.round m d := by
  by_contra hlt
  have hlt : f.round m d < f.round n d := by omega
  have h1 := (round_near f hf n d hd (f.round m d)).1
  have h2 := (round_near f hf m d hd (f.round n d)).1
  have hs := Nat.mul_lt_mul_of_pos_right (scaled_mono f hlt) hd
  by_cases he : n = m
  · subst he; omega
  · generalize f.scaled (f.round m d) * d = A at *
    generalize f.scaled (f.round n d) * d = B at *
    unfold distNat at *
    omega

/-- Only the quotient counts. -/
theorem near_scale (n d b k : Nat) (hk : 0 < k) : f.Near (n * k) (d * k) b ↔ f.Near n d b := by
  have e : ∀ x, distNat (f.scaled x * (d * k)) (n * k) = distNat (f.scaled x * d) n * k := fun x => by
    unfold distNat
    rw [← Nat.mul_assoc, ← Nat.sub_mul, ← Nat.sub_mul, Nat.add_mul]
  unfold FloatFmt.Near
  simp only [e]
  refine forall_congr' fun b' => ?_
  rw [Nat.mul_le_mul_right_iff hk, Nat.mul_right_cancel_iff hk]
theorem round_scale (hf : 0 < f.mant) (n d k : Nat) (hd : 0 < d) (hk : 0 < k) : f.round (n * k) (d * k) = f.round n d :=
  near_unique f n d _ _ hd ((near_scale f n d _ k hk).1 (round_near f hf _ _ (Nat.mul_pos hd hk))) (round_near f hf n d hd)
/-- The same for two equal quotients. -/
theorem round_congr (hf : 0 < f.mant) (n d n' d' : Nat) (hd : 0 < d) (hd' : 0 < d') (h : n * d' = n' * d) : f.round n d = f.round n' d' := by
  rw [← round_scale f hf n d d' hd hd', h, Nat.mul_comm d d', round_scale f hf n' d' d hd' hd]

/-- A float is rounded to itself. -/
theorem round_scaled (hf : 0 < f.mant) (b d : Nat) (hd : 0 < d) : f.round (f.scaled b * d) d = b :=
  near_unique f _ d _ _ hd (round_near f hf _ d hd) fun b' => ⟨by unfold distNat; omega, fun hne heq => by
    exfalso
    have : distNat (f.scaled b' * d) (f.scaled b * d) = 0 := by rw [← heq]; unfold distNat; omega
    have e : f.scaled b' * d = f.scaled b * d := by unfold distNat at this; omega
    exact hne ((scaled_mono f).injective (Nat.mul_right_cancel hd e))⟩

end Verif
