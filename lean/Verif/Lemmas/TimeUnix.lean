import Verif.Lemmas.TimeText
/-! # Instants and Unix times -/
namespace Verif

theorem tdiv_nonneg_eq {a b : Int} (h : 0 ≤ a) : a.tdiv b = a / b := Int.tdiv_eq_ediv_of_nonneg h

theorem tmod_bounds (a b : Int) (hb : 0 < b) : -b < a.tmod b ∧ a.tmod b < b := by
  have h1 := Int.tmod_lt_of_pos a hb
  have h2 := Int.lt_tmod_of_pos a hb
  exact ⟨h2, h1⟩

theorem timeUnix_spec (sec nsec : Int) : (timeUnix sec nsec).Ok ∧ nanos (timeUnix sec nsec).sec (timeUnix sec nsec).nsec = nanos sec nsec := by
  unfold timeUnix GoTime.Ok nanos
  have h1 := Int.mul_tdiv_add_tmod nsec 1000000000
  obtain ⟨h2, h3⟩ := tmod_bounds nsec 1000000000 (by decide)
  split
  · dsimp only
    split
    · dsimp only; omega
    · dsimp only; omega
  · dsimp only; omega

theorem timeUnixMicro_spec (u : Int) : (timeUnixMicro u).Ok ∧ nanos (timeUnixMicro u).sec (timeUnixMicro u).nsec = u * 1000 := by
  obtain ⟨h1, h2⟩ := timeUnix_spec (u.tdiv 1000000) (u.tmod 1000000 * 1000)
  refine ⟨h1, ?_⟩
  unfold timeUnixMicro
  rw [h2]
  have := Int.mul_tdiv_add_tmod u 1000000
  unfold nanos
  omega

theorem timeUnixMilli_spec (u : Int) : (timeUnixMilli u).Ok ∧ nanos (timeUnixMilli u).sec (timeUnixMilli u).nsec = u * 1000000 := by
  obtain ⟨h1, h2⟩ := timeUnix_spec (u.tdiv 1000) (u.tmod 1000 * 1000000)
  refine ⟨h1, ?_⟩
  unfold timeUnixMilli
  rw [h2]
  have := Int.mul_tdiv_add_tmod u 1000
  unfold nanos
  omega

/-- seconds and nanoseconds from the instant -/
theorem GoTime.Ok.split {t : GoTime} (h : t.Ok) : t.sec = nanos t.sec t.nsec / 1000000000 ∧ t.nsec = nanos t.sec t.nsec % 1000000000 := by
  obtain ⟨h1, h2⟩ := h
  unfold nanos
  omega

theorem GoTime.Ok.eq {t u : GoTime} (h : t.Ok) (hu : u.Ok) (e : nanos t.sec t.nsec = nanos u.sec u.nsec) : t = u := by
  obtain ⟨h1, h2⟩ := h.split
  obtain ⟨h3, h4⟩ := hu.split
  cases t; cases u
  simp only [GoTime.mk.injEq]
  dsimp only at *
  rw [← e] at h3 h4
  exact ⟨h1.trans h3.symm, h2.trans h4.symm⟩

theorem unixMicro_eq {t : GoTime} (h : t.Ok) : t.unixMicro = Int64.ofInt (nanos t.sec t.nsec / 1000) := by
  obtain ⟨h1, h2⟩ := h
  unfold GoTime.unixMicro
  rw [tdiv_nonneg_eq h1, show (1000000 : Int64) = Int64.ofInt 1000000 from rfl, ← Int64.ofInt_mul, ← Int64.ofInt_add]
  unfold nanos
  congr 1; omega

theorem unixMilli_eq {t : GoTime} (h : t.Ok) : t.unixMilli = Int64.ofInt (nanos t.sec t.nsec / 1000000) := by
  obtain ⟨h1, h2⟩ := h
  unfold GoTime.unixMilli
  rw [tdiv_nonneg_eq h1, show (1000 : Int64) = Int64.ofInt 1000 from rfl, ← Int64.ofInt_mul, ← Int64.ofInt_add]
  unfold nanos
  congr 1; omega

theorem toUInt32_ofInt (n : Int) : (Int64.ofInt n).toUInt64.toUInt32.toNat = (n % 2 ^ 32).toNat := by
  have h : (Int64.ofInt n).toUInt64.toNat = (n % 2 ^ 64).toNat := by
    show (BitVec.ofInt 64 n).toNat = _
    rw [BitVec.toNat_ofInt]; rfl
  rw [UInt64.toNat_toUInt32, h]
  omega

theorem GoTime.add_spec {t : GoTime} (h : t.Ok) (d : Int) : (t.add d).Ok ∧ nanos (t.add d).sec (t.add d).nsec = nanos t.sec t.nsec + d := by
  obtain ⟨h1, h2⟩ := h
  unfold GoTime.add GoTime.Ok nanos
  have h3 := Int.mul_tdiv_add_tmod d 1000000000
  obtain ⟨h4, h5⟩ := tmod_bounds d 1000000000 (by decide)
  dsimp only
  split
  · dsimp only; omega
  · split
    · dsimp only; omega
    · dsimp only; omega

theorem rem_eq {t : GoTime} (h : t.Ok) : t.rem 500000000 = nanos t.sec t.nsec % 500000000 := by
  obtain ⟨h1, h2⟩ := h
  unfold GoTime.rem nanos
  have e : ∀ a : Int, 0 ≤ a → a.tmod 500000000 = a % 500000000 := fun a ha => Int.tmod_eq_emod_of_nonneg ha
  split
  · dsimp only
    split
    · rw [e _ (by omega)]
      split <;> omega
    · rw [e _ (by omega)]
      split <;> omega
  · rw [e _ h1]; omega

theorem round_spec {t : GoTime} (h : t.Ok) : (t.round 500000000).Ok ∧
    nanos (t.round 500000000).sec (t.round 500000000).nsec = (nanos t.sec t.nsec + 250000000) / 500000000 * 500000000 := by
  unfold GoTime.round
  rw [rem_eq h]
  dsimp only
  split
  · obtain ⟨h1, h2⟩ := GoTime.add_spec h (-(nanos t.sec t.nsec % 500000000))
    exact ⟨h1, by rw [h2]; omega⟩
  · obtain ⟨h1, h2⟩ := GoTime.add_spec h (500000000 - nanos t.sec t.nsec % 500000000)
    exact ⟨h1, by rw [h2]; omega⟩

/-- the half second nearest to an instant, ties upwards, counted from 2000 -/
def halfSeconds (ns : Int) : Int := (ns - 946684800000000000 + 250000000) / 500000000

theorem newBlockTimestamp_eq {t : GoTime} (h : t.Ok) (hr : -2 ^ 52 < t.sec ∧ t.sec < 2 ^ 52) :
    (newBlockTimestamp t).toNat = (halfSeconds (nanos t.sec t.nsec) % 2 ^ 32).toNat := by
  obtain ⟨h1, h2⟩ := round_spec h
  unfold newBlockTimestamp
  rw [unixMilli_eq h1, h2]
  have hb : -2 ^ 52 * 1000000000 < nanos t.sec t.nsec ∧ nanos t.sec t.nsec < 2 ^ 52 * 1000000000 := by
    obtain ⟨h3, h4⟩ := h; unfold nanos; omega
  have e1 : (nanos t.sec t.nsec + 250000000) / 500000000 * 500000000 / 1000000 = 500 * (halfSeconds (nanos t.sec t.nsec)) + 946684800000 := by
    unfold halfSeconds; omega
  rw [e1]
  have hk : -2 ^ 53 - 2 ^ 40 < halfSeconds (nanos t.sec t.nsec) ∧ halfSeconds (nanos t.sec t.nsec) < 2 ^ 53 := by unfold halfSeconds; omega
  generalize halfSeconds (nanos t.sec t.nsec) = k at hk
  rw [show blockTimestampEpochMilli = Int64.ofInt 946684800000 from rfl, ← Int64.ofInt_sub,
    show 500 * k + 946684800000 - 946684800000 = 500 * k by omega]
  have : Int64.ofInt (500 * k) / 500 = Int64.ofInt k := by
    apply Int64.toInt_inj.1
    rw [Int64.toInt_div_of_ne_right _ _ (by decide), Int64.toInt_ofInt_of_le (by omega) (by omega), Int64.toInt_ofInt_of_le (by omega) (by omega)]
    show (500 * k).tdiv 500 = k
    exact Int.mul_tdiv_cancel_left _ (by decide)
  rw [this, toUInt32_ofInt]

end Verif
