import Verif.Go.Time
import Verif.Spec.Time
/-! # Go's calendar arithmetic is the Gregorian calendar -/
namespace Verif

theorem goLeap_iff (y : Int) : goLeap y = true ↔ LeapYear y := by
  unfold goLeap LeapYear
  simp only [Bool.and_eq_true, Bool.or_eq_true, beq_iff_eq, bne_iff_ne, ne_eq]
  rw [Int.dvd_iff_tmod_eq_zero, Int.dvd_iff_tmod_eq_zero, Int.dvd_iff_tmod_eq_zero]

/-- leap years by position in the 400-year cycle -/
theorem leap_cycle (n : Int) (c q z : Nat) (hc : c ≤ 3) (hq : q ≤ 24) (hz : z ≤ 3) :
    LeapYear (400 * n + (100 * c + 4 * q + z : Nat) + 1) ↔ z = 3 ∧ (q ≠ 24 ∨ c = 3) := by
  unfold LeapYear
  omega

theorem daysSinceEpoch_cycle (n : Int) (c q z : Nat) (hc : c ≤ 3) (hq : q ≤ 24) (hz : z ≤ 3) :
    daysSinceEpoch (400 * n + (100 * c + 4 * q + z : Nat) + 1) = 146097 * n + (36524 * c + 1461 * q + 365 * z : Nat) := by
  unfold daysSinceEpoch
  have h1 : (400 * n + (100 * c + 4 * q + z : Nat) + 1 - 1) / 400 = n := by omega
  have h2 : ((400 * n + (100 * c + 4 * q + z : Nat) + 1 - 1) % 400).toNat = 100 * c + 4 * q + z := by omega
  simp only [h1, h2]
  have e1 : (100 * c + 4 * q + z) / 100 = c := by omega
  have e2 : (100 * c + 4 * q + z) % 100 = 4 * q + z := by omega
  rw [e1, e2]
  have e3 : (4 * q + z) / 4 = q := by omega
  have e4 : (4 * q + z) % 4 = z := by omega
  rw [e3, e4]

/-- every year has a position in its 400-year cycle -/
theorem year_cycle (y : Int) : ∃ (n : Int) (c q z : Nat), c ≤ 3 ∧ q ≤ 24 ∧ z ≤ 3 ∧ y = 400 * n + (100 * c + 4 * q + z : Nat) + 1 :=
  ⟨(y - 1) / 400, ((y - 1) % 400).toNat / 100, ((y - 1) % 400).toNat % 100 / 4, ((y - 1) % 400).toNat % 100 % 4, by omega, by omega,
    by omega, by omega⟩

def yearLength (y : Int) : Nat := if LeapYear y then 366 else 365

theorem daysSinceEpoch_next (y : Int) : daysSinceEpoch (y + 1) = daysSinceEpoch y + yearLength y := by
  obtain ⟨n, c, q, z, hc, hq, hz, rfl⟩ := year_cycle y
  unfold yearLength
  have hl := leap_cycle n c q z hc hq hz
  rw [daysSinceEpoch_cycle n c q z hc hq hz]
  by_cases h3 : z = 3
  · subst h3
    by_cases h24 : q = 24
    · subst h24
      by_cases hc3 : c = 3
      · subst hc3
        rw [if_pos (hl.2 ⟨rfl, .inr rfl⟩)]
        have := daysSinceEpoch_cycle (n + 1) 0 0 0 (by omega) (by omega) (by omega)
        rw [show 400 * n + ((100 * 3 + 4 * 24 + 3 : Nat) : Int) + 1 + 1 = 400 * (n + 1) + (100 * 0 + 4 * 0 + 0 : Nat) + 1 by omega, this]
        omega
      · rw [if_neg (fun h => by have := hl.1 h; omega)]
        have := daysSinceEpoch_cycle n (c + 1) 0 0 (by omega) (by omega) (by omega)
        rw [show 400 * n + ((100 * c + 4 * 24 + 3 : Nat) : Int) + 1 + 1 = 400 * n + (100 * (c + 1) + 4 * 0 + 0 : Nat) + 1 by omega, this]
        omega
    · rw [if_pos (hl.2 ⟨rfl, .inl h24⟩)]
      have := daysSinceEpoch_cycle n c (q + 1) 0 (by omega) (by omega) (by omega)
      rw [show 400 * n + ((100 * c + 4 * q + 3 : Nat) : Int) + 1 + 1 = 400 * n + (100 * c + 4 * (q + 1) + 0 : Nat) + 1 by omega, this]
      omega
  · rw [if_neg (fun h => by have := hl.1 h; omega)]
    have := daysSinceEpoch_cycle n c q (z + 1) (by omega) (by omega) (by omega)
    rw [show 400 * n + ((100 * c + 4 * q + z : Nat) : Int) + 1 + 1 = 400 * n + (100 * c + 4 * q + (z + 1) : Nat) + 1 by omega, this]
    omega

/-- the day of the year and the year are recovered -/
theorem yearDay_of (y : Int) (yd : Nat) (h : yd < yearLength y) : yearDay (daysSinceEpoch y + yd) = (y, yd) := by
  obtain ⟨n, c, q, z, hc, hq, hz, rfl⟩ := year_cycle y
  have hl := leap_cycle n c q z hc hq hz
  have hb : yd < 365 + (if z = 3 ∧ (q ≠ 24 ∨ c = 3) then 1 else 0) := by
    unfold yearLength at h
    by_cases hz3 : z = 3 ∧ (q ≠ 24 ∨ c = 3)
    · rw [if_pos hz3]; rw [if_pos (hl.2 hz3)] at h; omega
    · rw [if_neg hz3]; rw [if_neg (fun h' => hz3 (hl.1 h'))] at h; omega
  rw [daysSinceEpoch_cycle n c q z hc hq hz]
  unfold yearDay
  have hlt : 36524 * c + 1461 * q + 365 * z + yd < 146097 := by split at hb <;> omega
  have h1 : (146097 * n + (36524 * c + 1461 * q + 365 * z : Nat) + (yd : Int)) / 146097 = n := by omega
  have h2 : ((146097 * n + (36524 * c + 1461 * q + 365 * z : Nat) + (yd : Int)) % 146097).toNat = 36524 * c + 1461 * q + 365 * z + yd := by
    omega
  simp only [h1, h2]
  have e1 : (36524 * c + 1461 * q + 365 * z + yd) / 36524 - (36524 * c + 1461 * q + 365 * z + yd) / 36524 / 4 = c := by
    clear h1 h2 hl h
    have hc' : c = 0 ∨ c = 1 ∨ c = 2 ∨ c = 3 := by omega
    rcases hc' with rfl | rfl | rfl | rfl <;> split at hb <;> omega
  rw [e1]
  have e2 : (36524 * c + 1461 * q + 365 * z + yd - 36524 * c) = 1461 * q + 365 * z + yd := by omega
  rw [e2]
  have e3 : (1461 * q + 365 * z + yd) / 1461 = q := by split at hb <;> omega
  rw [e3]
  have e4 : (1461 * q + 365 * z + yd - 1461 * q) = 365 * z + yd := by omega
  rw [e4]
  have e5 : (365 * z + yd) / 365 - (365 * z + yd) / 365 / 4 = z := by split at hb <;> omega
  rw [e5]
  have e6 : (365 * z + yd - 365 * z) = yd := by omega
  rw [e6]

/-- days before a month and day, within the year -/
def ydayOf (leap : Bool) (m d : Nat) : Nat := daysBefore (m - 1) + (if leap ∧ 3 ≤ m then 1 else 0) + (d - 1)

def monthLen (leap : Bool) (m : Nat) : Nat :=
  if m = 4 ∨ m = 6 ∨ m = 9 ∨ m = 11 then 30 else if m = 2 then (if leap then 29 else 28) else 31

theorem monthLength_eq (y : Int) (m : Nat) : monthLength y m = monthLen (goLeap y) m := by
  unfold monthLength monthLen
  by_cases h : LeapYear y
  · rw [(goLeap_iff y).2 h]; simp [h]
  · rw [show goLeap y = false by cases hg : goLeap y with | false => rfl | true => exact absurd ((goLeap_iff y).1 hg) h]; simp [h]

theorem daysIn_table : ∀ leap : Bool, ∀ m, m < 13 → 1 ≤ m → (if m = 2 ∧ leap then 29 else daysBefore m - daysBefore (m - 1)) = monthLen leap m := by
  decide +kernel

theorem daysIn_eq (y : Int) (m : Nat) (h1 : 1 ≤ m) (h2 : m ≤ 12) : daysIn m y = monthLength y m := by
  rw [monthLength_eq]; exact daysIn_table (goLeap y) m (by omega) h1

theorem monthDay_fin : ∀ leap : Bool, ∀ m : Fin 13, ∀ d : Fin 32, 1 ≤ m.val ∧ 1 ≤ d.val ∧ d.val ≤ monthLen leap m →
    monthDay leap (ydayOf leap m d) = (m.val, d.val) ∧ ydayOf leap m d < (if leap then 366 else 365) := by
  decide +kernel

theorem monthDay_table (leap : Bool) (m : Nat) (hm : m < 13) (d : Nat) (hd : d < 32) (h1 : 1 ≤ m) (h2 : 1 ≤ d) (h3 : d ≤ monthLen leap m) :
    monthDay leap (ydayOf leap m d) = (m, d) ∧ ydayOf leap m d < (if leap then 366 else 365) :=
  monthDay_fin leap ⟨m, hm⟩ ⟨d, hd⟩ ⟨h1, h2, h3⟩

theorem monthDay_inv : ∀ leap : Bool, ∀ yd, yd < (if leap then 366 else 365) →
    1 ≤ (monthDay leap yd).1 ∧ (monthDay leap yd).1 ≤ 12 ∧ 1 ≤ (monthDay leap yd).2 ∧
    (monthDay leap yd).2 ≤ monthLen leap (monthDay leap yd).1 ∧ ydayOf leap (monthDay leap yd).1 (monthDay leap yd).2 = yd := by
  decide +kernel

theorem month_next : ∀ leap : Bool, ∀ m, m < 12 → 1 ≤ m → ydayOf leap (m + 1) 1 = ydayOf leap m (monthLen leap m) + 1 := by decide +kernel
theorem month_last : ∀ leap : Bool, ydayOf leap 12 31 + 1 = (if leap then 366 else 365) := by decide +kernel

theorem yearLength_eq (y : Int) : yearLength y = if goLeap y then 366 else 365 := by
  unfold yearLength
  by_cases h : LeapYear y
  · rw [if_pos h, if_pos ((goLeap_iff y).2 h)]
  · rw [if_neg h, if_neg (fun hg => h ((goLeap_iff y).1 hg))]

theorem monthLen_le (leap : Bool) (m : Nat) : monthLen leap m ≤ 31 := by
  unfold monthLen; split
  · omega
  · split
    · split <;> omega
    · omega

theorem dateDays_eq (y : Int) (m d : Nat) : dateDays y m d = daysSinceEpoch y + ydayOf (goLeap y) m d := by
  unfold dateDays ydayOf
  split <;> push_cast <;> omega

/-- A valid date is recovered from its day number. -/
theorem absDate_of (d : Day) (h : d.Valid) : absDate (dateDays d.year d.month d.day) = (d.year, d.month, d.day) := by
  obtain ⟨h1, h2, h3, h4⟩ := h
  rw [monthLength_eq] at h4
  obtain ⟨t1, t2⟩ := monthDay_table (goLeap d.year) d.month (by omega) d.day (by have := monthLen_le (goLeap d.year) d.month; omega) h1 h3 h4
  rw [dateDays_eq]
  unfold absDate
  rw [yearDay_of _ _ (by rw [yearLength_eq]; exact t2)]
  simp only [t1]

theorem Day.tomorrow_valid (d : Day) (h : d.Valid) : d.tomorrow.Valid := by
  obtain ⟨h1, h2, h3, h4⟩ := h
  unfold Day.tomorrow Day.Valid
  have hpos : ∀ y m, 28 ≤ monthLength y m := by
    intro y m; unfold monthLength
    split
    · omega
    · split
      · split <;> omega
      · omega
  split
  · exact ⟨h1, h2, by dsimp only; omega, by dsimp only; omega⟩
  · split
    · exact ⟨by dsimp only; omega, by dsimp only; omega, by dsimp only; omega, by have := hpos d.year (d.month + 1); dsimp only; omega⟩
    · exact ⟨by dsimp only; omega, by dsimp only; omega, by dsimp only; omega, by have := hpos (d.year + 1) 1; dsimp only; omega⟩

theorem Day.tomorrow_days (d : Day) (h : d.Valid) :
    dateDays d.tomorrow.year d.tomorrow.month d.tomorrow.day = dateDays d.year d.month d.day + 1 := by
  obtain ⟨h1, h2, h3, h4⟩ := h
  unfold Day.tomorrow
  rw [monthLength_eq] at h4 ⊢
  split
  · dsimp only
    rw [dateDays_eq, dateDays_eq]; unfold ydayOf; push_cast; omega
  · have hd : d.day = monthLen (goLeap d.year) d.month := by omega
    split
    · dsimp only
      rw [dateDays_eq, dateDays_eq, month_next _ _ (by omega) h1, hd]
      push_cast; omega
    · have hm : d.month = 12 := by omega
      have hd31 : d.day = 31 := by rw [hd, hm]; rfl
      dsimp only
      rw [dateDays_eq, dateDays_eq, daysSinceEpoch_next, yearLength_eq, ← month_last, hm, hd31]
      have : ydayOf (goLeap (d.year + 1)) 1 1 = 0 := by unfold ydayOf; simp [daysBefore]
      rw [this]; push_cast; omega

theorem isDay_days {n : Int} {d : Day} (h : IsDay n d) : d.Valid ∧ dateDays d.year d.month d.day = n + unixDays := by
  induction h with
  | epoch => exact ⟨by decide, by decide⟩
  | next _ ih => exact ⟨Day.tomorrow_valid _ ih.1, by rw [Day.tomorrow_days _ ih.1, ih.2]; omega⟩
  | prev hv _ ih => exact ⟨hv, by have := ih.2; rw [Day.tomorrow_days _ hv] at this; omega⟩

theorem IsDay.of_eq {n m : Int} {d : Day} (h : IsDay n d) (e : n = m) : IsDay m d := e ▸ h

/-- every date has been tomorrow -/
theorem Day.yesterday (d : Day) (h : d.Valid) : ∃ p : Day, p.Valid ∧ p.tomorrow = d := by
  obtain ⟨y, m, dd⟩ := d
  obtain ⟨h1, h2, h3, h4⟩ := h
  dsimp only at h1 h2 h3 h4
  by_cases hd : 1 < dd
  · refine ⟨⟨y, m, dd - 1⟩, ⟨h1, h2, by dsimp only; omega, by dsimp only; omega⟩, ?_⟩
    unfold Day.tomorrow
    dsimp only
    rw [if_pos (by omega), Nat.sub_add_cancel (by omega)]
  · have hd1 : dd = 1 := by omega
    subst hd1
    by_cases hm : 1 < m
    · refine ⟨⟨y, m - 1, monthLength y (m - 1)⟩, ⟨by dsimp only; omega, by dsimp only; omega, ?_, by dsimp only; omega⟩, ?_⟩
      · dsimp only; rw [monthLength_eq]; unfold monthLen
        split
        · omega
        · split
          · split <;> omega
          · omega
      · unfold Day.tomorrow
        dsimp only
        rw [if_neg (by omega), if_pos (by omega), Nat.sub_add_cancel (by omega)]
    · have hm1 : m = 1 := by omega
      subst hm1
      refine ⟨⟨y - 1, 12, 31⟩, ⟨by dsimp only; omega, by dsimp only; omega, by dsimp only; omega, by simp [monthLength]⟩, ?_⟩
      unfold Day.tomorrow
      dsimp only
      rw [if_neg (by simp [monthLength]), if_neg (by decide), Int.sub_add_cancel]

theorem exists_isDay (n : Int) : ∃ d, IsDay n d := by
  have up : ∀ k : Nat, ∃ d, IsDay k d := by
    intro k
    induction k with
    | zero => exact ⟨_, .epoch⟩
    | succ k ih => obtain ⟨d, hd⟩ := ih; exact ⟨_, hd.next⟩
  have down : ∀ k : Nat, ∃ d, IsDay (-(k : Int)) d := by
    intro k
    induction k with
    | zero => exact ⟨_, .epoch⟩
    | succ k ih =>
      obtain ⟨d, hd⟩ := ih
      obtain ⟨p, hp, rfl⟩ := Day.yesterday d (isDay_days hd).1
      exact ⟨p, .prev hp (hd.of_eq (by omega))⟩
  rcases Int.le_total 0 n with h | h
  · obtain ⟨d, hd⟩ := up n.toNat; exact ⟨d, hd.of_eq (by omega)⟩
  · obtain ⟨d, hd⟩ := down (-n).toNat; exact ⟨d, hd.of_eq (by omega)⟩

/-- The two notions agree on every day. -/
theorem isDay_iff (n : Int) (d : Day) : IsDay n d ↔ absDate (n + unixDays) = (d.year, d.month, d.day) := by
  constructor
  · intro h
    obtain ⟨hv, he⟩ := isDay_days h
    rw [← he, absDate_of d hv]
  · intro h
    obtain ⟨d', hd'⟩ := exists_isDay n
    obtain ⟨hv, he⟩ := isDay_days hd'
    rw [← he, absDate_of d' hv] at h
    simp only [Prod.mk.injEq] at h
    obtain ⟨y, m, dd⟩ := d
    obtain ⟨y', m', dd'⟩ := d'
    obtain ⟨rfl, rfl, rfl⟩ := h
    exact hd'

theorem isDay_of_valid (d : Day) (h : d.Valid) : IsDay (dateDays d.year d.month d.day - unixDays) d := by
  rw [isDay_iff, Int.sub_add_cancel, absDate_of d h]

theorem IsDay.valid {n : Int} {d : Day} (h : IsDay n d) : d.Valid := (isDay_days h).1

theorem IsDay.unique {n : Int} {d d' : Day} (h : IsDay n d) (h' : IsDay n d') : d = d' := by
  rw [isDay_iff] at h h'
  rw [h] at h'
  simp only [Prod.mk.injEq] at h'
  obtain ⟨y, m, dd⟩ := d
  obtain ⟨y', m', dd'⟩ := d'
  obtain ⟨rfl, rfl, rfl⟩ := h'
  rfl

theorem daysSinceEpoch_mono {y y' : Int} (h : y ≤ y') : daysSinceEpoch y + 365 * (y' - y) ≤ daysSinceEpoch y' := by
  obtain ⟨k, rfl⟩ : ∃ k : Nat, y' = y + k := ⟨(y' - y).toNat, by omega⟩
  clear h
  induction k with
  | zero => simp
  | succ k ih =>
    have := daysSinceEpoch_next (y + k)
    have hl : 365 ≤ yearLength (y + k) := by unfold yearLength; split <;> omega
    rw [show y + ((k + 1 : Nat) : Int) = y + k + 1 by omega, this]
    omega

/-- years and days are in the same order -/
theorem IsDay.year_lt {n : Int} {d : Day} (h : IsDay n d) (y : Int) : d.year < y ↔ n + unixDays < daysSinceEpoch y := by
  obtain ⟨hv, he⟩ := isDay_days h
  obtain ⟨h1, h2, h3, h4⟩ := hv
  rw [monthLength_eq] at h4
  obtain ⟨-, t2⟩ := monthDay_table (goLeap d.year) d.month (by omega) d.day (by have := monthLen_le (goLeap d.year) d.month; omega) h1 h3 h4
  rw [dateDays_eq] at he
  rw [← yearLength_eq] at t2
  have hn := daysSinceEpoch_next d.year
  constructor
  · intro hlt
    have := daysSinceEpoch_mono (show d.year + 1 ≤ y by omega)
    omega
  · intro hlt
    by_cases hc : d.year < y
    · exact hc
    · have := daysSinceEpoch_mono (show y ≤ d.year by omega)
      omega

end Verif
