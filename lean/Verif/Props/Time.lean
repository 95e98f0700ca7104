import Verif.Lemmas.TimeUnix
/-! # C56, C57: time points, block timestamps and their text -/
namespace Verif

/-! ## C56: conversions from and to `time.Time` -/

/-- Every `TimePoint` is recovered from its `Time()`, which is the instant it names. -/
theorem C56_timePoint (tp : Int64) : newTimePoint (TimePoint.time tp) = tp ∧
    nanos (TimePoint.time tp).sec (TimePoint.time tp).nsec = tp.toInt * 1000 := by
  obtain ⟨h1, h2⟩ := timeUnixMicro_spec tp.toInt
  refine ⟨?_, h2⟩
  unfold newTimePoint TimePoint.time
  rw [unixMicro_eq h1, h2, Int.mul_ediv_cancel _ (by decide), Int64.ofInt_toInt]

theorem timePointSec_time (t : UInt32) : TimePointSec.time t = ⟨t.toNat, 0⟩ := by
  unfold TimePointSec.time timeUnix
  rw [if_neg (by omega)]

/-- Every `TimePointSec` is recovered from its `Time()`, which is the instant it names. -/
theorem C56_timePointSec (t : UInt32) : newTimePointSec (TimePointSec.time t) = t ∧
    nanos (TimePointSec.time t).sec (TimePointSec.time t).nsec = t.toNat * 1000000000 := by
  rw [timePointSec_time]
  refine ⟨?_, by simp [nanos]⟩
  apply UInt32.toNat_inj.1
  unfold newTimePointSec GoTime.unix
  rw [toUInt32_ofInt]
  have := t.toNat_lt
  dsimp only
  omega

theorem blockTimestamp_milli (b : UInt32) :
    (b.toUInt64.toInt64 * 500 + blockTimestampEpochMilli).toInt = b.toNat * 500 + 946684800000 := by
  have hb := b.toNat_lt
  have e : b.toUInt64.toInt64 = Int64.ofInt b.toNat := by
    apply Int64.toInt_inj.1
    rw [Int64.toInt_ofInt_of_le (by omega) (by omega)]
    show b.toUInt64.toBitVec.toInt = _
    rw [BitVec.toInt_eq_toNat_of_lt (by show 2 * b.toUInt64.toNat < _; rw [UInt32.toNat_toUInt64]; omega)]
    show ((b.toUInt64.toNat : Nat) : Int) = _
    rw [UInt32.toNat_toUInt64]
  rw [e, show blockTimestampEpochMilli = Int64.ofInt 946684800000 from rfl, show (500 : Int64) = Int64.ofInt 500 from rfl, ← Int64.ofInt_mul,
    ← Int64.ofInt_add, Int64.toInt_ofInt_of_le (by omega) (by omega)]

theorem blockTimestamp_time (b : UInt32) : BlockTimestamp.time b = timeUnixMilli (b.toNat * 500 + 946684800000) := by
  unfold BlockTimestamp.time; rw [blockTimestamp_milli]

theorem blockTimestamp_spec (b : UInt32) : (BlockTimestamp.time b).Ok ∧
    nanos (BlockTimestamp.time b).sec (BlockTimestamp.time b).nsec = (b.toNat * 500 + 946684800000) * 1000000 := by
  rw [blockTimestamp_time]; exact timeUnixMilli_spec _

/-- Every `BlockTimestamp` is recovered from its `Time()`, which is that many half seconds after the year 2000. -/
theorem C56_blockTimestamp (b : UInt32) : newBlockTimestamp (BlockTimestamp.time b) = b ∧
    nanos (BlockTimestamp.time b).sec (BlockTimestamp.time b).nsec = (b.toNat * 500 + 946684800000) * 1000000 := by
  have hb := b.toNat_lt
  obtain ⟨h1, h2⟩ := blockTimestamp_spec b
  refine ⟨?_, h2⟩
  apply UInt32.toNat_inj.1
  have hs := h1.split.1
  rw [h2] at hs
  rw [newBlockTimestamp_eq h1 (by rw [hs]; omega), h2]
  unfold halfSeconds
  omega

/-- `NewBlockTimestamp` counts half seconds from the year 2000 to the nearest one, a tie going to the later one; the count is taken modulo
2^32. `2^52` seconds are 142 million years. -/
theorem C56_round (t : GoTime) (h : t.Ok) (hr : -2 ^ 52 < t.sec ∧ t.sec < 2 ^ 52) (k : Int)
    (h1 : k * 500000000 - 250000000 ≤ nanos t.sec t.nsec - 946684800000000000)
    (h2 : nanos t.sec t.nsec - 946684800000000000 < k * 500000000 + 250000000) :
    (newBlockTimestamp t).toNat = (k % 2 ^ 32).toNat := by
  rw [newBlockTimestamp_eq h hr, show halfSeconds (nanos t.sec t.nsec) = k by unfold halfSeconds; omega]

/-- For every instant a block timestamp can name (from a quarter of a second before 2000 to 2068), its result is within a quarter of a
second, and no other value is closer. -/
theorem C56_nearest (t : GoTime) (h : t.Ok) (h1 : 946684800000000000 - 250000000 ≤ nanos t.sec t.nsec)
    (h2 : nanos t.sec t.nsec < 946684800000000000 + 2 ^ 32 * 500000000 - 250000000) (b : UInt32) :
    2 * (nanos t.sec t.nsec - (BlockTimestamp.time (newBlockTimestamp t)).sec * 1000000000 - (BlockTimestamp.time (newBlockTimestamp t)).nsec).natAbs ≤ 500000000 ∧
    (nanos t.sec t.nsec - nanos (BlockTimestamp.time (newBlockTimestamp t)).sec (BlockTimestamp.time (newBlockTimestamp t)).nsec).natAbs ≤
      (nanos t.sec t.nsec - nanos (BlockTimestamp.time b).sec (BlockTimestamp.time b).nsec).natAbs := by
  have hs := h.split.1
  have hn := newBlockTimestamp_eq h (by rw [hs]; omega)
  have e1 := (C56_blockTimestamp (newBlockTimestamp t)).2
  have e2 := (C56_blockTimestamp b).2
  rw [e2, e1]
  unfold nanos at e1
  rw [show nanos t.sec t.nsec - (BlockTimestamp.time (newBlockTimestamp t)).sec * 1000000000 - (BlockTimestamp.time (newBlockTimestamp t)).nsec =
    nanos t.sec t.nsec - ((newBlockTimestamp t).toNat * 500 + 946684800000) * 1000000 by rw [← e1]; omega]
  rw [hn]
  have hb := b.toNat_lt
  unfold halfSeconds
  omega

/-- 1999-12-31T23:59:59.400Z is not representable; the count wraps around to the year 2068. -/
theorem C56_before_2000 : newBlockTimestamp ⟨946684799, 400000000⟩ = 4294967295 := by decide +kernel

example : (⟨1519257480, 749999999⟩ : GoTime).Ok ∧ newBlockTimestamp ⟨1519257480, 749999999⟩ = 1145145361 ∧
    newBlockTimestamp ⟨1519257480, 750000000⟩ = 1145145362 ∧ newBlockTimestamp ⟨946684799, 750000000⟩ = 0 := by
  unfold GoTime.Ok; decide +kernel
example : TimePoint.time (-1) = ⟨-1, 999999000⟩ ∧ newTimePoint ⟨-1, 999999999⟩ = -1 := by decide +kernel

/-! ## C57: the calendar -/

/-- Go's arithmetic from a day number to year, month and day is the Gregorian calendar, for every day before and after 1970. -/
theorem C57_calendar (n : Int) (d : Day) : absDate (n + 719162) = (d.year, d.month, d.day) ↔ IsDay n d := (isDay_iff n d).symm

/-- And back: `time.Date` counts the days to any valid date. -/
theorem C57_date (n : Int) (d : Day) (h : d.Valid) : dateDays d.year d.month d.day - 719162 = n ↔ IsDay n d :=
  ⟨fun e => (isDay_of_valid d h).of_eq (by simp only [unixDays]; omega), fun hd => by have := (isDay_days hd).2; simp only [unixDays] at this; omega⟩

example : absDate (18321 + 719162) = (2020, 2, 29) ∧ Day.tomorrow ⟨2020, 2, 29⟩ = ⟨2020, 3, 1⟩ ∧ Day.tomorrow ⟨2100, 2, 28⟩ = ⟨2100, 3, 1⟩ ∧
    Day.tomorrow ⟨1969, 12, 31⟩ = ⟨1970, 1, 1⟩ := by decide +kernel
example : IsDay (-1) ⟨1969, 12, 31⟩ := .prev (by decide) .epoch

/-! ## C57: text -/

/-- The text of an instant whose year has at most four digits. -/
theorem format_utc (milli : Bool) (t : GoTime) (h : t.Ok) (h1 : -62167219200 ≤ t.sec) (h2 : t.sec < 253402300800) :
    UtcText milli (nanos t.sec t.nsec / 1000000) (t.format milli) := by
  obtain ⟨hn1, hn2⟩ := h
  have hms : nanos t.sec t.nsec / 1000000 = t.sec * 1000 + t.nsec / 1000000 := by unfold nanos; omega
  obtain ⟨d, hd⟩ := exists_isDay (t.sec / 86400)
  have hday : (t.sec * 1000 + t.nsec / 1000000) / 86400000 = t.sec / 86400 := by omega
  have hsec : (t.sec * 1000 + t.nsec / 1000000) / 1000 % 86400 = t.sec % 86400 := by omega
  have hmil : (t.sec * 1000 + t.nsec / 1000000) % 1000 = t.nsec / 1000000 := by omega
  have hy0 : 0 ≤ d.year := by
    have := (hd.year_lt 0).1
    have e : daysSinceEpoch 0 = -366 := by decide
    rw [e] at this
    simp only [unixDays] at this
    omega
  have hy1 : d.year < 10000 := by
    refine (hd.year_lt 10000).2 ?_
    have e : daysSinceEpoch 10000 = 3652059 := by decide
    rw [e]; simp only [unixDays]; omega
  obtain ⟨v1, v2, v3, v4⟩ := hd.valid
  have v5 : monthLength d.year d.month ≤ 31 := by rw [monthLength_eq]; exact monthLen_le _ _
  have pad : ∀ (n w : Nat), n < 10 ^ w → 0 < w → Digits w n (padInt n w) := padInt_digits
  have hs : ∀ x : Nat, x = (t.sec % 86400).toNat → x < 86400 := by omega
  have hY := pad d.year.toNat 4 (by omega) (by omega)
  rw [Int.toNat_of_nonneg hy0] at hY
  unfold UtcText
  rw [hms, hday, hsec, hmil]
  have hdate : absDate (t.sec / 86400 + unixDays) = (d.year, d.month, d.day) := (isDay_iff _ _).1 hd
  generalize hS : (t.sec % 86400).toNat = S at *
  have hS' := hs S rfl
  refine ⟨d, padInt d.year 4 ++ [45] ++ padInt d.month 2 ++ [45] ++ padInt d.day 2 ++ [84] ++
    padInt (S / 3600 : Nat) 2 ++ [58] ++ padInt (S % 3600 / 60 : Nat) 2 ++ [58] ++ padInt (S % 60 : Nat) 2, (padInt t.nsec 9).take 3, hd,
    ⟨_, _, _, _, _, _, rfl, hy0, hY, pad _ 2 (by omega) (by omega), pad _ 2 (by omega) (by omega), pad _ 2 (by omega) (by omega), ?_,
      pad _ 2 (by omega) (by omega)⟩, ?_⟩
  · rw [show S / 60 % 60 = S % 3600 / 60 by omega]; exact pad _ 2 (by omega) (by omega)
  · have hfmt : t.format milli = padInt d.year 4 ++ [45] ++ padInt d.month 2 ++ [45] ++ padInt d.day 2 ++ [84] ++
        padInt (S / 3600 : Nat) 2 ++ [58] ++ padInt (S % 3600 / 60 : Nat) 2 ++ [58] ++ padInt (S % 60 : Nat) 2 ++
        (if milli then 46 :: (padInt t.nsec 9).take 3 else []) := by
      unfold GoTime.format
      rw [hdate, hS]
    cases milli with
    | false => simp only [Bool.false_eq_true, if_false] at hfmt ⊢; rw [hfmt, List.append_nil]
    | true =>
      simp only [if_true] at hfmt ⊢
      refine ⟨hfmt, ?_⟩
      have hN := pad t.nsec.toNat 9 (by omega) (by omega)
      rw [Int.toNat_of_nonneg hn1] at hN
      obtain ⟨l1, l2, l3⟩ := hN
      refine ⟨by rw [List.length_take, l1]; rfl, fun c hc => l2 c (List.mem_of_mem_take hc), ?_⟩
      rw [decValue_eq] at l3 ⊢
      have hsplit := List.take_append_drop 3 (padInt t.nsec 9)
      have l4 : AllDigits ((padInt t.nsec 9).drop 3) := fun c hc => l2 c (List.mem_of_mem_drop hc)
      have l5 := decAcc_lt _ l4
      have l6 : ((padInt t.nsec 9).drop 3).length = 6 := by rw [List.length_drop, l1]
      rw [← hsplit, decAcc_append, decAcc_split, l6] at l3
      rw [l6] at l5
      omega

/-- `TimePointSec.String` is the UTC time stamp, for every value. -/
theorem C57_sec_string (t : UInt32) : UtcText false (t.toNat * 1000) (TimePointSec.string t) := by
  have h := format_utc false (TimePointSec.time t) (by rw [timePointSec_time]; exact ⟨Int.le_refl 0, by dsimp only; omega⟩)
    (by rw [timePointSec_time]; dsimp only; omega) (by rw [timePointSec_time]; have := t.toNat_lt; dsimp only; omega)
  rw [(C56_timePointSec t).2] at h
  rwa [show (t.toNat : Int) * 1000000000 / 1000000 = t.toNat * 1000 by omega] at h

/-- `BlockTimestamp.String` is the UTC time stamp with milliseconds, for every value. -/
theorem C57_block_string (b : UInt32) : UtcText true (b.toNat * 500 + 946684800000) (BlockTimestamp.string b) := by
  have hb := b.toNat_lt
  obtain ⟨hok, h0⟩ := blockTimestamp_spec b
  have hs := hok.split.1
  rw [h0] at hs
  have h := format_utc true (BlockTimestamp.time b) hok (by rw [hs]; omega) (by rw [hs]; omega)
  rw [h0] at h
  rwa [Int.mul_ediv_cancel _ (by decide)] at h

/-- `TimePoint.String` is the UTC time stamp down to the millisecond, for every value in the years 0 to 9999. -/
theorem C57_timePoint_string (tp : Int64) (h1 : -62167219200000000 ≤ tp.toInt) (h2 : tp.toInt < 253402300800000000) :
    UtcText true (tp.toInt / 1000) (TimePoint.string tp) := by
  obtain ⟨hok, h0⟩ : (TimePoint.time tp).Ok ∧ _ := timeUnixMicro_spec tp.toInt
  have hs := hok.split.1
  have h0 : nanos (TimePoint.time tp).sec (TimePoint.time tp).nsec = tp.toInt * 1000 := h0
  rw [h0] at hs
  have h := format_utc true (TimePoint.time tp) hok (by rw [hs]; omega) (by rw [hs]; omega)
  rw [h0] at h
  rwa [show tp.toInt * 1000 / 1000000 = tp.toInt / 1000 by omega] at h

/-! ### Reading -/

theorem AllDigits.last {s : Bytes} (h : AllDigits s) (hs : s ≠ []) (p : Bytes) : (p ++ s).getLast? ≠ some 90 := by
  rw [List.getLast?_append, List.getLast?_eq_some_getLast hs]
  intro hl
  have := h 90 (by rw [← Option.some.inj hl]; exact List.getLast_mem hs)
  simp at this

theorem stampIn_last {milli : Bool} {s : Bytes} {d : Day} {hour min sec ns : Nat} (h : StampIn milli s d hour min sec ns) :
    s.getLast? ≠ some 90 := by
  obtain ⟨Y, M, D, H, MI, SE, F, rfl, -, -, -, -, -, -, -, -, -, hSE, -, hF⟩ := h
  have hse : ∀ p, (p ++ SE).getLast? ≠ some 90 := hSE.2.1.last (by intro e; have := hSE.1; rw [e] at this; simp at this)
  cases milli with
  | false =>
    rcases hF with ⟨rfl, -⟩ | ⟨c, t, rfl, -, ht, hd, -⟩
    · rw [List.append_nil]; exact hse _
    · rw [List.append_cons]; exact hd.last ht _
  | true =>
    obtain ⟨c, t, v, rfl, -, hm, -⟩ := hF
    rw [List.append_cons]
    rcases hm with h | ⟨u, rfl, h⟩ | ⟨rfl, -⟩
    · exact h.2.1.last (by intro e; have := h.1; rw [e] at this; simp at this) _
    · rw [List.append_cons]; exact h.2.1.last (by intro e; have := h.1; rw [e] at this; simp at this) _
    · rw [List.append_cons, List.append_cons, List.getLast?_append]; simp

/-- the text of a stamp, possibly followed by `Z` -/
theorem strip_iff {milli : Bool} {s : Bytes} {t : GoTime} : timeParse milli (stripZ s) = some t ↔
    ∃ body d hour min sec ns, (s = body ∨ s = body ++ [90]) ∧ StampIn milli body d hour min sec ns ∧
      t = ⟨(dateDays d.year d.month d.day - unixDays) * 86400 + (hour * 3600 + min * 60 + sec : Nat), (ns : Nat)⟩ := by
  rw [timeParse_iff]
  constructor
  · rintro ⟨d, hh, mi, se, ns, h, rfl⟩
    refine ⟨stripZ s, d, hh, mi, se, ns, ?_, h, rfl⟩
    unfold stripZ
    split
    · rename_i hl
      right
      obtain ⟨p, rfl⟩ := List.getLast?_eq_some_iff.1 hl
      simp
    · exact .inl rfl
  · rintro ⟨body, d, hh, mi, se, ns, hs, h, rfl⟩
    have hl := stampIn_last h
    refine ⟨d, hh, mi, se, ns, ?_, rfl⟩
    rcases hs with rfl | rfl
    · rw [show stripZ s = s by unfold stripZ; rw [if_neg hl]]; exact h
    · rw [show stripZ (body ++ [90]) = body by unfold stripZ; rw [if_pos (by simp)]; simp]; exact h

theorem newTimePointSec_some {s : Bytes} {t : GoTime} (h : timeParse false (stripZ s) = some t) :
    newTimePointSecFromString s = (newTimePointSec t, none) := by unfold newTimePointSecFromString; rw [h]
theorem newTimePoint_some {s : Bytes} {t : GoTime} (h : timeParse true (stripZ s) = some t) :
    newTimePointFromString s = (newTimePoint t, none) := by unfold newTimePointFromString; rw [h]
theorem newBlockTimestamp_some {s : Bytes} {t : GoTime} (h : timeParse true (stripZ s) = some t) :
    newBlockTimestampFromString s = (newBlockTimestamp t, none) := by unfold newBlockTimestampFromString; rw [h]

/-- Exactly what `NewTimePointSecFromString` accepts, and what it returns: the second of the instant modulo 2^32. -/
theorem C57_sec_parse (s : Bytes) (v : UInt32) : newTimePointSecFromString s = (v, none) ↔
    ∃ (body : Bytes) (d : Day) (n : Int) (hour min sec ns : Nat), (s = body ∨ s = body ++ [90]) ∧ StampIn false body d hour min sec ns ∧ IsDay n d ∧
      v.toNat = ((n * 86400 + hour * 3600 + min * 60 + sec) % 2 ^ 32).toNat := by
  unfold newTimePointSecFromString
  constructor
  · intro h
    split at h
    · simp at h
    · rename_i t ht
      simp only [Prod.mk.injEq, and_true] at h
      obtain ⟨body, d, hh, mi, se, ns, hs, hst, rfl⟩ := strip_iff.1 ht
      have hv : d.Valid := by obtain ⟨_, _, _, _, _, _, _, _, _, _, _, _, hv, _⟩ := hst; exact hv
      refine ⟨body, d, _, hh, mi, se, ns, hs, hst, isDay_of_valid d hv, ?_⟩
      rw [← h]
      unfold newTimePointSec GoTime.unix
      rw [toUInt32_ofInt]
      dsimp only
      congr 2; omega
  · rintro ⟨body, d, n, hh, mi, se, ns, hs, hst, hd, hv⟩
    rw [strip_iff.2 ⟨body, d, hh, mi, se, ns, hs, hst, rfl⟩]
    simp only [Prod.mk.injEq, and_true]
    apply UInt32.toNat_inj.1
    rw [hv]
    unfold newTimePointSec GoTime.unix
    rw [toUInt32_ofInt, (isDay_days hd).2]
    dsimp only
    congr 2; omega

/-- the instants of accepted stamps are in the years 0 to 9999 -/
theorem stampIn_bounds {body : Bytes} {d : Day} {hour min sec ns : Nat} {n : Int} (hst : StampIn true body d hour min sec ns) (hd : IsDay n d) :
    ns < 1000000000 ∧ ns % 1000000 = 0 ∧ hour < 24 ∧ min < 60 ∧ sec < 60 ∧ -719528 ≤ n ∧ n < 2932897 := by
  obtain ⟨Y, M, D, H, MI, SE, F, -, hy0, hY, -, -, -, -, hh, -, hm, -, hs, hF⟩ := hst
  have hns : ns < 1000000000 ∧ ns % 1000000 = 0 := by
    obtain ⟨c, t, v, -, -, hm, rfl⟩ := hF
    have : v < 1000 := by
      rcases hm with h | ⟨u, rfl, h⟩ | ⟨-, rfl⟩
      · have := decAcc_lt t h.2.1; rw [← decValue_eq, h.2.2, h.1] at this; omega
      · have := decAcc_lt u h.2.1; rw [← decValue_eq, h.2.2, h.1] at this; omega
      · decide
    omega
  have hyear : d.year.toNat < 10000 := by have := decAcc_lt Y hY.2.1; rw [← decValue_eq, hY.2.2, hY.1] at this; exact this
  have hn1 := (hd.year_lt 10000).1 (by omega)
  have hn2 : -366 ≤ n + unixDays := by
    have := (hd.year_lt 0).2
    have e : daysSinceEpoch 0 = -366 := by decide
    rw [e] at this; omega
  have e : daysSinceEpoch 10000 = 3652059 := by decide
  rw [e] at hn1
  simp only [unixDays] at hn1 hn2
  exact ⟨hns.1, hns.2, hh, hm, hs, by omega, by omega⟩

/-- Exactly what `NewTimePointFromString` accepts, and what it returns. -/
theorem C57_timePoint_parse (s : Bytes) (v : Int64) : newTimePointFromString s = (v, none) ↔
    ∃ (body : Bytes) (d : Day) (n : Int) (hour min sec ns : Nat), (s = body ∨ s = body ++ [90]) ∧ StampIn true body d hour min sec ns ∧ IsDay n d ∧
      v.toInt = (n * 86400 + hour * 3600 + min * 60 + sec) * 1000000 + ns / 1000 := by
  have key : ∀ (d : Day) (n : Int) (hour min sec ns : Nat) (body : Bytes), StampIn true body d hour min sec ns → IsDay n d →
      (newTimePoint ⟨(dateDays d.year d.month d.day - unixDays) * 86400 + (hour * 3600 + min * 60 + sec : Nat), (ns : Nat)⟩).toInt =
        (n * 86400 + hour * 3600 + min * 60 + sec) * 1000000 + ns / 1000 := by
    intro d n hh mi se ns body hst hd
    obtain ⟨b1, -, b2, b3, b4, b5, b6⟩ := stampIn_bounds hst hd
    rw [(isDay_days hd).2]
    unfold newTimePoint
    rw [unixMicro_eq ⟨by dsimp only; omega, by dsimp only; omega⟩, Int64.toInt_ofInt_of_le]
    · unfold nanos; dsimp only; omega
    · unfold nanos; dsimp only; omega
    · unfold nanos; dsimp only; omega
  unfold newTimePointFromString
  constructor
  · intro h
    split at h
    · simp at h
    · rename_i t ht
      simp only [Prod.mk.injEq, and_true] at h
      obtain ⟨body, d, hh, mi, se, ns, hs, hst, rfl⟩ := strip_iff.1 ht
      have hv : d.Valid := by obtain ⟨_, _, _, _, _, _, _, _, _, _, _, _, hv, _⟩ := hst; exact hv
      exact ⟨body, d, _, hh, mi, se, ns, hs, hst, isDay_of_valid d hv, by rw [← h]; exact key d _ hh mi se ns body hst (isDay_of_valid d hv)⟩
  · rintro ⟨body, d, n, hh, mi, se, ns, hs, hst, hd, hv⟩
    rw [strip_iff.2 ⟨body, d, hh, mi, se, ns, hs, hst, rfl⟩]
    simp only [Prod.mk.injEq, and_true]
    apply Int64.toInt_inj.1
    rw [hv]
    exact key d n hh mi se ns body hst hd

/-- Exactly what `NewBlockTimestampFromString` accepts, and what it returns: the nearest half second, counted from 2000 modulo 2^32. -/
theorem C57_block_parse (s : Bytes) (v : UInt32) : newBlockTimestampFromString s = (v, none) ↔
    ∃ (body : Bytes) (d : Day) (n : Int) (hour min sec ns : Nat), (s = body ∨ s = body ++ [90]) ∧ StampIn true body d hour min sec ns ∧ IsDay n d ∧
      v.toNat = (((n * 86400 + hour * 3600 + min * 60 + sec) * 1000 + ns / 1000000 - 946684800000 + 250) / 500 % 2 ^ 32).toNat := by
  have key : ∀ (d : Day) (n : Int) (hour min sec ns : Nat) (body : Bytes), StampIn true body d hour min sec ns → IsDay n d →
      (newBlockTimestamp ⟨(dateDays d.year d.month d.day - unixDays) * 86400 + (hour * 3600 + min * 60 + sec : Nat), (ns : Nat)⟩).toNat =
        (((n * 86400 + hour * 3600 + min * 60 + sec) * 1000 + ns / 1000000 - 946684800000 + 250) / 500 % 2 ^ 32).toNat := by
    intro d n hh mi se ns body hst hd
    obtain ⟨b1, b0, b2, b3, b4, b5, b6⟩ := stampIn_bounds hst hd
    rw [(isDay_days hd).2]
    rw [newBlockTimestamp_eq ⟨by dsimp only; omega, by dsimp only; omega⟩ (by dsimp only; omega)]
    unfold halfSeconds nanos
    dsimp only
    congr 2
    omega
  constructor
  · intro h
    unfold newBlockTimestampFromString at h
    split at h
    · simp at h
    · rename_i t ht
      simp only [Prod.mk.injEq, and_true] at h
      obtain ⟨body, d, hh, mi, se, ns, hs, hst, rfl⟩ := strip_iff.1 ht
      have hv : d.Valid := by obtain ⟨_, _, _, _, _, _, _, _, _, _, _, _, hv, _⟩ := hst; exact hv
      exact ⟨body, d, _, hh, mi, se, ns, hs, hst, isDay_of_valid d hv, by rw [← h]; exact key d _ hh mi se ns body hst (isDay_of_valid d hv)⟩
  · rintro ⟨body, d, n, hh, mi, se, ns, hs, hst, hd, hv⟩
    rw [newBlockTimestamp_some (strip_iff.2 ⟨body, d, hh, mi, se, ns, hs, hst, rfl⟩)]
    simp only [Prod.mk.injEq, and_true]
    apply UInt32.toNat_inj.1
    rw [hv]
    exact key d n hh mi se ns body hst hd

/-! ### Round trips -/

/-- A proper time stamp, with or without `Z`, is parsed to its instant. -/
theorem utc_parse (milli : Bool) (ms : Int) (s : Bytes) (h : UtcText milli ms s) (hm : milli = false → ms % 1000 = 0) :
    timeParse milli (stripZ s) = some ⟨ms / 1000, ms % 1000 * 1000000⟩ ∧ timeParse milli (stripZ (s ++ [90])) = some ⟨ms / 1000, ms % 1000 * 1000000⟩ := by
  obtain ⟨d, stamp, frac, hd, ⟨Y, M, D, H, MI, SE, rfl, hy0, hY, hM, hD, hH, hMI, hSE⟩, hf⟩ := h
  generalize hS : (ms / 1000 % 86400).toNat = S at *
  have hfr : ∃ F, s = Y ++ [45] ++ M ++ [45] ++ D ++ [84] ++ H ++ [58] ++ MI ++ [58] ++ SE ++ F ∧ FractionText milli ((ms % 1000).toNat * 1000000) F := by
    cases milli with
    | false =>
      simp only [Bool.false_eq_true, if_false] at hf
      exact ⟨[], by rw [hf, List.append_nil], .inl ⟨rfl, by rw [hm rfl]; rfl⟩⟩
    | true =>
      simp only [if_true] at hf
      exact ⟨46 :: frac, hf.1, 46, frac, _, rfl, .inl rfl, .inl hf.2, rfl⟩
  obtain ⟨F, hs, hF⟩ := hfr
  have hst : StampIn milli s d (S / 3600) (S / 60 % 60) (S % 60) ((ms % 1000).toNat * 1000000) :=
    ⟨Y, M, D, H, MI, SE, F, hs, hy0, hY, hM, hD, hd.valid, .inl hH, by omega, hMI, by omega, hSE, by omega, hF⟩
  have ht : (⟨(dateDays d.year d.month d.day - unixDays) * 86400 + (S / 3600 * 3600 + S / 60 % 60 * 60 + S % 60 : Nat),
      ((ms % 1000).toNat * 1000000 : Nat)⟩ : GoTime) = ⟨ms / 1000, ms % 1000 * 1000000⟩ := by
    rw [(isDay_days hd).2]
    simp only [GoTime.mk.injEq]
    constructor <;> omega
  rw [← ht]
  exact ⟨strip_iff.2 ⟨s, d, _, _, _, _, .inl rfl, hst, rfl⟩, strip_iff.2 ⟨s, d, _, _, _, _, .inr rfl, hst, rfl⟩⟩

/-- Every `TimePointSec` is read back from its text, with or without a trailing `Z`. -/
theorem C57_sec_roundtrip (t : UInt32) : newTimePointSecFromString (TimePointSec.string t) = (t, none) ∧
    newTimePointSecFromString (TimePointSec.string t ++ [90]) = (t, none) := by
  obtain ⟨h1, h2⟩ := utc_parse false _ _ (C57_sec_string t) (by intro; omega)
  have e : newTimePointSec ⟨(t.toNat * 1000 : Int) / 1000, (t.toNat * 1000 : Int) % 1000 * 1000000⟩ = t := by
    have h := (C56_timePointSec t).1
    rw [timePointSec_time] at h
    rwa [show (t.toNat * 1000 : Int) / 1000 = t.toNat by omega, show (t.toNat * 1000 : Int) % 1000 * 1000000 = 0 by omega]
  rw [newTimePointSec_some h1, newTimePointSec_some h2, e]
  exact ⟨rfl, rfl⟩

/-- Every `BlockTimestamp` is read back from its text, with or without a trailing `Z`. -/
theorem C57_block_roundtrip (b : UInt32) : newBlockTimestampFromString (BlockTimestamp.string b) = (b, none) ∧
    newBlockTimestampFromString (BlockTimestamp.string b ++ [90]) = (b, none) := by
  obtain ⟨h1, h2⟩ := utc_parse true _ _ (C57_block_string b) (by intro h; cases h)
  obtain ⟨hok, c2⟩ := blockTimestamp_spec b
  have c1 := (C56_blockTimestamp b).1
  have e : (⟨(b.toNat * 500 + 946684800000 : Int) / 1000, (b.toNat * 500 + 946684800000 : Int) % 1000 * 1000000⟩ : GoTime) = BlockTimestamp.time b := by
    refine GoTime.Ok.eq ⟨by dsimp only; omega, by dsimp only; omega⟩ hok ?_
    rw [c2]
    unfold nanos; dsimp only; omega
  rw [newBlockTimestamp_some h1, newBlockTimestamp_some h2, e, c1]
  exact ⟨rfl, rfl⟩

/-- A `TimePoint` of the years 0 to 9999 is read back from its text without the microseconds below the millisecond. Missing from the full
statement "`NewTimePointFromString(tp.String())` is `tp` to the millisecond": the years outside, for which it is false
(`C57_timePoint_violated`). -/
theorem C57_timePoint_partial (tp : Int64) (h1 : -62167219200000000 ≤ tp.toInt) (h2 : tp.toInt < 253402300800000000) :
    ∃ v, newTimePointFromString (TimePoint.string tp) = (v, none) ∧ newTimePointFromString (TimePoint.string tp ++ [90]) = (v, none) ∧
      v.toInt = tp.toInt / 1000 * 1000 := by
  obtain ⟨e1, e2⟩ := utc_parse true _ _ (C57_timePoint_string tp h1 h2) (by intro h; cases h)
  refine ⟨newTimePoint ⟨tp.toInt / 1000 / 1000, tp.toInt / 1000 % 1000 * 1000000⟩, newTimePoint_some e1, newTimePoint_some e2, ?_⟩
  · unfold newTimePoint
    rw [unixMicro_eq ⟨by dsimp only; omega, by dsimp only; omega⟩, Int64.toInt_ofInt_of_le]
    · unfold nanos; dsimp only; omega
    · unfold nanos; dsimp only; omega
    · unfold nanos; dsimp only; omega

/-- A whole number of milliseconds comes back unchanged. -/
theorem C57_timePoint_milli_partial (tp : Int64) (h1 : -62167219200000000 ≤ tp.toInt) (h2 : tp.toInt < 253402300800000000) (h3 : 1000 ∣ tp.toInt) :
    newTimePointFromString (TimePoint.string tp) = (tp, none) := by
  obtain ⟨v, hv, -, he⟩ := C57_timePoint_partial tp h1 h2
  rw [hv, show v = tp from Int64.toInt_inj.1 (by omega)]

/-- 10000-01-01T00:00:00.000 and the last millisecond before the year 0 are printed but cannot be read back. -/
theorem C57_timePoint_violated :
    TimePoint.string 253402300800000000 = asc "10000-01-01T00:00:00.000" ∧
    newTimePointFromString (asc "10000-01-01T00:00:00.000") = (0, some errTime) ∧
    TimePoint.string (-62167219200001000) = asc "-0001-12-31T23:59:59.999" ∧
    newTimePointFromString (asc "-0001-12-31T23:59:59.999") = (0, some errTime) := by decide +kernel

/-- The text of one microsecond is the text of zero. -/
theorem C57_microseconds_lost : TimePoint.string 1 = TimePoint.string 0 := by decide +kernel

/-- Reading text for an instant after 2106 (or before 1970) as a `TimePointSec` succeeds with another instant. -/
theorem C57_sec_wraps : newTimePointSecFromString (asc "2106-02-07T06:28:16") = (0, none) ∧
    newTimePointSecFromString (asc "1969-12-31T23:59:59") = (4294967295, none) := by decide +kernel

/-- The three text unmarshalers leave their destination alone when they fail. -/
theorem C57_unmarshalText (text : Bytes) :
    (∀ old v e, TimePoint.unmarshalText old text = (v, some e) → v = old) ∧
    (∀ old v e, TimePointSec.unmarshalText old text = (v, some e) → v = old) ∧
    (∀ old v e, BlockTimestamp.unmarshalText old text = (v, some e) → v = old) ∧
    (∀ old v, TimePoint.unmarshalText old text = (v, none) ↔ newTimePointFromString text = (v, none)) ∧
    (∀ old v, TimePointSec.unmarshalText old text = (v, none) ↔ newTimePointSecFromString text = (v, none)) ∧
    (∀ old v, BlockTimestamp.unmarshalText old text = (v, none) ↔ newBlockTimestampFromString text = (v, none)) := by
  unfold TimePoint.unmarshalText TimePointSec.unmarshalText BlockTimestamp.unmarshalText
  refine ⟨?_, ?_, ?_, ?_, ?_, ?_⟩
  · intro old v e h; split at h <;> simp_all
  · intro old v e h; split at h <;> simp_all
  · intro old v e h; split at h <;> simp_all
  · intro old v; split <;> simp_all
  · intro old v; split <;> simp_all
  · intro old v; split <;> simp_all

example : TimePointSec.string 1235 = asc "1970-01-01T00:20:35" ∧ BlockTimestamp.string 1145145361 = asc "2018-02-21T23:58:00.500" ∧
    TimePoint.string 1519257492222000 = asc "2018-02-21T23:58:12.222" := by decide +kernel
example : newTimePointFromString (asc "2018-02-21T23:58:00.000Z") = (1519257480000000, none) ∧
    newTimePointFromString (asc "2018-02-21T23:58:00Z") = (0, some errTime) ∧ newTimePointFromString (asc "2018-02-21T3:58:00,+12") = (1519185480012000, none) ∧
    newTimePointSecFromString (asc "2018-02-21T23:58:00.999") = (1519257480, none) ∧ newTimePointSecFromString (asc "2018-02-29T00:00:00") = (0, some errTime) := by
  decide +kernel
example : (-62167219200000000 : Int) ≤ (1519257492222333 : Int64).toInt ∧ (1519257492222333 : Int64).toInt < 253402300800000000 := by decide +kernel

end Verif
