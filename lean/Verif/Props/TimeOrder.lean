import Verif.Lemmas.TimeOrder
import Verif.Props.Time
/-! # C108: the text of time values sorts as the values do -/
namespace Verif

/-- Text of seconds: byte order (the order of Go's `<` and of `sort.Strings`) is the order of the values. -/
theorem C108_sec (a b : UInt32) : (TimePointSec.string a < TimePointSec.string b ↔ a < b) ∧
    (TimePointSec.string a = TimePointSec.string b ↔ a = b) := by
  have key : ∀ a b : UInt32, a < b → TimePointSec.string a < TimePointSec.string b := by
    intro a b h
    rw [UInt32.lt_iff_toNat_lt] at h
    exact utc_sec_lt (C57_sec_string a) (C57_sec_string b) (by omega)
  have tri : a < b ∨ a = b ∨ b < a := by
    rw [UInt32.lt_iff_toNat_lt, UInt32.lt_iff_toNat_lt, ← UInt32.toNat_inj]; omega
  rcases tri with h | rfl | h
  · have := key a b h
    refine ⟨⟨fun _ => h, fun _ => this⟩, ⟨fun e => ?_, fun e => by rw [e]⟩⟩
    rw [e] at this; exact absurd this (List.lt_irrefl _)
  · exact ⟨⟨fun h => absurd h (List.lt_irrefl _), fun h => absurd h (UInt32.lt_irrefl _)⟩, by simp⟩
  · have := key b a h
    refine ⟨⟨fun h' => absurd (List.lt_trans this h') (List.lt_irrefl _), fun h' => absurd h' (UInt32.lt_asymm h)⟩, ⟨fun e => ?_, fun e => by rw [e]⟩⟩
    rw [e] at this; exact absurd this (List.lt_irrefl _)

example : TimePointSec.string 1700000000 = asc "2023-11-14T22:13:20" := by decide +kernel

/-- Text of half-second slots likewise. -/
theorem C108_block (a b : UInt32) : (BlockTimestamp.string a < BlockTimestamp.string b ↔ a < b) ∧
    (BlockTimestamp.string a = BlockTimestamp.string b ↔ a = b) := by
  have key : ∀ a b : UInt32, a < b → BlockTimestamp.string a < BlockTimestamp.string b := by
    intro a b h
    rw [UInt32.lt_iff_toNat_lt] at h
    exact utc_milli_lt (C57_block_string a) (C57_block_string b) (by omega)
  have tri : a < b ∨ a = b ∨ b < a := by
    rw [UInt32.lt_iff_toNat_lt, UInt32.lt_iff_toNat_lt, ← UInt32.toNat_inj]; omega
  rcases tri with h | rfl | h
  · have := key a b h
    refine ⟨⟨fun _ => h, fun _ => this⟩, ⟨fun e => ?_, fun e => by rw [e]⟩⟩
    rw [e] at this; exact absurd this (List.lt_irrefl _)
  · exact ⟨⟨fun h => absurd h (List.lt_irrefl _), fun h => absurd h (UInt32.lt_irrefl _)⟩, by simp⟩
  · have := key b a h
    refine ⟨⟨fun h' => absurd (List.lt_trans this h') (List.lt_irrefl _), fun h' => absurd h' (UInt32.lt_asymm h)⟩, ⟨fun e => ?_, fun e => by rw [e]⟩⟩
    rw [e] at this; exact absurd this (List.lt_irrefl _)

example : BlockTimestamp.string 3 = asc "2000-01-01T00:00:01.500" := by decide +kernel

/-- Text of microseconds: in the years 0 to 9999 the byte order is the order of the milliseconds (rounded down, also before 1970), and
values in one millisecond share their text. What is missing from the order of the values: the last three digits, which the text does
not hold (`C57_microseconds_lost`), and the other years, where it fails (`C108_timePoint_violated`). -/
theorem C108_timePoint_partial (a b : Int64) (ha : -62167219200000000 ≤ a.toInt ∧ a.toInt < 253402300800000000)
    (hb : -62167219200000000 ≤ b.toInt ∧ b.toInt < 253402300800000000) :
    (TimePoint.string a < TimePoint.string b ↔ a.toInt / 1000 < b.toInt / 1000) ∧
    (TimePoint.string a = TimePoint.string b ↔ a.toInt / 1000 = b.toInt / 1000) := by
  have ta := C57_timePoint_string a ha.1 ha.2
  have tb := C57_timePoint_string b hb.1 hb.2
  generalize TimePoint.string a = s at ta ⊢
  generalize TimePoint.string b = s' at tb ⊢
  rcases Int.lt_trichotomy (a.toInt / 1000) (b.toInt / 1000) with h | h | h
  · have := utc_milli_lt ta tb h
    refine ⟨⟨fun _ => h, fun _ => this⟩, ⟨fun e => ?_, fun e => by omega⟩⟩
    rw [e] at this; exact absurd this (List.lt_irrefl _)
  · rw [h] at ta
    have e := utc_milli_unique ta tb
    exact ⟨⟨fun h' => absurd (by rwa [e] at h') (List.lt_irrefl _), fun h' => by omega⟩, ⟨fun _ => h, fun _ => e⟩⟩
  · have := utc_milli_lt tb ta h
    refine ⟨⟨fun h' => absurd (List.lt_trans this h') (List.lt_irrefl _), fun h' => by omega⟩, ⟨fun e => ?_, fun e => by omega⟩⟩
    rw [e] at this; exact absurd this (List.lt_irrefl _)

example : TimePoint.string (-1) = asc "1969-12-31T23:59:59.999" ∧ TimePoint.string 0 = asc "1970-01-01T00:00:00.000" ∧
    TimePoint.string (-1) < TimePoint.string 0 := by decide +kernel

/-- Later instants whose text sorts earlier: from the year 10000 on, the year has five digits; before the year 0 the sign comes first,
and the more negative year sorts last. -/
theorem C108_timePoint_violated :
    (∃ a b : Int64, a < b ∧ TimePoint.string b < TimePoint.string a ∧ 0 ≤ a) ∧
    (∃ a b : Int64, a < b ∧ TimePoint.string b < TimePoint.string a ∧ b < 0) :=
  ⟨⟨253402300799000000, 253402300800000000, by decide +kernel⟩, ⟨-99999999999000000, -65000000000000000, by decide +kernel⟩⟩

end Verif
