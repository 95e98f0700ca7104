import Verif.Spec.Text
/-! # The Gregorian calendar and time stamps, specified day by day; no repository code -/
namespace Verif

structure Day where
  year : Int
  month : Nat
  day : Nat
deriving DecidableEq, Repr

/-- every fourth year is a leap year, except centuries not divisible by 400 -/
def LeapYear (y : Int) : Prop := 4 ∣ y ∧ (¬100 ∣ y ∨ 400 ∣ y)
instance (y : Int) : Decidable (LeapYear y) := inferInstanceAs (Decidable (_ ∧ _))

/-- thirty days has September, ... -/
def monthLength (y : Int) (m : Nat) : Nat :=
  if m = 4 ∨ m = 6 ∨ m = 9 ∨ m = 11 then 30 else if m = 2 then (if LeapYear y then 29 else 28) else 31

def Day.Valid (d : Day) : Prop := 1 ≤ d.month ∧ d.month ≤ 12 ∧ 1 ≤ d.day ∧ d.day ≤ monthLength d.year d.month
instance (d : Day) : Decidable d.Valid := inferInstanceAs (Decidable (_ ∧ _))

def Day.tomorrow (d : Day) : Day :=
  if d.day < monthLength d.year d.month then ⟨d.year, d.month, d.day + 1⟩
  else if d.month < 12 then ⟨d.year, d.month + 1, 1⟩
  else ⟨d.year + 1, 1, 1⟩

/-- `d` is the day `n` days after (before, if negative) 1 January 1970: step by step from that day. -/
inductive IsDay : Int → Day → Prop
  | epoch : IsDay 0 ⟨1970, 1, 1⟩
  | next {n : Int} {d : Day} : IsDay n d → IsDay (n + 1) d.tomorrow
  | prev {n : Int} {d : Day} : d.Valid → IsDay (n + 1) d.tomorrow → IsDay n d

/-- `s` is `n` written with exactly `w` decimal digits. -/
def Digits (w n : Nat) (s : Bytes) : Prop := s.length = w ∧ AllDigits s ∧ decValue s = n

/-- `s` is `YYYY-MM-DDThh:mm:ss` for the given day and the given second of it. -/
def StampText (s : Bytes) (d : Day) (second : Nat) : Prop :=
  ∃ Y M D h m sec : Bytes, s = Y ++ [45] ++ M ++ [45] ++ D ++ [84] ++ h ++ [58] ++ m ++ [58] ++ sec ∧
    0 ≤ d.year ∧ Digits 4 d.year.toNat Y ∧ Digits 2 d.month M ∧ Digits 2 d.day D ∧
    Digits 2 (second / 3600) h ∧ Digits 2 (second / 60 % 60) m ∧ Digits 2 (second % 60) sec

/-- `s` is the UTC time stamp of the instant `ms` milliseconds after 1970 (before it, if negative), with the milliseconds if `milli` and
nothing below the second otherwise. -/
def UtcText (milli : Bool) (ms : Int) (s : Bytes) : Prop :=
  ∃ (d : Day) (stamp frac : Bytes), IsDay (ms / 86400000) d ∧ StampText stamp d (ms / 1000 % 86400).toNat ∧
    if milli then s = stamp ++ 46 :: frac ∧ Digits 3 (ms % 1000).toNat frac else s = stamp

/-- The three characters after the point that `time.Parse` takes for `.000`: three digits, or (its own peculiarity) a sign and two
digits, which must be zeros after a minus. -/
def MilliText (v : Nat) (s : Bytes) : Prop :=
  Digits 3 v s ∨ (∃ t, s = 43 :: t ∧ Digits 2 v t) ∨ (s = [45, 48, 48] ∧ v = 0)

/-- A fraction of a second worth `ns` nanoseconds, as accepted: with `.000` in the layout a point or a comma and `MilliText`; without it
nothing, or a point or a comma and any number of digits of which nine count. -/
def FractionText (milli : Bool) (ns : Nat) (s : Bytes) : Prop :=
  if milli then ∃ (c : UInt8) (t : Bytes) (v : Nat), s = c :: t ∧ (c = 46 ∨ c = 44) ∧ MilliText v t ∧ ns = v * 1000000
  else (s = [] ∧ ns = 0) ∨ ∃ (c : UInt8) (t : Bytes), s = c :: t ∧ (c = 46 ∨ c = 44) ∧ t ≠ [] ∧ AllDigits t ∧
    ns = decValue (t.take 9) * 10 ^ (9 - t.length)

/-- `s` is an accepted time stamp for the day `d`, the clock `hour:min:sec` and `ns` nanoseconds. The hour may have one digit. -/
def StampIn (milli : Bool) (s : Bytes) (d : Day) (hour min sec ns : Nat) : Prop :=
  ∃ Y M D h m s' frac : Bytes, s = Y ++ [45] ++ M ++ [45] ++ D ++ [84] ++ h ++ [58] ++ m ++ [58] ++ s' ++ frac ∧
    0 ≤ d.year ∧ Digits 4 d.year.toNat Y ∧ Digits 2 d.month M ∧ Digits 2 d.day D ∧ d.Valid ∧
    (Digits 2 hour h ∨ Digits 1 hour h) ∧ hour < 24 ∧ Digits 2 min m ∧ min < 60 ∧ Digits 2 sec s' ∧ sec < 60 ∧ FractionText milli ns frac

/-- the instant of a `time.Time`, in nanoseconds since 1970 -/
def nanos (sec nsec : Int) : Int := sec * 1000000000 + nsec

end Verif
