import Verif.Go.Strconv
/-!
# Go `time` (standard library, modelled by documented behaviour and by the published algorithm)

A `time.Time` is an instant: Unix seconds and nanoseconds within the second. Locations are not modelled (the repository formats in UTC and
parses without a zone, which means UTC), nor is the monotonic clock reading (stripped by `Round`, not used by `Unix*`), nor the wrap-around
of Go's internal 64-bit second counter, which starts 292 thousand million years away from 1970.
-/
namespace Verif

/-- `time.Time`; `nsec < 10^9` -/
structure GoTime where
  sec : Int
  nsec : Int
deriving DecidableEq, Repr

/-- the nanosecond field is within the second, as in every `time.Time` -/
def GoTime.Ok (t : GoTime) : Prop := 0 ≤ t.nsec ∧ t.nsec < 1000000000

/-- `time.Unix(sec, nsec)`: Go's division truncates towards zero, so a negative remainder borrows a second. -/
def timeUnix (sec nsec : Int) : GoTime :=
  if nsec < 0 ∨ nsec ≥ 1000000000 then
    let n := nsec.tdiv 1000000000
    let nsec' := nsec - n * 1000000000
    if nsec' < 0 then ⟨sec + n - 1, nsec' + 1000000000⟩ else ⟨sec + n, nsec'⟩
  else ⟨sec, nsec⟩

/-- `time.UnixMilli(msec)` -/
def timeUnixMilli (msec : Int) : GoTime := timeUnix (msec.tdiv 1000) (msec.tmod 1000 * 1000000)

/-- `time.UnixMicro(usec)` -/
def timeUnixMicro (usec : Int) : GoTime := timeUnix (usec.tdiv 1000000) (usec.tmod 1000000 * 1000)

/-- `t.Unix()`: an int64 -/
def GoTime.unix (t : GoTime) : Int64 := Int64.ofInt t.sec

/-- `t.UnixMilli()`: `t.unixSec()*1e3 + int64(t.nsec())/1e6`, in int64 arithmetic -/
def GoTime.unixMilli (t : GoTime) : Int64 := Int64.ofInt t.sec * 1000 + Int64.ofInt (t.nsec.tdiv 1000000)

/-- `t.UnixMicro()` -/
def GoTime.unixMicro (t : GoTime) : Int64 := Int64.ofInt t.sec * 1000000 + Int64.ofInt (t.nsec.tdiv 1000)

/-- `t.Add(d)` for a duration of `d` nanoseconds -/
def GoTime.add (t : GoTime) (d : Int) : GoTime :=
  let sec := t.sec + d.tdiv 1000000000
  let nsec := t.nsec + d.tmod 1000000000
  if nsec ≥ 1000000000 then ⟨sec + 1, nsec - 1000000000⟩
  else if nsec < 0 then ⟨sec - 1, nsec + 1000000000⟩
  else ⟨sec, nsec⟩

/-- The remainder computed by `time.div(t, d)` in its case "`d < Second && Second%(d+d) == 0`": seconds are counted from the year 1
(62135596800 seconds before 1970) and instants before it are mirrored first. -/
def GoTime.rem (t : GoTime) (d : Int) : Int :=
  if t.sec + 62135596800 < 0 then
    let nsec := if -t.nsec < 0 then -t.nsec + 1000000000 else -t.nsec
    let r := nsec.tmod d
    if r ≠ 0 then d - r else r
  else t.nsec.tmod d

/-- `t.Round(d)` for such a `d` (500 ms is one) -/
def GoTime.round (t : GoTime) (d : Int) : GoTime :=
  let r := t.rem d
  if r + r < d then t.add (-r) else t.add (d - r)

/-! ## The calendar -/

/-- `time.isLeap` -/
def goLeap (year : Int) : Bool := year.tmod 4 == 0 && (year.tmod 100 != 0 || year.tmod 400 == 0)

/-- `time.daysBefore[m]`: days of a common year before month `m + 1` -/
def daysBefore : Nat → Nat
  | 0 => 0 | 1 => 31 | 2 => 59 | 3 => 90 | 4 => 120 | 5 => 151 | 6 => 181
  | 7 => 212 | 8 => 243 | 9 => 273 | 10 => 304 | 11 => 334 | _ => 365

/-- `time.daysIn(m, year)` -/
def daysIn (m : Nat) (year : Int) : Nat := if m = 2 ∧ goLeap year then 29 else daysBefore m - daysBefore (m - 1)

/-- `time.daysSinceEpoch(year)`, counted from 1 January of the year 1 instead of Go's `absoluteZeroYear` (1 minus a multiple of 400). -/
def daysSinceEpoch (year : Int) : Int :=
  let n := (year - 1) / 400
  let y := ((year - 1) % 400).toNat
  146097 * n + (36524 * (y / 100) + 1461 * (y % 100 / 4) + 365 * (y % 100 % 4) : Nat)

/-- The days of `time.Date(year, month, day, ..)` counted from 1 January of the year 1. -/
def dateDays (year : Int) (month day : Nat) : Int :=
  daysSinceEpoch year + daysBefore (month - 1) + (if goLeap year ∧ 3 ≤ month then 1 else 0) + (day - 1 : Nat)

/-- `time.absDate`, the second half: month and day from the day of the year. -/
def monthDay (leap : Bool) (yday : Nat) : Nat × Nat :=
  if leap ∧ yday = 59 then (2, 29)
  else
    let day := if leap ∧ yday > 59 then yday - 1 else yday
    let month := day / 31
    if day ≥ daysBefore (month + 1) then (month + 2, day - daysBefore (month + 1) + 1)
    else (month + 1, day - daysBefore month + 1)

/-- `time.absDate`, the first half: year and day of the year, from the days since 1 January of the year 1. -/
def yearDay (d : Int) : Int × Nat :=
  let n := d / 146097
  let r := (d % 146097).toNat
  let c := r / 36524 - r / 36524 / 4
  let r := r - 36524 * c
  let q := r / 1461
  let r := r - 1461 * q
  let y := r / 365 - r / 365 / 4
  let r := r - 365 * y
  (400 * n + (100 * c + 4 * q + y : Nat) + 1, r)

/-- `t.Date()` for a day counted from the year 1 -/
def absDate (d : Int) : Int × Nat × Nat := let (y, yd) := yearDay d; (y, monthDay (goLeap y) yd)

/-- days from the year 1 to 1970 -/
def unixDays : Int := 719162

/-! ## Format -/

/-- `time.appendInt(b, x, width)` -/
def padInt (x : Int) (width : Nat) : Bytes :=
  (if x < 0 then [45] else []) ++ List.replicate (width - (fmtNat x.natAbs).length) 48 ++ fmtNat x.natAbs

/-- `t.UTC().Format("2006-01-02T15:04:05")`, with `.000` appended to the layout if `milli`. The layout is compiled by hand
(`nextStdChunk`): zero padded fields, and the first three of nine digits of the nanoseconds. -/
def GoTime.format (milli : Bool) (t : GoTime) : Bytes :=
  let (y, m, d) := absDate (t.sec / 86400 + unixDays)
  let s := (t.sec % 86400).toNat
  padInt y 4 ++ [45] ++ padInt m 2 ++ [45] ++ padInt d 2 ++ [84] ++
    padInt (s / 3600 : Nat) 2 ++ [58] ++ padInt (s % 3600 / 60 : Nat) 2 ++ [58] ++ padInt (s % 60 : Nat) 2 ++
    (if milli then 46 :: (padInt t.nsec 9).take 3 else [])

/-! ## Parse -/

/-- `time.skip(value, prefix)` for a one-byte prefix other than a space -/
def skipByte (c : UInt8) : Bytes → Option Bytes
  | [] => none
  | b :: s => if b = c then some s else none

/-- `time.getnum(s, fixed)`: one or two digits, exactly two if `fixed`. -/
def getnum (fixed : Bool) : Bytes → Option (Nat × Bytes)
  | [] => none
  | [a] => if isDigit a ∧ fixed = false then some (digitVal a, []) else none
  | a :: b :: s =>
    if isDigit a then
      if isDigit b then some (digitVal a * 10 + digitVal b, s)
      else if fixed then none else some (digitVal a, b :: s)
    else none

/-- `time.leadingInt`, required to consume everything. Overflow is not modelled: it is called here on at most nine digits. -/
def digitsOnly : Bytes → Nat → Option Nat
  | [], n => some n
  | c :: s, n => if isDigit c then digitsOnly s (n * 10 + digitVal c) else none

/-- `time.atoi`: an optional sign and digits, possibly none. -/
def timeAtoi (s : Bytes) : Option Int :=
  match s with
  | 45 :: t => (digitsOnly t 0).map (fun n : Nat => -Int.ofNat n)
  | 43 :: t => (digitsOnly t 0).map Int.ofNat
  | _ => (digitsOnly s 0).map Int.ofNat

/-- `time.commaOrPeriod` -/
def commaOrPeriod (c : UInt8) : Bool := c == 46 || c == 44

/-- `time.parseNanoseconds(value, nbytes)`, applied to `value[:nbytes]`: at most nine digits count. -/
def parseNanoseconds (value : Bytes) : Option Nat :=
  match value with
  | [] => none
  | c :: _ =>
    if commaOrPeriod c then
      let v := value.take 10
      match timeAtoi (v.drop 1) with
      | none => none
      | some ns => if ns < 0 then none else some (ns.toNat * 10 ^ (10 - v.length))
    else none

/-- number of digits at the start -/
def leadingDigits : Bytes → Nat
  | [] => 0
  | c :: s => if isDigit c then leadingDigits s + 1 else 0

/-- The part of `time.Parse` after the seconds: with `.000` in the layout exactly four bytes are a fraction; without it a fraction of any
length is accepted all the same ("special case" in `stdZeroSecond`). -/
def parseFraction (milli : Bool) (value : Bytes) : Option (Nat × Bytes) :=
  if milli then
    if value.length < 4 then none else (parseNanoseconds (value.take 4)).map fun ns => (ns, value.drop 4)
  else
    match value with
    | c :: rest =>
      if commaOrPeriod c ∧ 0 < leadingDigits rest then
        let n := leadingDigits rest + 1
        (parseNanoseconds (value.take n)).map fun ns => (ns, value.drop n)
      else some (0, value)
    | [] => some (0, [])

/-- `stdLongYear`: four bytes, the first of them a digit -/
def parseYear (value : Bytes) : Option (Int × Bytes) :=
  match value with
  | c :: _ => if value.length < 4 ∨ ¬isDigit c then none else (timeAtoi (value.take 4)).map fun y => (y, value.drop 4)
  | [] => none

/-- `time.Parse(layout, value)` for the layout `2006-01-02T15:04:05` and, if `milli`, the same followed by `.000`; compiled by hand as in
`GoTime.format`. The text of the error is not modelled. `none` is an error. -/
def timeParse (milli : Bool) (value : Bytes) : Option GoTime := do
  let (year, v) ← parseYear value
  let v ← skipByte 45 v
  let (month, v) ← getnum true v
  if month = 0 ∨ 12 < month then none else do
  let v ← skipByte 45 v
  let (day, v) ← getnum true v
  let v ← skipByte 84 v
  let (hour, v) ← getnum false v
  if 24 ≤ hour then none else do
  let v ← skipByte 58 v
  let (min, v) ← getnum true v
  if 60 ≤ min then none else do
  let v ← skipByte 58 v
  let (sec, v) ← getnum true v
  if 60 ≤ sec then none else do
  let (nsec, v) ← parseFraction milli v
  if v ≠ [] then none
  else if day = 0 ∨ daysIn month year < day then none
  else some ⟨(dateDays year month day - unixDays) * 86400 + (hour * 3600 + min * 60 + sec : Nat), nsec⟩

end Verif
