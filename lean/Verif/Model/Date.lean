import Verif.Model.Value
/-!
Model of the date and time functions (calculaters/mysql_funcs/datetime_funcs.py).

Dates are the wall-clock fields of Python's `datetime`; the time zone, which `replace`, `+` and `-` keep, is left out, and both
arguments of a difference are in the same zone.  `parse_datetime` (syncany) turns texts into these values and is not modelled.
Every exception inside a function becomes NULL (calculaters/mysql_calculater.py:43-52), here `none`.  `total_seconds()` is a
`float` in Python, here exact.
-/
namespace Verif.Date

/-- Python `datetime.datetime`: year, month, day, microsecond of the day. -/
structure DT where
  y : Int
  m : Int
  d : Int
  us : Int
  deriving DecidableEq, Repr

/-! ### The calendar (Python's `datetime` module) -/

/-- Leap years (`calendar.isleap`). -/
def leap (y : Int) : Bool := y % 4 = 0 && (y % 100 ≠ 0 || y % 400 = 0)

/-- Days in a month. -/
def dim (y m : Int) : Int :=
  if m = 2 then (if leap y then 29 else 28)
  else if m = 4 ∨ m = 6 ∨ m = 9 ∨ m = 11 then 30 else 31

/-- Microseconds in a day. -/
def dayUs : Int := 86400000000

/-- What the constructor accepts. -/
def Valid (x : DT) : Prop :=
  1 ≤ x.y ∧ x.y ≤ 9999 ∧ 1 ≤ x.m ∧ x.m ≤ 12 ∧ 1 ≤ x.d ∧ x.d ≤ dim x.y x.m ∧ 0 ≤ x.us ∧ x.us < dayUs

instance (x : DT) : Decidable (Valid x) := inferInstanceAs (Decidable (_ ∧ _))

/-- `dt.replace(year=y, month=m, day=d)`; `none` is `ValueError`. -/
def replace (x : DT) (y m d : Int) : Option DT :=
  if Valid ⟨y, m, d, x.us⟩ then some ⟨y, m, d, x.us⟩ else none

/-- The next day of the calendar. -/
def nextDay (x : DT) : DT :=
  if x.d < dim x.y x.m then ⟨x.y, x.m, x.d + 1, x.us⟩
  else if x.m < 12 then ⟨x.y, x.m + 1, 1, x.us⟩
  else ⟨x.y + 1, 1, 1, x.us⟩

/-- Days of the year before the month. -/
def daysBeforeMonth (y m : Int) : Int :=
  (if m = 1 then 0 else if m = 2 then 31 else if m = 3 then 59 else if m = 4 then 90 else if m = 5 then 120
   else if m = 6 then 151 else if m = 7 then 181 else if m = 8 then 212 else if m = 9 then 243
   else if m = 10 then 273 else if m = 11 then 304 else 334) + (if 2 < m ∧ leap y then 1 else 0)

/-- Days before January 1st of the year. -/
def daysBeforeYear (y : Int) : Int := (y - 1) * 365 + (y - 1) / 4 - (y - 1) / 100 + (y - 1) / 400

/-- `date.toordinal()`: 0001-01-01 is 1. -/
def ord (x : DT) : Int := daysBeforeYear x.y + daysBeforeMonth x.y x.m + x.d

/-- The day `n` days after 0001-01-01. -/
def ofDays : Nat → DT
  | 0 => ⟨1, 1, 1, 0⟩
  | n + 1 => nextDay (ofDays n)

/-- Microseconds since 0001-01-01 00:00. -/
def inst (x : DT) : Int := (ord x - 1) * dayUs + x.us

/-- `dt + timedelta(microseconds=us)`; `none` is `OverflowError`. -/
def shift (x : DT) (us : Int) : Option DT :=
  let t := inst x + us
  if t < 0 then none
  else
    let z := ofDays (t / dayUs).toNat
    if z.y ≤ 9999 then some { z with us := t % dayUs } else none

/-! ### Interval arithmetic -/

/-- The units of an interval (datetime_funcs.py:11-60). -/
inductive TimeUnit where
  | year | quarter | month | week | day | hour | minute | second | microsecond
  deriving DecidableEq, Repr

/-- datetime_funcs.py:13-15 `TIMEDELTA_UNITS`: seconds; a microsecond counts one second. -/
def unitSeconds : TimeUnit → Int
  | .year => 365 * 24 * 60 * 60
  | .quarter => 90 * 24 * 60 * 60
  | .month => 30 * 24 * 60 * 60
  | .week => 7 * 24 * 60 * 60
  | .day => 24 * 60 * 60
  | .hour => 3600
  | .minute => 60
  | .second => 1
  | .microsecond => 1

/-- datetime_funcs.py:32-39: the day is lowered until the date exists. -/
def lowerDay (x : DT) (y m : Int) : Nat → Option DT
  | 0 => none
  | d + 1 => match replace x y m (d + 1 : Nat) with
    | some z => some z
    | none => lowerDay x y m d

/-- datetime_funcs.py:30-39: the same day of another month, or the last day it has. -/
def clampTo (x : DT) (y m : Int) : Option DT :=
  match replace x y m x.d with
  | some z => some z
  | none => lowerDay x y m (x.d - 1).toNat

/-- datetime_funcs.py:22-29: months.  `int(months / 12)` truncates, `%` is the floor remainder. -/
def months (x : DT) (n : Int) (sub : Bool) : Option DT :=
  let r := n % 12
  let q := n.tdiv 12
  let y := if sub then x.y - q - (if x.m - r < 1 then 1 else 0) else x.y + q + (if x.m + r > 12 then 1 else 0)
  let m := if sub then (x.m - r) + (if x.m - r < 1 then 12 else 0) else (x.m + r) % 12
  clampTo x y m

/-- datetime_funcs.py:19-43 `calculate`. -/
def calculate (x : DT) (u : TimeUnit) (n : Int) (sub : Bool) : Option DT :=
  match u with
  | .year => replace x (if sub then x.y - n else x.y + n) x.m x.d
  | .quarter => months x (n * 3) sub
  | .month => months x n sub
  | u => let td := unitSeconds u * n * 1000000
    shift x (if sub then -td else td)

/-- datetime_funcs.py:45-49 `calculate_datetime` with INTERVAL n unit.  When `calculate` gives nothing, what follows in the
function fails too (50-62: `dt` is already `None`). -/
def addInterval (x : DT) (n : Int) (u : TimeUnit) : Option DT := calculate x u n false
/-- As `addInterval`, subtracting. -/
def subInterval (x : DT) (n : Int) (u : TimeUnit) : Option DT := calculate x u n true

/-- datetime_funcs.py:56-62: a text interval, the groups of the regular expression already turned into numbers (`none` for a
group that did not match). -/
def steps (sub : Bool) : List (TimeUnit × Option Int) → DT → Option DT
  | [], x => some x
  | (_, none) :: l, x => steps sub l x
  | (u, some n) :: l, x => match calculate x u n sub with
    | some z => steps sub l z
    | none => none

/-- datetime_funcs.py:53-55: `a:b` without a day is minutes and seconds. -/
def textInterval (sub : Bool) (x : DT) (y mo d h mi s us : Option Int) : Option DT :=
  let (h, mi, s) := if d = none ∧ h ≠ none ∧ mi ≠ none ∧ s = none then (none, h, mi) else (h, mi, s)
  steps sub [(.year, y), (.month, mo), (.day, d), (.hour, h), (.minute, mi), (.second, s), (.microsecond, us)] x

/-- datetime_funcs.py:233-291: a number as second argument of DATE_ADD, ADDDATE, ADDTIME (DATE_SUB, SUBDATE, SUBTIME) counts
days. -/
def addDays (x : DT) (n : Int) : Option DT := shift x (n * dayUs)
/-- As `addDays`, subtracting. -/
def subDays (x : DT) (n : Int) : Option DT := shift x (-(n * dayUs))

/-! ### Differences -/

/-- datetime_funcs.py:293-301 `mysql_datediff`. -/
def datediff (a b : DT) : Int := (inst b - inst a).tdiv dayUs

/-- datetime_funcs.py:303-311 `mysql_timestampdiff`. -/
def timestampdiff (u : TimeUnit) (a b : DT) : Int := (inst b - inst a).tdiv (unitSeconds u * 1000000)

/-! ### Fields -/

/-- Python `date.weekday()`: Monday is 0. -/
def weekday (x : DT) : Int := (ord x + 6) % 7
/-- datetime_funcs.py:169-175 `mysql_dayofweek`. -/
def dayofweek (x : DT) : Int := weekday x + 1
/-- datetime_funcs.py:193-199 `mysql_dayofyear` (`%j`). -/
def dayofyear (x : DT) : Int := ord x - daysBeforeYear x.y
/-- datetime_funcs.py:177-183 `mysql_week`: C `strftime`, `%U` (weeks begin on Sunday) and `%W` (on Monday):
`(yday + 7 - wday) / 7`, with `yday` from 0 and `wday` from the first day of the week. -/
def week (x : DT) (mode1 : Bool) : Int :=
  if mode1 then (dayofyear x - 1 + 7 - weekday x) / 7
  else (dayofyear x - 1 + 7 - (weekday x + 1) % 7) / 7

/-! ### Time of day -/

/-- Two decimal digits (`%H`, `%M`, `%S`). -/
def two (n : Int) : List Char := [Char.ofNat (48 + (n / 10).toNat), Char.ofNat (48 + (n % 10).toNat)]

/-- datetime_funcs.py:226-231 `mysql_sec_to_time`: 2000-01-01 plus the seconds, printed as a time of day. -/
def secToTime (t : Int) : Option (List Char) :=
  (shift ⟨2000, 1, 1, 0⟩ (t * 1000000)).map fun z =>
    let s := z.us / 1000000
    two (s / 3600) ++ ':' :: two (s / 60 % 60) ++ ':' :: two (s % 60)

/-- `parse_datetime("2000-01-01 " + text)` for a text `HH:MM:SS` (library; only this format). -/
def parseTime : List Char → Option Int
  | [a, b, ':', c, d, ':', e, f] =>
    let dg (c : Char) : Option Int := if c.isDigit then some ((c.toNat : Int) - 48) else none
    match dg a, dg b, dg c, dg d, dg e, dg f with
    | some a, some b, some c, some d, some e, some f =>
      let (h, m, s) := (10 * a + b, 10 * c + d, 10 * e + f)
      if h < 24 ∧ m < 60 ∧ s < 60 then some (h * 3600 + m * 60 + s) else none
    | _, _, _, _, _, _ => none
  | _ => none

/-- datetime_funcs.py:217-224 `mysql_time_to_sec` of a text: the distance from 2000-01-01 00:00:00. -/
def timeToSec (s : List Char) : Option Int := (parseTime s).map fun t => (t * 1000000).tdiv 1000000

end Verif.Date
