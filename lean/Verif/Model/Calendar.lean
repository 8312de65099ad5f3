import Verif.Model.Date
/-!
Model of the formatting and conversion functions of calculaters/mysql_funcs/datetime_funcs.py (92-191, 202-215, 314-335).

`strftime` is Python's, on Linux: C's `strftime` in the C locale, with `%f` by Python.  Texts as arguments (`parse_datetime`,
syncany) are not modelled.  Exceptions become NULL, here `none`.
-/
namespace Verif.Calendar
open Verif.Date

/-- Texts. -/
abbrev Text := List Char

/-! ### Fields of the time of day -/

/-- `datetime.hour`. -/
def hour (x : DT) : Int := x.us / 3600000000
/-- `datetime.minute`. -/
def minute (x : DT) : Int := x.us / 60000000 % 60
/-- `datetime.second`. -/
def second (x : DT) : Int := x.us / 1000000 % 60
/-- `datetime.microsecond`. -/
def micro (x : DT) : Int := x.us % 1000000
/-- The hour on a clock of twelve hours. -/
def hour12 (x : DT) : Int := if hour x % 12 = 0 then 12 else hour x % 12

/-! ### C's `strftime` -/

/-- The English names of the days, as `strftime` writes them (datetime_funcs.py uses `%A`). -/
def weekdayNames : List Text :=
  ["Monday", "Tuesday", "Wednesday", "Thursday", "Friday", "Saturday", "Sunday"].map String.toList

/-- The English names of the months, as `strftime` writes them. -/
def monthNames : List Text :=
  ["January", "February", "March", "April", "May", "June", "July", "August", "September", "October", "November", "December"].map
    String.toList

/-- `%A`. -/
def dayName (x : DT) : Text := weekdayNames.getD (weekday x).toNat []
/-- `%B`. -/
def monthName (x : DT) : Text := monthNames.getD (x.m - 1).toNat []

/-- The last digit. -/
def digit (n : Int) : Char := Char.ofNat (48 + (n % 10).toNat)

/-- `n` digits, with leading zeros. -/
def padded : Nat → Int → Text
  | 0, _ => []
  | k + 1, n => padded k (n / 10) ++ [digit n]

/-- Decimal digits without leading zeros (up to four: years, months, days, hours). -/
def plain (n : Int) : Text :=
  if n < 10 then padded 1 n else if n < 100 then padded 2 n else if n < 1000 then padded 3 n else padded 4 n

/-- Two places, with a leading space. -/
def spaced (n : Int) : Text := if n < 10 then ' ' :: padded 1 n else padded 2 n

/-- What is not computed from the fields of the date, or not modelled: `%s` (seconds since 1970 in the zone of the machine), `%V`,
`%G`, `%g` (ISO weeks), `%z`, `%Z`. -/
structure Lib where
  other : Char → DT → Text

/-- One directive of `strftime`; an unknown one is copied. -/
def directive (lib : Lib) (c : Char) (x : DT) : Text :=
  match c with
  | 'a' => (dayName x).take 3
  | 'A' => dayName x
  | 'b' => (monthName x).take 3
  | 'h' => (monthName x).take 3
  | 'B' => monthName x
  | 'c' => (dayName x).take 3 ++ ' ' :: (monthName x).take 3 ++ ' ' :: spaced x.d ++ ' ' :: padded 2 (hour x) ++ ':' ::
      padded 2 (minute x) ++ ':' :: padded 2 (second x) ++ ' ' :: plain x.y
  | 'C' => padded 2 (x.y / 100)
  | 'd' => padded 2 x.d
  | 'D' => padded 2 x.m ++ '/' :: padded 2 x.d ++ '/' :: padded 2 (x.y % 100)
  | 'e' => spaced x.d
  | 'f' => padded 6 (micro x)
  | 'F' => plain x.y ++ '-' :: padded 2 x.m ++ '-' :: padded 2 x.d
  | 'H' => padded 2 (hour x)
  | 'I' => padded 2 (hour12 x)
  | 'j' => padded 3 (dayofyear x)
  | 'k' => spaced (hour x)
  | 'l' => spaced (hour12 x)
  | 'm' => padded 2 x.m
  | 'M' => padded 2 (minute x)
  | 'n' => ['\n']
  | 'p' => if hour x < 12 then ['A', 'M'] else ['P', 'M']
  | 'r' => padded 2 (hour12 x) ++ ':' :: padded 2 (minute x) ++ ':' :: padded 2 (second x) ++ ' ' ::
      (if hour x < 12 then ['A', 'M'] else ['P', 'M'])
  | 'R' => padded 2 (hour x) ++ ':' :: padded 2 (minute x)
  | 'S' => padded 2 (second x)
  | 't' => ['\t']
  | 'T' => padded 2 (hour x) ++ ':' :: padded 2 (minute x) ++ ':' :: padded 2 (second x)
  | 'u' => plain (weekday x + 1)
  | 'U' => padded 2 (week x false)
  | 'w' => plain ((weekday x + 1) % 7)
  | 'W' => padded 2 (week x true)
  | 'x' => padded 2 x.m ++ '/' :: padded 2 x.d ++ '/' :: padded 2 (x.y % 100)
  | 'X' => padded 2 (hour x) ++ ':' :: padded 2 (minute x) ++ ':' :: padded 2 (second x)
  | 'y' => padded 2 (x.y % 100)
  | 'Y' => plain x.y
  | '%' => ['%']
  | 's' => lib.other 's' x
  | 'V' => lib.other 'V' x
  | 'G' => lib.other 'G' x
  | 'g' => lib.other 'g' x
  | 'z' => lib.other 'z' x
  | 'Z' => lib.other 'Z' x
  | c => ['%', c]

/-- `dt.strftime(f)`. -/
def strftime (lib : Lib) (x : DT) : Text → Text
  | '%' :: c :: f => directive lib c x ++ strftime lib x f
  | c :: f => c :: strftime lib x f
  | [] => []

/-- datetime_funcs.py:319, 327 `f.replace("%v", "%V")`. -/
def replaceV : Text → Text
  | '%' :: 'v' :: f => '%' :: 'V' :: replaceV f
  | c :: f => c :: replaceV f
  | [] => []

/-- datetime_funcs.py:314-327 `mysql_date_format`, `mysql_time_format`. -/
def dateFormat (lib : Lib) (x : DT) (f : Text) : Text := strftime lib x (replaceV f)

/-- datetime_funcs.py:154-159 `mysql_monthname`. -/
def monthname (lib : Lib) (x : DT) : Text := strftime lib x ['%', 'b']

/-- datetime_funcs.py:162-167 `mysql_dayname`. -/
def dayname (lib : Lib) (x : DT) : Text := strftime lib x ['%', 'A']

/-- Python `int(text)` of decimal digits. -/
def int? (t : Text) : Option Int :=
  if t ≠ [] ∧ t.all Char.isDigit then some (t.foldl (fun n c => 10 * n + ((c.toNat : Int) - 48)) 0) else none

/-- datetime_funcs.py:186-191 `mysql_yearweek`. -/
def yearweek (lib : Lib) (x : DT) (mode1 : Bool) : Option Int :=
  int? (strftime lib x (if mode1 then ['%', 'Y', '%', 'W'] else ['%', 'Y', '%', 'U']))

/-! ### Dates, times, instants -/

/-- A value of a date or time type.  `time us`: microsecond of the day. -/
inductive Temporal where
  | date (y m d : Int)
  | time (us : Int)
  | datetime (x : DT)
  deriving DecidableEq, Repr

/-- datetime_funcs.py:92-101 `mysql_date`. -/
def date : Option Temporal → Option Temporal
  | some (.datetime x) => some (.date x.y x.m x.d)
  | some (.date y m d) => some (.date y m d)
  | _ => none

/-- datetime_funcs.py:104-117 `mysql_datetime`; `now`: the moment of the call. -/
def datetime (now : DT) : Option Temporal → Option Temporal
  | some (.datetime x) => some (.datetime x)
  | some (.date y m d) => some (.datetime ⟨y, m, d, 0⟩)
  | some (.time us) => some (.datetime ⟨now.y, now.m, now.d, us⟩)
  | none => none

/-- datetime_funcs.py:120-131 `mysql_time`. -/
def time : Option Temporal → Option Temporal
  | some (.time us) => some (.time us)
  | some (.datetime x) => some (.time x.us)
  | some (.date _ _ _) => some (.time 0)
  | none => none

/-- datetime_funcs.py:146-151, 202-215 `mysql_year`, `mysql_month`, `mysql_dayofmonth`; a `time` has no such attribute
(exception). -/
def year : Option Temporal → Option Int
  | some (.datetime x) => some x.y
  | some (.date y _ _) => some y
  | _ => none
/-- As `year`: `MONTH`. -/
def month : Option Temporal → Option Int
  | some (.datetime x) => some x.m
  | some (.date _ m _) => some m
  | _ => none
/-- As `year`: `DAYOFMONTH`. -/
def dayofmonth : Option Temporal → Option Int
  | some (.datetime x) => some x.d
  | some (.date _ _ d) => some d
  | _ => none

/-- Seconds since 1970-01-01 00:00 of a wall clock reading, in the zone of the clock. -/
def wallSeconds (x : DT) : Int := (inst x - inst ⟨1970, 1, 1, 0⟩) / 1000000

/-- An aware `datetime`: the wall clock and the offset of its zone from UTC in seconds. -/
structure Aware where
  wall : DT
  offset : Int
  deriving DecidableEq, Repr

/-- datetime_funcs.py:140-143 `mysql_from_unixtime`; `zone`: the offset of the session's time zone at an instant. -/
def fromUnixtime (zone : Int → Int) (t : Int) : Option Aware :=
  match shift ⟨1970, 1, 1, 0⟩ (t * 1000000) with
  | none => none
  | some _ => (shift ⟨1970, 1, 1, 0⟩ ((t + zone t) * 1000000)).map fun w => ⟨w, zone t⟩

/-- datetime_funcs.py:134-137 `mysql_unix_timestamp`: `utctimetuple()` is the reading in UTC, which `time.mktime` takes as a
reading of the clock of the machine in standard time, `local` seconds ahead of UTC. -/
def unixTimestamp (machine : Int) (a : Aware) : Int := wallSeconds a.wall - a.offset - machine

end Verif.Calendar
