import Verif.Basic
/-!
Model of the functions that read the clock: datetime_funcs.py:65-89 (CURRENT_TIMESTAMP, CURDATE, CURRENT_DATE, CURTIME, CURRENT_TIME,
SYSDATE) and 337-349 (UTC_DATE, UTC_TIME, UTC_TIMESTAMP), DATE of a timestamp (91-101).

An instant is a number of microseconds of UTC since 1970; a time zone gives the distance of its clocks from UTC at every instant
(daylight saving included).  Days are numbered from 1970-01-01; what the number of a day means as year, month and day is
`Model.Calendar`.
-/
namespace Verif.Clock

/-- Microseconds since the epoch. -/
abbrev Instant := Int
/-- Microseconds to add to UTC. -/
abbrev Zone := Instant → Int

/-- The microseconds of a day. -/
def day : Int := 24 * 60 * 60 * 1000000

/-- What a clock shows: the number of the day and the microseconds since midnight. -/
structure Local where
  date : Int
  time : Int
  deriving DecidableEq

/-- `datetime.datetime.now(tz=zone)`, its fields. -/
def now (z : Zone) (t : Instant) : Local := ⟨(t + z t) / day, (t + z t) % day⟩

/-- UTC. -/
def utc : Zone := fun _ => 0

/-- The settings: the time zone that is configured (`get_timezone()`) and the one of the process (`datetime.date.today()`). -/
structure Zones where
  configured : Zone
  process : Zone

/-- datetime_funcs.py:65-67 and 87-89: CURRENT_TIMESTAMP, SYSDATE. -/
def currentTimestamp (s : Zones) (t : Instant) : Local := now s.configured t

/-- datetime_funcs.py:69-75: CURDATE, CURRENT_DATE: `datetime.date.today()`. -/
def curdate (s : Zones) (t : Instant) : Int := (now s.process t).date

/-- datetime_funcs.py:77-85: CURTIME, CURRENT_TIME. -/
def curtime (s : Zones) (t : Instant) : Int := (now s.configured t).time

/-- datetime_funcs.py:347-349. -/
def utcTimestamp (t : Instant) : Local := now utc t

/-- datetime_funcs.py:337-340. -/
def utcDate (t : Instant) : Int := (now utc t).date

/-- datetime_funcs.py:342-345. -/
def utcTime (t : Instant) : Int := (now utc t).time

/-- The values of CURRENT_TIMESTAMP in the rows of a result: every call reads the clock (the calls are made at the instants `ts`). -/
def column (s : Zones) (ts : List Instant) : List Local := ts.map (currentTimestamp s)

end Verif.Clock
