import Verif.Model.Clock
namespace Verif.Props
open Verif.Clock

/-- **C173**: CURTIME is the time of CURRENT_TIMESTAMP, UTC_DATE and UTC_TIME are the date and time of UTC_TIMESTAMP, and each of them
shows the instant: UTC_TIMESTAMP exactly, CURRENT_TIMESTAMP with the configured distance from UTC; times are less than a day. -/
theorem C173_clock_partial (s : Zones) (t : Instant) :
    curtime s t = (currentTimestamp s t).time ∧ utcDate t = (utcTimestamp t).date ∧ utcTime t = (utcTimestamp t).time ∧
    (utcTimestamp t).date * 86400000000 + (utcTimestamp t).time = t ∧
    (currentTimestamp s t).date * 86400000000 + (currentTimestamp s t).time = t + s.configured t ∧
    (0 ≤ curtime s t ∧ curtime s t < 86400000000) ∧ (0 ≤ utcTime t ∧ utcTime t < 86400000000) := by
  have hd : day = 86400000000 := rfl
  simp only [curtime, currentTimestamp, utcDate, utcTimestamp, utcTime, now, utc, hd]
  refine ⟨trivial, trivial, trivial, ?_, ?_, ⟨?_, ?_⟩, ?_, ?_⟩ <;> omega

/-- **C173**, missing: time zones in which it is another day.  CURDATE is the date of CURRENT_TIMESTAMP if and only if the clocks of the
configured zone and of the process show the same day. -/
theorem C173_curdate_partial (s : Zones) (t : Instant) :
    curdate s t = (currentTimestamp s t).date ↔ (t + s.process t) / 86400000000 = (t + s.configured t) / 86400000000 := Iff.rfl

/-- **C173 is violated by every two time zones with different clocks**: there are instants at which CURDATE is not the date of
CURRENT_TIMESTAMP. -/
theorem C173_curdate_violated (a b : Int) (h : a ≠ b) :
    ∃ t, curdate ⟨fun _ => a, fun _ => b⟩ t ≠ (currentTimestamp ⟨fun _ => a, fun _ => b⟩ t).date := by
  have hd : day = 86400000000 := rfl
  rcases Int.lt_or_le a b with hab | hab
  · refine ⟨-b, ?_⟩
    simp only [curdate, currentTimestamp, now, hd]
    omega
  · refine ⟨-a, ?_⟩
    simp only [curdate, currentTimestamp, now, hd]
    omega

/-- **C173 is violated by statements that take time**: CURRENT_TIMESTAMP has the same value in all rows only if all were computed at the
same instant (for a zone whose clocks do not change meanwhile). -/
theorem C173_statement_violated (a : Int) (p : Zone) (ts : List Instant) (t t' : Instant) (h : t ∈ ts) (h' : t' ∈ ts) (hne : t ≠ t') :
    ∃ x ∈ column ⟨fun _ => a, p⟩ ts, ∃ y ∈ column ⟨fun _ => a, p⟩ ts, x ≠ y := by
  refine ⟨_, List.mem_map.2 ⟨t, h, rfl⟩, _, List.mem_map.2 ⟨t', h', rfl⟩, ?_⟩
  intro e
  have hd : day = 86400000000 := rfl
  simp only [currentTimestamp, now, Local.mk.injEq, hd] at e
  obtain ⟨e1, e2⟩ := e
  have h1 := Int.emod_add_mul_ediv (t + a) 86400000000
  have h2 := Int.emod_add_mul_ediv (t' + a) 86400000000
  rw [e1, e2, h2] at h1
  exact hne ((Int.add_left_inj a).1 h1.symm)

/-- Beijing and UTC, at 1970-01-01 20:00 UTC: it is the 2nd and the 1st. -/
example : curdate ⟨fun _ => 8 * 3600000000, utc⟩ (20 * 3600000000) = 0 ∧
    currentTimestamp ⟨fun _ => 8 * 3600000000, utc⟩ (20 * 3600000000) = ⟨1, 4 * 3600000000⟩ := by decide

end Verif.Props
