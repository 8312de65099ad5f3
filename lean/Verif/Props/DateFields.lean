import Verif.Props.Date
/-! C52: WEEKDAY, DAYOFWEEK, DAYOFYEAR, WEEK. -/
namespace Verif.Props
open Verif.Date Verif.DateSpec Verif.DateProofs

/-- January 1st of the year of a date, at the same time of day. -/
def newYear (x : DT) : DT := ⟨x.y, 1, 1, x.us⟩

theorem newYear_ok {x : DT} (h : Ok x) : Ok (newYear x) :=
  ⟨h.1, by simp [newYear], by simp [newYear], by simp [newYear], by have := dim_bounds x.y 1; simp only [newYear]; omega⟩

theorem before_month_bounds (y m : Int) (h : 1 ≤ m ∧ m ≤ 12) :
    daysBeforeMonth y m + dim y m ≤ 365 + (if leap y then 1 else 0) := by
  have : m = 1 ∨ m = 2 ∨ m = 3 ∨ m = 4 ∨ m = 5 ∨ m = 6 ∨ m = 7 ∨ m = 8 ∨ m = 9 ∨ m = 10 ∨ m = 11 ∨ m = 12 := by omega
  unfold daysBeforeMonth dim
  cases hl : leap y <;> rcases this with h | h | h | h | h | h | h | h | h | h | h | h <;> subst h <;> simp

theorem ok_inj {x z : DT} (hx : Ok x) (hz : Ok z) (ho : ord x = ord z) (hu : x.us = z.us) : x = z := by
  have hp := ord_pos hz
  have k1 := ofDays_of_ord (ord z - 1).toNat { x with us := 0 } (ok_withUs 0 hx) rfl (by rw [ord_us]; omega)
  have k2 := ofDays_of_ord (ord z - 1).toNat { z with us := 0 } (ok_withUs 0 hz) rfl (by rw [ord_us]; omega)
  rw [k1] at k2
  obtain ⟨y, m, d, us⟩ := x
  obtain ⟨y', m', d', us'⟩ := z
  simp only [DT.mk.injEq] at k2 hu ⊢
  exact ⟨k2.1, k2.2.1, k2.2.2.1, hu⟩

theorem ord_newYear (x : DT) : ord (newYear x) = daysBeforeYear x.y + 1 := by
  simp [ord, newYear, daysBeforeMonth]

theorem dayofyear_pos {x : DT} (h : Ok x) : 1 ≤ dayofyear x := by
  have := before_month_nonneg x.y x.m
  have := h.2.2.2.1
  simp only [dayofyear, ord]; omega

/-- **C52**, DAYOFYEAR: the date is reached from January 1st of its year in DAYOFYEAR - 1 days, and DAYOFYEAR lies between 1 and
the length of the year. -/
theorem C52_dayofyear (x : DT) (hx : Valid x) :
    daysLater (newYear x) (dayofyear x - 1).toNat = x ∧ 1 ≤ dayofyear x ∧
    dayofyear x ≤ 365 + (if leap x.y then 1 else 0) := by
  have hk := valid_ok hx
  have h1 := dayofyear_pos hk
  refine ⟨?_, h1, ?_⟩
  · refine ok_inj (later_ok (newYear_ok hk) _) hk ?_ ?_
    · rw [later_ord (newYear_ok hk), ord_newYear]
      have : dayofyear x = ord x - daysBeforeYear x.y := rfl
      omega
    · rw [later_us]; rfl
  · have := before_month_bounds x.y x.m ⟨hk.2.1, hk.2.2.1⟩
    have := hk.2.2.2.2
    simp only [dayofyear, ord]; omega

/-- **C52**, WEEKDAY: between 0 and 6, one more each day (cyclically), 0 on Monday 2024-01-01. -/
theorem C52_weekday (x : DT) (hx : Valid x) (n : Nat) :
    0 ≤ weekday x ∧ weekday x ≤ 6 ∧ weekday (daysLater x n) = (weekday x + n) % 7 ∧ weekday ⟨2024, 1, 1, 0⟩ = 0 := by
  refine ⟨by unfold weekday; omega, by unfold weekday; omega, ?_, by decide +kernel⟩
  unfold weekday
  rw [later_ord (valid_ok hx)]
  omega

/-- **C94 is violated by DAYOFWEEK**: it counts from Monday = 1 (MySQL: Sunday = 1) for every date. -/
theorem C94_dayofweek_violated (x : DT) : dayofweek x = weekday x + 1 ∧ dayofweek ⟨2024, 1, 1, 0⟩ = 1 := ⟨rfl, by decide +kernel⟩

/-- The days of the year up to (and including) the day `k` days after January 1st. -/
def daysOfYear (j : DT) (k : Nat) : List DT := (List.range (k + 1)).map (daysLater j)

theorem daysOfYear_succ (j : DT) (k : Nat) : daysOfYear j (k + 1) = daysOfYear j k ++ [daysLater j (k + 1)] := by
  simp [daysOfYear, List.range_succ]

/-- Weekdays are counted by the quotient by seven. -/
theorem count_weekday (j : DT) (hj : Ok j) (w : Int) (hw : 0 ≤ w ∧ w ≤ 6) (k : Nat) :
    (((daysOfYear j k).filter fun z => weekday z = w).length : Int) =
    (k + 7 - (weekday (daysLater j k) + 7 - w) % 7) / 7 := by
  have hwd : ∀ n : Nat, weekday (daysLater j n) = (ord j + n + 6) % 7 := by
    intro n; unfold weekday; rw [later_ord hj]
  induction k with
  | zero =>
    have e : daysOfYear j 0 = [j] := by simp [daysOfYear, List.range_succ, daysLater]
    rw [e]
    have h0 : weekday (daysLater j 0) = weekday j := rfl
    rw [h0]
    have hb : 0 ≤ weekday j ∧ weekday j ≤ 6 := by unfold weekday; omega
    by_cases h : weekday j = w
    · simp only [List.filter_cons, h, decide_true, if_true, List.filter_nil, List.length_cons, List.length_nil]; omega
    · simp only [List.filter_cons, h, decide_false, Bool.false_eq_true, if_false, List.filter_nil, List.length_nil]; omega
  | succ k ih =>
    rw [daysOfYear_succ, List.filter_append, List.length_append]
    push_cast
    rw [ih]
    have h1 := hwd k
    have h2 := hwd (k + 1)
    push_cast at h2
    generalize weekday (daysLater j k) = a at h1
    generalize hb : weekday (daysLater j (k + 1)) = b at h2
    by_cases h : b = w
    · simp only [List.filter_cons, hb, h, decide_true, if_true, List.filter_nil, List.length_cons, List.length_nil]; omega
    · simp only [List.filter_cons, hb, h, decide_false, Bool.false_eq_true, if_false, List.filter_nil, List.length_nil]; omega

/-- **C52**, WEEK(x, 0) is the number of Sundays, WEEK(x, 1) the number of Mondays, from January 1st to the date. -/
theorem C52_week (x : DT) (hx : Valid x) :
    week x false = (((daysOfYear (newYear x) (dayofyear x - 1).toNat).filter fun z => weekday z = 6).length : Int) ∧
    week x true = (((daysOfYear (newYear x) (dayofyear x - 1).toNat).filter fun z => weekday z = 0).length : Int) := by
  have hk := valid_ok hx
  obtain ⟨e, h1, _⟩ := C52_dayofyear x hx
  have hw := C52_weekday x hx 0
  rw [count_weekday _ (newYear_ok hk) 6 (by omega), count_weekday _ (newYear_ok hk) 0 (by omega), e]
  have : (((dayofyear x - 1).toNat : Nat) : Int) = dayofyear x - 1 := by omega
  rw [this]
  simp only [week, if_true, Bool.false_eq_true, if_false]
  omega

/-- MySQL's WEEK(x, 1) is the ISO week (the week with four days in the new year is the first): 2019-01-01, a Tuesday, is in week
1; here it is in week 0. -/
theorem C94_week_mode1_violated : week ⟨2019, 1, 1, 0⟩ true = 0 := by decide +kernel

/-- C52 on 2024-03-10 (a Sunday, the 70th day of the year). -/
example : Valid ⟨2024, 3, 10, 0⟩ ∧ weekday ⟨2024, 3, 10, 0⟩ = 6 ∧ dayofyear ⟨2024, 3, 10, 0⟩ = 70 ∧ week ⟨2024, 3, 10, 0⟩ false = 10 := by
  refine ⟨by decide, by decide +kernel, by decide +kernel, by decide +kernel⟩

end Verif.Props
