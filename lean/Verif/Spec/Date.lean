import Verif.Model.Date
/-! The calendar as a user knows it (only the type of dates, its valid values and the next day are used). -/
namespace Verif.DateSpec
open Verif.Date

/-- `n` days later, the time of day kept. -/
def daysLater (x : DT) : Nat → DT
  | 0 => x
  | n + 1 => nextDay (daysLater x n)

/-- `z` is `n` months after `x` (before, when negative): counting months, the same day or, when the month is too short, its
last day, the same time. -/
def MonthsLater (x : DT) (n : Int) (z : DT) : Prop :=
  Valid z ∧ 12 * z.y + z.m = 12 * x.y + x.m + n ∧ z.d = min x.d (dim z.y z.m) ∧ z.us = x.us

/-- The month reached lies within the years 1 to 9999. -/
def MonthInRange (x : DT) (n : Int) : Prop := 13 ≤ 12 * x.y + x.m + n ∧ 12 * x.y + x.m + n ≤ 12 * 9999 + 12

/-- A day of the same year, not later. -/
def Upto (x z : DT) : Prop := Valid z ∧ z.us = 0 ∧ z.y = x.y ∧ (z.m < x.m ∨ (z.m = x.m ∧ z.d ≤ x.d))

end Verif.DateSpec
