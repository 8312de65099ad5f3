import Verif.Proofs.Date
/-! C40 (date arithmetic) and C41 (differences, time of day). -/
namespace Verif.Props
open Verif.Date Verif.DateSpec Verif.DateProofs

/-! ## C40: months -/

/-- A date that can be used as an example: 2024-01-31 12:00. -/
def jan31 : DT := ⟨2024, 1, 31, 43200000000⟩

theorem replace_eq {x : DT} {y m d : Int} {z : DT} : replace x y m d = some z ↔ Valid z ∧ z = ⟨y, m, d, x.us⟩ := by
  rw [replace]
  split
  · rename_i h
    constructor
    · intro e; cases e; exact ⟨h, rfl⟩
    · rintro ⟨_, rfl⟩; rfl
  · rename_i h
    constructor
    · intro e; simp at e
    · rintro ⟨hv, rfl⟩; exact absurd hv h

/-- Lowering the day stops at the last day of the month. -/
theorem lowerDay_spec {x : DT} (hu : 0 ≤ x.us ∧ x.us < dayUs) (y m : Int) (hy : 1 ≤ y ∧ y ≤ 9999) (hm : 1 ≤ m ∧ m ≤ 12) (k : Nat)
    (hk : 1 ≤ k) : lowerDay x y m k = some ⟨y, m, min (k : Int) (dim y m), x.us⟩ := by
  have hb := dim_bounds y m
  induction k with
  | zero => omega
  | succ k ih =>
    rw [lowerDay]
    by_cases h : ((k + 1 : Nat) : Int) ≤ dim y m
    · have e : replace x y m ((k + 1 : Nat) : Int) = some ⟨y, m, ((k + 1 : Nat) : Int), x.us⟩ :=
        replace_eq.2 ⟨⟨hy.1, hy.2, hm.1, hm.2, by simp only; omega, h, hu.1, hu.2⟩, rfl⟩
      rw [e, Int.min_eq_left h]
    · have e : replace x y m ((k + 1 : Nat) : Int) = none := by
        rw [replace, if_neg]
        rintro ⟨_, _, _, _, _, h', _⟩
        exact h h'
      rw [e]
      simp only
      rw [ih (by omega)]
      congr 2
      omega

theorem lowerDay_bad {x : DT} (y m : Int) (h : ¬((1 ≤ y ∧ y ≤ 9999) ∧ 1 ≤ m ∧ m ≤ 12)) (k : Nat) : lowerDay x y m k = none := by
  induction k with
  | zero => rfl
  | succ k ih =>
    rw [lowerDay]
    have e : replace x y m ((k + 1 : Nat) : Int) = none := by
      rw [replace, if_neg]
      rintro ⟨h1, h2, h3, h4, _⟩
      exact h ⟨⟨h1, h2⟩, h3, h4⟩
    rw [e]
    exact ih

/-- What the tail of the month arithmetic does. -/
theorem clamp_spec {x : DT} (hx : Valid x) (y m : Int) :
    clampTo x y m = if (1 ≤ y ∧ y ≤ 9999) ∧ 1 ≤ m ∧ m ≤ 12 then some ⟨y, m, min x.d (dim y m), x.us⟩ else none := by
  obtain ⟨_, _, _, _, hd1, hd2, hu⟩ := hx
  have hb := dim_bounds y m
  rw [clampTo]
  split
  · rename_i z hz
    obtain ⟨hv, rfl⟩ := replace_eq.1 hz
    obtain ⟨h1, h2, h3, h4, _, h6, _⟩ := hv
    rw [if_pos ⟨⟨h1, h2⟩, h3, h4⟩, Int.min_eq_left h6]
  · rename_i hn
    by_cases hc : (1 ≤ y ∧ y ≤ 9999) ∧ 1 ≤ m ∧ m ≤ 12
    · rw [if_pos hc]
      have hgt : dim y m < x.d := by
        refine Int.not_le.1 fun h => ?_
        rw [replace, if_pos ⟨hc.1.1, hc.1.2, hc.2.1, hc.2.2, hd1, h, hu⟩] at hn
        simp at hn
      rw [lowerDay_spec hu y m hc.1 hc.2 _ (by omega)]
      congr 2
      omega
    · rw [if_neg hc, lowerDay_bad y m hc]

theorem monthsLater_iff {x : DT} (hx : Valid x) {n : Int} {y m : Int} (hym : 12 * y + m = 12 * x.y + x.m + n) (hm : 1 ≤ m ∧ m ≤ 12) :
    (MonthInRange x n → ∃ z, (if (1 ≤ y ∧ y ≤ 9999) ∧ 1 ≤ m ∧ m ≤ 12 then some (⟨y, m, min x.d (dim y m), x.us⟩ : DT) else none) = some z ∧
      MonthsLater x n z) ∧
    (¬ MonthInRange x n → (if (1 ≤ y ∧ y ≤ 9999) ∧ 1 ≤ m ∧ m ≤ 12 then some (⟨y, m, min x.d (dim y m), x.us⟩ : DT) else none) = none) := by
  have hb := dim_bounds y m
  obtain ⟨_, _, _, _, hd1, hd2, hu⟩ := hx
  constructor
  · rintro ⟨h1, h2⟩
    have hc : (1 ≤ y ∧ y ≤ 9999) ∧ 1 ≤ m ∧ m ≤ 12 := by omega
    rw [if_pos hc]
    exact ⟨_, rfl, ⟨hc.1.1, hc.1.2, hc.2.1, hc.2.2, by simp only; omega, by simp only; omega, hu⟩, hym, rfl, rfl⟩
  · intro h
    rw [if_neg]
    intro hc
    exact h ⟨by omega, by omega⟩

/-- **C40**, DATE_SUB(x, INTERVAL n MONTH) for every `n ≥ 0`: the date `n` months earlier, the day lowered to the length of the
month; NULL exactly when that month lies before the year 1. -/
theorem C40_sub_months (x : DT) (hx : Valid x) (n : Int) (hn : 0 ≤ n) :
    (MonthInRange x (-n) → ∃ z, subInterval x n .month = some z ∧ MonthsLater x (-n) z) ∧
    (¬ MonthInRange x (-n) → subInterval x n .month = none) := by
  have e : subInterval x n .month = months x n true := rfl
  rw [e, months]
  simp only [if_true]
  rw [clamp_spec hx, Int.tdiv_eq_ediv_of_nonneg hn]
  have h1 := hx.2.2.1
  have h2 := hx.2.2.2.1
  refine monthsLater_iff hx ?_ ?_
  · split <;> omega
  · split <;> omega

/-- **C111**, DATE_ADD(x, INTERVAL n MONTH) for every `n ≥ 0` that does not lead to a December: the date `n` months later, the
day lowered to the length of the month; NULL exactly when that month lies after the year 9999. -/
theorem C111_add_months_partial (x : DT) (hx : Valid x) (n : Int) (hn : 0 ≤ n) (hdec : (x.m + n) % 12 ≠ 0) :
    (MonthInRange x n → ∃ z, addInterval x n .month = some z ∧ MonthsLater x n z) ∧
    (¬ MonthInRange x n → addInterval x n .month = none) := by
  have e : addInterval x n .month = months x n false := rfl
  rw [e, months]
  simp only [Bool.false_eq_true, if_false]
  rw [clamp_spec hx, Int.tdiv_eq_ediv_of_nonneg hn]
  have h1 := hx.2.2.1
  have h2 := hx.2.2.2.1
  refine monthsLater_iff hx ?_ ?_
  · split <;> omega
  · omega

/-- **C111 is violated by every addition that leads to a December**: NULL, for every date. -/
theorem C111_december_violated (x : DT) (hx : Valid x) (n : Int) (hdec : (x.m + n) % 12 = 0) : addInterval x n .month = none := by
  have e : addInterval x n .month = months x n false := rfl
  rw [e, months]
  simp only [Bool.false_eq_true, if_false]
  rw [clamp_spec hx, if_neg]
  rintro ⟨_, h, _⟩
  have : (x.m + n % 12) % 12 = 0 := by omega
  omega

/-- Quarters are three months, years are not twelve. -/
theorem C40_quarter (x : DT) (n : Int) :
    addInterval x n .quarter = addInterval x (n * 3) .month ∧ subInterval x n .quarter = subInterval x (n * 3) .month := ⟨rfl, rfl⟩

/-- **C111**, years: the same date of the other year, for every date but February 29th. -/
theorem C111_years_partial (x : DT) (hx : Valid x) (n : Int) (hfeb : ¬(x.m = 2 ∧ x.d = 29)) (hr : 1 ≤ x.y + n ∧ x.y + n ≤ 9999) :
    addInterval x n .year = some ⟨x.y + n, x.m, x.d, x.us⟩ ∧ subInterval x (-n) .year = some ⟨x.y + n, x.m, x.d, x.us⟩ ∧
    MonthsLater x (12 * n) ⟨x.y + n, x.m, x.d, x.us⟩ := by
  obtain ⟨_, _, h3, h4, h5, h6, hu⟩ := hx
  have hle : x.d ≤ dim (x.y + n) x.m := by
    simp only [dim] at h6 ⊢
    by_cases hm : x.m = 2
    · rw [if_pos hm] at h6 ⊢
      have : x.d ≠ 29 := fun h => hfeb ⟨hm, h⟩
      split at h6 <;> split <;> omega
    · rw [if_neg hm] at h6 ⊢; exact h6
  have hv : Valid ⟨x.y + n, x.m, x.d, x.us⟩ := ⟨hr.1, hr.2, h3, h4, h5, hle, hu⟩
  refine ⟨?_, ?_, hv, ?_, ?_, rfl⟩
  · exact replace_eq.2 ⟨hv, rfl⟩
  · have : x.y - -n = x.y + n := by omega
    show replace x (x.y - -n) x.m x.d = _
    rw [this]
    exact replace_eq.2 ⟨hv, rfl⟩
  · simp only; omega
  · simp only; omega

/-- **C111 is violated by February 29th**: adding years that lead to a common year gives NULL (MySQL: February 28th). -/
theorem C111_feb29_violated (y us n : Int) (h : leap (y + n) = false) : addInterval ⟨y, 2, 29, us⟩ n .year = none := by
  show replace _ (y + n) 2 29 = none
  rw [replace, if_neg]
  rintro ⟨_, _, _, _, _, h', _⟩
  simp [dim, h] at h'

/-- **C111 is violated by negative numbers of months** (INTERVAL '-1' MONTH): DATE_ADD of -1 month to 2024-03-15 is 2025-02-15. -/
theorem C111_negative_violated :
    addInterval ⟨2024, 3, 15, 0⟩ (-1) .month = some ⟨2025, 2, 15, 0⟩ := by decide +kernel

/-- C40 applies: 2024-01-31 plus one month is 2024-02-29, minus two months 2023-11-30. -/
example : Valid jan31 ∧ MonthInRange jan31 1 ∧ (jan31.m + 1) % 12 ≠ 0 ∧
    addInterval jan31 1 .month = some ⟨2024, 2, 29, 43200000000⟩ ∧ subInterval jan31 2 .month = some ⟨2023, 11, 30, 43200000000⟩ := by
  refine ⟨by decide, by unfold MonthInRange; decide, by decide, by decide +kernel, by decide +kernel⟩

/-! ## C40: fixed units -/

/-- Units that are a fixed number of seconds (microseconds are treated below). -/
def fixedSeconds : TimeUnit → Option Int
  | .week => some 604800
  | .day => some 86400
  | .hour => some 3600
  | .minute => some 60
  | .second => some 1
  | _ => none

theorem fixed_calc {x : DT} {u : TimeUnit} {s : Int} (hu : fixedSeconds u = some s) (n : Int) :
    addInterval x n u = shift x (s * n * 1000000) ∧ subInterval x n u = shift x (-(s * n * 1000000)) := by
  cases u <;> simp only [fixedSeconds, Option.some.injEq, reduceCtorEq] at hu <;> subst hu <;> exact ⟨rfl, rfl⟩

/-- **C40**, weeks, days, hours, minutes, seconds: the instant moves by exactly that much (in microseconds), and NULL only when
no date within the years 1 to 9999 lies there. -/
theorem C40_fixed (x : DT) (u : TimeUnit) (s : Int) (hu : fixedSeconds u = some s) (n : Int) :
    (∀ z, addInterval x n u = some z ↔ Valid z ∧ inst z = inst x + s * n * 1000000) ∧
    (∀ z, subInterval x n u = some z ↔ Valid z ∧ inst z = inst x - s * n * 1000000) := by
  obtain ⟨e1, e2⟩ := fixed_calc (x := x) hu n
  rw [e1, e2]
  refine ⟨fun z => ⟨shift_some, fun h => shift_to h.1 h.2⟩, fun z => ⟨fun h => ?_, fun h => shift_to h.1 (by omega)⟩⟩
  have := shift_some h
  exact ⟨this.1, by omega⟩

theorem later_ok {x : DT} (h : Ok x) (n : Nat) : Ok (daysLater x n) := by
  induction n with
  | zero => exact h
  | succ n ih => exact next_ok ih

theorem later_ord {x : DT} (h : Ok x) (n : Nat) : ord (daysLater x n) = ord x + n := by
  induction n with
  | zero => simp [daysLater]
  | succ n ih => rw [daysLater, ord_next (later_ok h n), ih]; push_cast; omega

theorem later_us (x : DT) (n : Nat) : (daysLater x n).us = x.us := by
  induction n with
  | zero => rfl
  | succ n ih => rw [daysLater, next_us, ih]

/-- **C40**, days in calendar terms: `n` times the next day, at the same time of day. -/
theorem C40_days (x : DT) (hx : Valid x) (n : Nat) (hr : (daysLater x n).y ≤ 9999) :
    addInterval x n .day = some (daysLater x n) ∧ subInterval (daysLater x n) n .day = some x ∧
    addDays x n = some (daysLater x n) ∧ subDays (daysLater x n) n = some x := by
  have hk := later_ok (valid_ok hx) n
  have ho := later_ord (valid_ok hx) n
  have hus := later_us x n
  have hv : Valid (daysLater x n) := by
    have := hx.2.2.2.2.2.2
    rw [← hus] at this
    exact ⟨hk.1, hr, hk.2.1, hk.2.2.1, hk.2.2.2.1, hk.2.2.2.2, this⟩
  have hi : inst (daysLater x n) = inst x + 86400 * n * 1000000 := by
    unfold inst dayUs; rw [ho, hus]; omega
  have h1 := C40_fixed x .day 86400 rfl n
  have h2 := C40_fixed (daysLater x n) .day 86400 rfl n
  refine ⟨(h1.1 _).2 ⟨hv, hi⟩, (h2.2 _).2 ⟨hx, by omega⟩, shift_to hv ?_, shift_to hx ?_⟩
  · unfold dayUs; omega
  · unfold dayUs; omega

/-- DATE_SUB undoes DATE_ADD for the fixed units. -/
theorem C40_sub_add (x z : DT) (hx : Valid x) (u : TimeUnit) (s : Int) (hu : fixedSeconds u = some s) (n : Int) :
    addInterval x n u = some z ↔ (Valid z ∧ subInterval z n u = some x) := by
  rw [(C40_fixed x u s hu n).1, (C40_fixed z u s hu n).2]
  constructor
  · rintro ⟨h1, h2⟩; exact ⟨h1, hx, by omega⟩
  · rintro ⟨h1, _, h2⟩; exact ⟨h1, by omega⟩

/-- **C111 is violated by MICROSECOND**, which counts seconds. -/
theorem C111_microsecond_violated (x : DT) (n : Int) : addInterval x n .microsecond = addInterval x n .second := rfl

/-- A text interval `d h:m:s` adds up its parts: the instant moves by exactly that many seconds, when every intermediate date is
in range. -/
theorem C40_text_interval (x z : DT) (d h mi s : Int) :
    textInterval false x none none (some d) (some h) (some mi) (some s) none = some z →
    Valid z ∧ inst z = inst x + (d * 86400 + h * 3600 + mi * 60 + s) * 1000000 := by
  intro hz
  simp only [textInterval, reduceCtorEq, ne_eq, not_true, false_and, if_false, steps] at hz
  have step : ∀ {a : DT} {u : TimeUnit} {k n : Int} {f : DT → Option DT}, fixedSeconds u = some k →
      (match calculate a u n false with | some z => f z | none => none) = some z →
      ∃ b, Valid b ∧ inst b = inst a + k * n * 1000000 ∧ f b = some z := by
    intro a u k n f hu he
    cases hc : calculate a u n false with
    | none => rw [hc] at he; simp at he
    | some b =>
      rw [hc] at he
      have := ((C40_fixed a u k hu n).1 b).1 hc
      exact ⟨b, this.1, this.2, he⟩
  obtain ⟨b1, _, e1, hz⟩ := step (u := .day) rfl hz
  obtain ⟨b2, _, e2, hz⟩ := step (u := .hour) rfl hz
  obtain ⟨b3, _, e3, hz⟩ := step (u := .minute) rfl hz
  obtain ⟨b4, v4, e4, hz⟩ := step (u := .second) rfl hz
  simp only [Option.some.injEq] at hz
  subst hz
  exact ⟨v4, by omega⟩

/-- `a:b` is hours and minutes in MySQL, minutes and seconds here. -/
theorem C111_text_two_violated (sub : Bool) (x : DT) (a b : Int) :
    textInterval sub x none none none (some a) (some b) none none =
    textInterval sub x none none none none (some a) (some b) none := by
  simp [textInterval]

/-- The fixed units on 2024-02-28 23:59:59: one second later, one week later. -/
example : addInterval ⟨2024, 2, 28, 86399000000⟩ 1 .second = some ⟨2024, 2, 29, 0⟩ := by
  refine ((C40_fixed _ .second 1 rfl 1).1 _).2 ⟨by decide, by decide +kernel⟩
example : addInterval ⟨2024, 12, 30, 5⟩ 1 .week = some ⟨2025, 1, 6, 5⟩ := by
  refine ((C40_fixed _ .week 604800 rfl 1).1 _).2 ⟨by decide, by decide +kernel⟩

/-! ## C41: differences -/

theorem unitSeconds_pos (u : TimeUnit) : 0 < unitSeconds u := by cases u <;> decide

/-- **C41**, TIMESTAMPDIFF is antisymmetric. -/
theorem C41_antisymmetric (u : TimeUnit) (a b : DT) : timestampdiff u a b = -timestampdiff u b a := by
  unfold timestampdiff
  rw [← Int.neg_tdiv]
  congr 1
  omega

/-- **C41**, TIMESTAMPDIFF counts the whole units that have passed. -/
theorem C41_whole_units (u : TimeUnit) (a b : DT) (h : inst a ≤ inst b) :
    0 ≤ timestampdiff u a b ∧ inst a + timestampdiff u a b * (unitSeconds u * 1000000) ≤ inst b ∧
    inst b < inst a + (timestampdiff u a b + 1) * (unitSeconds u * 1000000) := by
  have hp : 0 < unitSeconds u * 1000000 := by have := unitSeconds_pos u; omega
  unfold timestampdiff
  generalize unitSeconds u * 1000000 = c at hp
  rw [Int.tdiv_eq_ediv_of_nonneg (by omega)]
  have h1 := Int.mul_ediv_add_emod (inst b - inst a) c
  have h2 := Int.emod_nonneg (inst b - inst a) (by omega : c ≠ 0)
  have h3 := Int.emod_lt_of_pos (inst b - inst a) hp
  have h4 := Int.ediv_nonneg (show 0 ≤ inst b - inst a by omega) (show 0 ≤ c by omega)
  refine ⟨h4, ?_, ?_⟩
  · rw [Int.mul_comm]; omega
  · rw [Int.add_mul, Int.mul_comm]; omega

/-- **C41**, TIMESTAMPDIFF is consistent with DATE_ADD and DATE_SUB for the fixed units. -/
theorem C41_consistent (x z : DT) (u : TimeUnit) (s : Int) (hu : fixedSeconds u = some s) (n : Int)
    (h : addInterval x n u = some z) : timestampdiff u x z = n ∧ timestampdiff u z x = -n := by
  have hi := ((C40_fixed x u s hu n).1 z).1 h
  have hs : unitSeconds u = s := by
    cases u <;> simp only [fixedSeconds, Option.some.injEq, reduceCtorEq] at hu <;> subst hu <;> rfl
  have hpos := unitSeconds_pos u
  have : timestampdiff u x z = n := by
    unfold timestampdiff
    rw [hs, hi.2]
    have : inst x + s * n * 1000000 - inst x = n * (s * 1000000) := by
      rw [Int.mul_comm s n, Int.mul_assoc]; omega
    rw [this, Int.mul_tdiv_cancel _ (by omega)]
  exact ⟨this, by rw [C41_antisymmetric, this]⟩

/-- TIMESTAMPDIFF in months counts blocks of thirty days, in years of 365 days: no month passes between 2023-02-01 and
2023-03-01. -/
theorem C102_month_unit_violated : timestampdiff .month ⟨2023, 2, 1, 0⟩ ⟨2023, 3, 1, 0⟩ = 0 ∧
    MonthsLater ⟨2023, 2, 1, 0⟩ 1 ⟨2023, 3, 1, 0⟩ := by
  refine ⟨by decide +kernel, by decide, by decide, by decide, rfl⟩

/-- DATEDIFF is TIMESTAMPDIFF in days from the first argument to the second. -/
theorem C41_datediff_antisymmetric (a b : DT) : datediff a b = timestampdiff .day a b ∧ datediff a b = -datediff b a := by
  have e : ∀ a b, datediff a b = timestampdiff .day a b := fun a b => rfl
  exact ⟨e a b, by rw [e, e, C41_antisymmetric]⟩

/-- **DATEDIFF has the opposite sign of MySQL's**: for every pair of days at the same time of day, DATEDIFF(later, earlier) is
minus the number of days between them. -/
theorem C102_datediff_sign_violated (x : DT) (hx : Valid x) (n : Nat) (hr : (daysLater x n).y ≤ 9999) :
    datediff (daysLater x n) x = -n := by
  have := (C41_consistent x (daysLater x n) .day 86400 rfl n (C40_days x hx n hr).1).2
  rw [(C41_datediff_antisymmetric _ _).1, this]

/-- … and it does not ignore the time of day: from 2024-01-01 23:00 to 2024-01-02 01:00 no day has passed. -/
theorem C102_datediff_time_violated :
    datediff ⟨2024, 1, 1, 82800000000⟩ ⟨2024, 1, 2, 3600000000⟩ = 0 := by decide +kernel

/-! ## C41: time of day -/

theorem two_digits (n : Int) (h : 0 ≤ n ∧ n < 100) :
    ∃ a b : Nat, a < 10 ∧ b < 10 ∧ n = 10 * a + b ∧ two n = [Char.ofNat (48 + a), Char.ofNat (48 + b)] :=
  ⟨(n / 10).toNat, (n % 10).toNat, by omega, by omega, by omega, rfl⟩

theorem digit_char (a : Nat) (h : a < 10) : (Char.ofNat (48 + a)).isDigit = true ∧ ((Char.ofNat (48 + a)).toNat : Int) - 48 = a := by
  have : a = 0 ∨ a = 1 ∨ a = 2 ∨ a = 3 ∨ a = 4 ∨ a = 5 ∨ a = 6 ∨ a = 7 ∨ a = 8 ∨ a = 9 := by omega
  rcases this with h | h | h | h | h | h | h | h | h | h <;> subst h <;> decide

theorem parse_two (h m s : Int) (hh : 0 ≤ h ∧ h < 24) (hm : 0 ≤ m ∧ m < 60) (hs : 0 ≤ s ∧ s < 60) :
    parseTime (two h ++ ':' :: two m ++ ':' :: two s) = some (h * 3600 + m * 60 + s) := by
  obtain ⟨a, b, ha, hb, rfl, e1⟩ := two_digits h (by omega)
  obtain ⟨c, d, hc, hd, rfl, e2⟩ := two_digits m (by omega)
  obtain ⟨e, f, he, hf, rfl, e3⟩ := two_digits s (by omega)
  rw [e1, e2, e3]
  simp only [List.cons_append, List.nil_append, parseTime, (digit_char a ha).1, (digit_char b hb).1, (digit_char c hc).1,
    (digit_char d hd).1, (digit_char e he).1, (digit_char f hf).1, (digit_char a ha).2, (digit_char b hb).2,
    (digit_char c hc).2, (digit_char d hd).2, (digit_char e he).2, (digit_char f hf).2, if_true]
  rw [if_pos ⟨hh.2, hm.2, hs.2⟩]

/-- **C41**, SEC_TO_TIME then TIME_TO_SEC: the number of seconds, modulo the length of a day (for every number of seconds that
stays within the calendar). -/
theorem C41_time_roundtrip (t : Int) (text : List Char) (h : secToTime t = some text) :
    timeToSec text = some (t % 86400) := by
  rw [secToTime] at h
  cases hz : shift ⟨2000, 1, 1, 0⟩ (t * 1000000) with
  | none => rw [hz] at h; simp at h
  | some z =>
    rw [hz] at h
    simp only [Option.map_some, Option.some.injEq] at h
    subst h
    obtain ⟨hv, hi⟩ := shift_some hz
    have hus : z.us = t % 86400 * 1000000 := by
      have h2 := (inst_bounds hv).2.2
      have h0 : inst ⟨2000, 1, 1, 0⟩ = 730119 * 86400000000 := by decide +kernel
      rw [hi, h0] at h2
      have e : dayUs = 86400000000 := rfl
      rw [e] at h2
      omega
    have hs : z.us / 1000000 = t % 86400 := by omega
    rw [timeToSec, hs, parse_two _ _ _ (by omega) (by omega) (by omega)]
    simp only [Option.map_some, Option.some.injEq]
    rw [Int.mul_tdiv_cancel _ (by omega)]
    omega

/-- In particular within a day it is the identity. -/
theorem C41_time_identity (t : Int) (h : 0 ≤ t ∧ t < 86400) : ∃ text, secToTime t = some text ∧ timeToSec text = some t := by
  have hz : shift ⟨2000, 1, 1, 0⟩ (t * 1000000) = some ⟨2000, 1, 1, t * 1000000⟩ :=
    shift_to ⟨by simp, by simp, by simp, by simp, by simp, by simp [dim], by simp only; omega, by unfold dayUs; simp only; omega⟩
      (by simp only [inst, ord]; omega)
  have e : ∃ text, secToTime t = some text := by rw [secToTime, hz]; exact ⟨_, rfl⟩
  obtain ⟨text, ht⟩ := e
  refine ⟨text, ht, ?_⟩
  rw [C41_time_roundtrip t text ht, Int.emod_eq_of_lt h.1 h.2]

/-- A day of seconds wraps around: SEC_TO_TIME(90000) reads 01:00:00 (MySQL: 25:00:00). -/
theorem C102_wraps_violated (text : List Char) (h : secToTime 90000 = some text) : timeToSec text = some 3600 := by
  rw [C41_time_roundtrip 90000 text h]; rfl

end Verif.Props
