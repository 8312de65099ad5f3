import Verif.Spec.Date
/-! The calendar: ordinals count days. -/
namespace Verif.DateProofs
open Verif.Date Verif.DateSpec

theorem dim_bounds (y m : Int) : 28 ≤ dim y m ∧ dim y m ≤ 31 := by
  unfold dim
  constructor <;> (repeat' split) <;> omega

theorem year_step (y : Int) : daysBeforeYear (y + 1) = daysBeforeYear y + 365 + (if leap y then 1 else 0) := by
  unfold daysBeforeYear leap
  by_cases h4 : y % 4 = 0 <;> by_cases h100 : y % 100 = 0 <;> by_cases h400 : y % 400 = 0 <;> simp [h4, h100, h400] <;> omega

theorem month_step (y m : Int) (h1 : 1 ≤ m) (h2 : m < 12) : daysBeforeMonth y (m + 1) = daysBeforeMonth y m + dim y m := by
  have : m = 1 ∨ m = 2 ∨ m = 3 ∨ m = 4 ∨ m = 5 ∨ m = 6 ∨ m = 7 ∨ m = 8 ∨ m = 9 ∨ m = 10 ∨ m = 11 := by omega
  unfold daysBeforeMonth dim
  cases hl : leap y <;> rcases this with h | h | h | h | h | h | h | h | h | h | h <;> subst h <;> simp

theorem month_end (y : Int) : daysBeforeMonth y 12 + dim y 12 = 365 + (if leap y then 1 else 0) := by
  unfold daysBeforeMonth dim
  cases leap y <;> simp

/-- Fields in range, years not bounded above. -/
def Ok (x : DT) : Prop := 1 ≤ x.y ∧ 1 ≤ x.m ∧ x.m ≤ 12 ∧ 1 ≤ x.d ∧ x.d ≤ dim x.y x.m

theorem valid_ok {x : DT} (h : Valid x) : Ok x := ⟨h.1, h.2.2.1, h.2.2.2.1, h.2.2.2.2.1, h.2.2.2.2.2.1⟩

theorem next_ok {x : DT} (h : Ok x) : Ok (nextDay x) := by
  obtain ⟨h1, h2, h3, h4, h5⟩ := h
  unfold nextDay
  split
  · exact ⟨h1, h2, h3, by simp only; omega, by simp only; omega⟩
  · split
    · exact ⟨h1, by simp only; omega, by simp only; omega, by simp, by have := dim_bounds x.y (x.m + 1); simp only; omega⟩
    · exact ⟨by simp only; omega, by simp, by simp, by simp, by have := dim_bounds (x.y + 1) 1; simp only; omega⟩

theorem ord_next {x : DT} (h : Ok x) : ord (nextDay x) = ord x + 1 := by
  obtain ⟨h1, h2, h3, h4, h5⟩ := h
  unfold nextDay
  split
  · simp only [ord]; omega
  · split
    · simp only [ord]
      rw [month_step x.y x.m h2 (by omega)]
      omega
    · have hm : x.m = 12 := by omega
      have hd : x.d = dim x.y x.m := by omega
      rw [hm] at hd
      simp only [ord]
      rw [year_step, hm]
      have e := month_end x.y
      have e1 : daysBeforeMonth (x.y + 1) 1 = 0 := by simp [daysBeforeMonth]
      omega

theorem next_us (x : DT) : (nextDay x).us = x.us := by
  unfold nextDay; split
  · rfl
  · split <;> rfl

theorem ofDays_ok (n : Nat) : Ok (ofDays n) := by
  induction n with
  | zero => exact ⟨by decide, by decide, by decide, by decide, by decide⟩
  | succ n ih => exact next_ok ih

theorem ofDays_ord (n : Nat) : ord (ofDays n) = n + 1 := by
  induction n with
  | zero => decide
  | succ n ih => rw [ofDays, ord_next (ofDays_ok n), ih]; push_cast; rfl

theorem ofDays_us (n : Nat) : (ofDays n).us = 0 := by
  induction n with
  | zero => rfl
  | succ n ih => rw [ofDays, next_us, ih]

/-- Every day but the first is the next day of another. -/
theorem exists_prev {x : DT} (h : Ok x) (hu : x.us = 0) (hne : x ≠ ⟨1, 1, 1, 0⟩) : ∃ p, Ok p ∧ p.us = 0 ∧ nextDay p = x := by
  obtain ⟨y, m, d, us⟩ := x
  obtain ⟨h1, h2, h3, h4, h5⟩ := h
  simp only at h1 h2 h3 h4 h5 hu
  subst hu
  by_cases hd : d = 1
  · by_cases hm : m = 1
    · subst hd hm
      have hy : y ≠ 1 := fun e => hne (by rw [e])
      have e12 : dim (y - 1) 12 = 31 := by simp [dim]
      refine ⟨⟨y - 1, 12, 31, 0⟩, ⟨by simp only; omega, by simp, by simp, by simp, by simp only; omega⟩, rfl, ?_⟩
      simp [nextDay, e12]
    · subst hd
      have hb := dim_bounds y (m - 1)
      refine ⟨⟨y, m - 1, dim y (m - 1), 0⟩, ⟨by simp only; omega, by simp only; omega, by simp only; omega, by simp only; omega, by simp⟩, rfl, ?_⟩
      have : m - 1 < 12 := by omega
      simp [nextDay, this]
  · refine ⟨⟨y, m, d - 1, 0⟩, ⟨h1, h2, h3, by simp only; omega, by simp only; omega⟩, rfl, ?_⟩
    have : d - 1 < dim y m := by omega
    simp [nextDay, this]

theorem year_lower (n : Nat) : 0 ≤ daysBeforeYear (1 + n) := by
  induction n with
  | zero => decide
  | succ n ih =>
    have : (1 : Int) + ((n + 1 : Nat) : Int) = (1 + n) + 1 := by push_cast; omega
    rw [this, year_step]
    split <;> omega

theorem before_year_nonneg {y : Int} (h : 1 ≤ y) : 0 ≤ daysBeforeYear y := by
  have := year_lower (y - 1).toNat
  have e : (1 : Int) + ((y - 1).toNat : Int) = y := by omega
  rwa [e] at this

theorem before_month_nonneg (y m : Int) : 0 ≤ daysBeforeMonth y m := by
  unfold daysBeforeMonth
  repeat' split
  all_goals omega

theorem ord_pos {x : DT} (h : Ok x) : 1 ≤ ord x := by
  have h1 := before_year_nonneg h.1
  have h2 := before_month_nonneg x.y x.m
  have := h.2.2.2.1
  unfold ord; omega

theorem ofDays_of_ord (n : Nat) : ∀ x, Ok x → x.us = 0 → ord x = n + 1 → ofDays n = x := by
  induction n with
  | zero =>
    intro x h hu ho
    by_cases hx : x = ⟨1, 1, 1, 0⟩
    · rw [hx]; rfl
    · obtain ⟨p, hp, _, rfl⟩ := exists_prev h hu hx
      rw [ord_next hp] at ho
      have := ord_pos hp
      omega
  | succ n ih =>
    intro x h hu ho
    by_cases hx : x = ⟨1, 1, 1, 0⟩
    · subst hx
      have : ord ⟨1, 1, 1, 0⟩ = 1 := by decide
      omega
    · obtain ⟨p, hp, hpu, rfl⟩ := exists_prev h hu hx
      rw [ord_next hp] at ho
      rw [ofDays, ih p hp hpu (by push_cast at ho; omega)]

theorem ok_withUs {x : DT} (u : Int) (h : Ok x) : Ok { x with us := u } := h

theorem ord_us (x : DT) (u : Int) : ord { x with us := u } = ord x := rfl

/-- The instant of a day. -/
theorem inst_bounds {x : DT} (h : Valid x) : 0 ≤ inst x ∧ inst x / dayUs = ord x - 1 ∧ inst x % dayUs = x.us := by
  have ho := ord_pos (valid_ok h)
  obtain ⟨_, _, _, _, _, _, h1, h2⟩ := h
  have e : inst x = (ord x - 1) * 86400000000 + x.us := rfl
  have e2 : dayUs = 86400000000 := rfl
  rw [e2] at h2 ⊢
  omega

theorem shift_some {x z : DT} {u : Int} (h : shift x u = some z) : Valid z ∧ inst z = inst x + u := by
  rw [shift] at h
  simp only at h
  split at h
  · exact absurd h (by simp)
  · rename_i ht
    split at h
    · rename_i hy
      cases h
      have hk := ofDays_ok ((inst x + u) / dayUs).toNat
      have ho := ofDays_ord ((inst x + u) / dayUs).toNat
      have e2 : dayUs = 86400000000 := rfl
      have hq : 0 ≤ (inst x + u) / dayUs := by rw [e2]; omega
      refine ⟨⟨hk.1, hy, hk.2.1, hk.2.2.1, hk.2.2.2.1, hk.2.2.2.2, ?_, ?_⟩, ?_⟩
      · simp only; rw [e2]; omega
      · simp only; rw [e2]; omega
      · generalize inst x + u = t at ho hq ht ⊢
        have : inst { ofDays (t / dayUs).toNat with us := t % dayUs } =
          (ord (ofDays (t / dayUs).toNat) - 1) * 86400000000 + t % dayUs := rfl
        rw [this, ho, Int.toNat_of_nonneg hq, e2]
        omega
    · exact absurd h (by simp)

/-- Dates are determined by their instant. -/
theorem inst_inj {x z : DT} (hx : Valid x) (hz : Valid z) (h : inst x = inst z) : x = z := by
  obtain ⟨_, a1, a2⟩ := inst_bounds hx
  obtain ⟨_, b1, b2⟩ := inst_bounds hz
  rw [h] at a1 a2
  have ho : ord x = ord z := by omega
  have hu : x.us = z.us := by omega
  have hp := ord_pos (valid_ok hz)
  have k1 := ofDays_of_ord (ord z - 1).toNat { x with us := 0 } (ok_withUs 0 (valid_ok hx)) rfl (by rw [ord_us]; omega)
  have k2 := ofDays_of_ord (ord z - 1).toNat { z with us := 0 } (ok_withUs 0 (valid_ok hz)) rfl (by rw [ord_us]; omega)
  rw [k1] at k2
  obtain ⟨y, m, d, us⟩ := x
  obtain ⟨y', m', d', us'⟩ := z
  simp only [DT.mk.injEq] at k2 hu ⊢
  exact ⟨k2.1, k2.2.1, k2.2.2.1, hu⟩

/-- `shift` reaches every valid date at the right distance. -/
theorem shift_to {x z : DT} {u : Int} (hz : Valid z) (h : inst z = inst x + u) : shift x u = some z := by
  obtain ⟨h0, h1, h2⟩ := inst_bounds hz
  have hp := ord_pos (valid_ok hz)
  have k := ofDays_of_ord (ord z - 1).toNat { z with us := 0 } (ok_withUs 0 (valid_ok hz)) rfl (by rw [ord_us]; omega)
  rw [shift]
  simp only [← h, h1, h2, k]
  rw [if_neg (by omega), if_pos hz.2.1]

end Verif.DateProofs
