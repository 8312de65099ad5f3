import Verif.Props.Bits
import Verif.Props.Aggregate
import Verif.Props.Str
import Verif.Props.StrSearch
import Verif.Props.Calendar
import Verif.Props.Window
/-! Further clauses of C27, C51, C81, and general forms of the violations C87, C88, C90, C93. -/
namespace Verif.Props
open Verif.Val

/-- **C27**, errors: whenever a comparison, arithmetic, bit or rounding function cannot take its operands (the Python function
raises), the value is NULL: nothing but a text, a number, a truth value or NULL ever comes out, and an operand that is no number
gives NULL. -/
theorem C27_failure_null (py : Py) (a b : Val) :
    (∀ op, a ≠ .null → py.ensureNumber a = none → py.ar op a b = .null) ∧
    (∀ op, b ≠ .null → py.ensureNumber b = none → py.ar op a b = .null) ∧
    (∀ op, py.cmpRaw op a b = none → py.cmp op a b = .null) ∧
    (∀ op, py.bitArg a = none ∨ py.bitArg b = none → py.bit op a b = .null) ∧
    (py.ensureNumber a = none → py.abs a = .null ∧ py.floor a = .null ∧ py.ceil a = .null ∧ py.sign a = .null ∧
      ∀ y, py.round a y = .null) := by
  refine ⟨?_, ?_, ?_, ?_, ?_⟩
  · intro op h h1
    unfold Py.ar Py.arRaw
    by_cases hb : b = .null <;> simp [h, hb, h1, caught]
  · intro op h h1
    unfold Py.ar Py.arRaw
    by_cases ha : a = .null
    · simp [ha, caught]
    · simp only [ha, h, or_self, if_false]
      cases h2 : py.ensureNumber a <;> simp [h1, caught]
  · intro op h; simp [Py.cmp, h, caught]
  · intro op h
    unfold Py.bit
    by_cases hn : a = .null ∨ b = .null
    · simp [hn, caught]
    · rw [if_neg hn]
      rcases h with h | h
      · simp [h, caught]
      · cases h2 : py.bitArg a <;> simp [h, caught]
  · intro h
    refine ⟨?_, ?_, ?_, ?_, ?_⟩ <;> (try intro y) <;>
      simp only [Py.abs, Py.floor, Py.ceil, Py.sign, Py.round, Py.unary, h, Option.map_none] <;>
      split <;> rfl

example : plainPy.ensureNumber (.str ['a', 'b', 'c']) = none ∧ plainPy.bitArg (.str ['a', 'b', 'c']) = none := by
  decide +kernel

/-- **C51**, ABS and SIGN of a fraction: the magnitude and the sign. -/
theorem C51_abs_sign (py : Py) (q : Rat) :
    (∃ r, py.abs (.flt q) = .flt r ∧ 0 ≤ r ∧ (r = q ∨ r = -q)) ∧
    (0 < q → py.sign (.flt q) = .int 1) ∧ (q = 0 → py.sign (.flt q) = .int 0) ∧ (q < 0 → py.sign (.flt q) = .int (-1)) := by
  refine ⟨⟨if q < 0 then -q else q, rfl, ?_, ?_⟩, ?_, ?_, ?_⟩
  · split <;> grind
  · split <;> simp
  all_goals
    intro h
    show Val.int (if q = 0 then 0 else if q < 0 then -1 else 1) = _
    congr 1
    grind

/-- **C93** (violated): the function behind ROUND rounds to two digits when it is called (from Python) with one argument; called from
SQL the second argument is NULL then (`C93_round_call_violated`). -/
theorem C93_round_default (py : Py) (x : Val) : py.round x none = py.round x (some 2) := rfl

/-- **C93**: when that is the nearest integer all the same: exactly when the two digits after the point, rounded, are zero. -/
theorem C93_round_default_exact (py : Py) (q : Rat) :
    (∃ i : Int, py.round (.flt q) none = .flt i) ↔ ∃ i : Int, roundHalfEven (q * 100) = 100 * i := by
  have e : py.round (.flt q) none = .flt (roundHalfEven (q * 100) / 100) := by
    have : ((10 : Rat) ^ 2) = 100 := by decide +kernel
    show Val.flt (roundHalfEven (q * 10 ^ 2) / 10 ^ 2) = _
    rw [this]
  rw [e]
  constructor
  · rintro ⟨i, h⟩
    refine ⟨i, ?_⟩
    have h1 : ((roundHalfEven (q * 100) : Int) : Rat) / 100 = i := by injection h
    have h2 : ((roundHalfEven (q * 100) : Int) : Rat) = ((100 * i : Int) : Rat) := by push_cast; grind
    exact Rat.intCast_inj.1 h2
  · rintro ⟨i, h⟩
    refine ⟨i, ?_⟩
    rw [h]
    congr 1
    push_cast
    grind

/-- **C90**, exactly when MOD is SQL's remainder `tmod` (which has the sign of the dividend): when the divisor divides the dividend,
or both have the same sign. -/
theorem C90_mod_sign_exact (py : Py) (a b : Int) (hb : b ≠ 0) :
    py.ar .mod (.int a) (.int b) = .int (a.tmod b) ↔ b ∣ a ∨ (0 ≤ a ∧ 0 < b) ∨ (a ≤ 0 ∧ b < 0) := by
  have e : py.ar .mod (.int a) (.int b) = .int (a.fmod b) := by
    simp [Py.ar, Py.arRaw, Py.ensureNumber, Ar.apply, hb, Num.toVal, caught]
  rw [e]
  have hd1 := Int.mul_fdiv_add_fmod a b
  have hd2 := Int.mul_tdiv_add_tmod a b
  constructor
  · intro h
    injection h with h
    by_cases hdiv : b ∣ a
    · exact .inl hdiv
    · refine .inr ?_
      have hne : a.fmod b ≠ 0 := fun h0 => hdiv (Int.dvd_of_fmod_eq_zero h0)
      rcases Int.lt_or_gt_of_ne hb with hn | hp
      · have h1 := (fmod_neg_bounds a hn).2
        have h2 : a ≤ 0 := by
          rcases Int.lt_or_le 0 a with h3 | h3
          · have := Int.tmod_nonneg b (Int.le_of_lt h3); omega
          · exact h3
        exact .inr ⟨h2, hn⟩
      · have h1 := Int.fmod_nonneg_of_pos a hp
        have h2 : 0 ≤ a := by
          rcases Int.lt_or_le a 0 with h3 | h3
          · have h4 := Int.tmod_nonneg b (a := -a) (by omega)
            rw [Int.neg_tmod] at h4; omega
          · exact h3
        exact .inl ⟨h2, hp⟩
  · rintro (h | ⟨h1, h2⟩ | ⟨h1, h2⟩)
    · rw [Int.fmod_eq_zero_of_dvd h, Int.tmod_eq_zero_of_dvd h]
    · rw [Int.fmod_eq_tmod_of_nonneg h1 (Int.le_of_lt h2)]
    · congr 1
      have h3 : (-a).fmod (-b) = (-a).tmod (-b) := Int.fmod_eq_tmod_of_nonneg (by omega) (by omega)
      rw [Int.neg_tmod, Int.tmod_neg] at h3
      rw [Int.neg_fmod_neg] at h3
      omega

/-- **C87** (violated), in general: SUM of any group of NULLs only is 0 and GROUP_CONCAT the empty text; SQL's value is NULL. -/
theorem C87_all_null (py : Py) (n : Nat) :
    (Verif.Agg.sum py).run none (List.replicate (n + 1) .null) = some (some (.int 0)) ∧
    ((Verif.Agg.groupConcat py).run none (List.replicate (n + 1) .null)).map (Verif.Agg.groupConcat py).final = some [] := by
  have key : ∀ n, (Verif.Agg.sum py).run (some (.int 0)) (List.replicate n .null) = some (some (.int 0)) := by
    intro n
    induction n with
    | zero => rfl
    | succ n ih => rw [List.replicate_succ]; exact ih
  constructor
  · rw [List.replicate_succ]; exact key n
  · rw [C17_group_concat]
    have : AggSpec.nonNull (List.replicate (n + 1) Val.null) = [] := by simp [AggSpec.nonNull, List.filter_replicate]
    rw [this]; rfl

namespace Tile

/-- Rounded-up multiples of `r / n`. -/
def up (n r b : Nat) : Nat := (b * r + (n - 1)) / n

theorem up_mul (n q r b : Nat) (hn : 0 < n) : (b * (n * q + r) + (n - 1)) / n = b * q + up n r b := by
  unfold up
  rw [show b * (n * q + r) + (n - 1) = (b * r + (n - 1)) + n * (b * q) by grind, Nat.add_mul_div_left _ _ hn]; omega

theorem up_le (n r b : Nat) (hn : 0 < n) (x : Nat) : up n r b ≤ x ↔ b * r ≤ n * x := by
  unfold up
  rw [Nat.div_le_iff_le_mul_add_pred hn]; omega

theorem lt_up (n r b : Nat) (hn : 0 < n) (x : Nat) : x < up n r b ↔ n * x < b * r := by
  have := up_le n r b hn x
  omega

theorem up_mono (n r b : Nat) (hn : 0 < n) : up n r b ≤ up n r (b + 1) := by
  rw [up_le n r b hn]
  have := (up_le n r (b + 1) hn (up n r (b + 1))).1 (Nat.le_refl _)
  rw [Nat.add_mul] at this; omega

theorem up_zero (n r : Nat) (hn : 0 < n) : up n r 0 = 0 := by
  have := (up_le n r 0 hn 0).2 (by omega); omega

theorem up_n (n r : Nat) (hn : 0 < n) : up n r n = r := by
  apply Nat.le_antisymm
  · rw [up_le n r n hn]
  · apply Nat.le_of_not_lt; intro h
    have h1 := (up_le n r n hn _).1 (Nat.le_refl _)
    have := Nat.le_of_mul_le_mul_left h1 hn
    omega

theorem up_le_self (n r b : Nat) (hn : 0 < n) (hr : r ≤ n) : up n r b ≤ b := by
  rw [up_le n r b hn, Nat.mul_comm n b]; exact Nat.mul_le_mul_left _ hr

end Tile

/-- **C88**, exactly when the larger buckets come first: when the number of rows leaves the remainder 0, 1 or n - 1 on division by
the number of buckets; otherwise some later bucket is larger than an earlier one. -/
theorem C88_larger_first_exact (len n : Nat) (hn : 0 < n) (hl : 0 < len) :
    (∀ b c : Nat, b ≤ c → c < n → Spec.bucketSize len (fun i => Window.ntile len i n) ((c : Int) + 1) ≤
      Spec.bucketSize len (fun i => Window.ntile len i n) ((b : Int) + 1)) ↔ len % n ≤ 1 ∨ len % n = n - 1 := by
  have hrn := Nat.mod_lt len hn
  have hlen := Nat.div_add_mod len n
  generalize hq : len / n = q at hlen
  generalize hr : len % n = r at hlen hrn
  have hsz : ∀ b, b < n → Spec.bucketSize len (fun i => Window.ntile len i n) ((b : Int) + 1) =
      q + (Tile.up n r (b + 1) - Tile.up n r b) := by
    intro b hb
    rw [ntile_size len n hn hl b hb, ← hlen, Tile.up_mul _ _ _ _ hn, Tile.up_mul _ _ _ _ hn]
    have := Tile.up_mono n r b hn
    rw [Nat.add_mul]; omega
  constructor
  · intro h
    apply Classical.byContradiction
    intro hc
    have h2 : 2 ≤ r ∧ r + 2 ≤ n := by omega
    have step : ∀ b, b < r → Tile.up n r b < Tile.up n r (b + 1) := by
      intro b hb
      apply Classical.byContradiction
      intro hlt
      have hflat : ∀ c, b ≤ c → c ≤ n → Tile.up n r c ≤ Tile.up n r b := by
        intro c hbc
        induction c, hbc using Nat.le_induction with
        | base => intro _; exact Nat.le_refl _
        | succ c hbc ih =>
          intro hcn
          have h1 := h b c hbc (by omega)
          rw [hsz b (by omega), hsz c (by omega)] at h1
          have h2 := Tile.up_mono n r c hn
          have h3 := ih (by omega)
          omega
      have h4 := hflat n (by omega) (Nat.le_refl _)
      rw [Tile.up_n n r hn] at h4
      have := Tile.up_le_self n r b hn (by omega)
      omega
    have hge : ∀ b, b ≤ r → b ≤ Tile.up n r b := by
      intro b
      induction b with
      | zero => intro _; omega
      | succ b ih => intro hb; have := step b (by omega); have := ih (by omega); omega
    have h5 : n * (r - 1) < r * r := (Tile.lt_up n r r hn (r - 1)).1 (by have := hge r (Nat.le_refl _); omega)
    have h6 : (r + 2) * (r - 1) ≤ n * (r - 1) := Nat.mul_le_mul_right _ h2.2
    obtain ⟨k, rfl⟩ : ∃ k, r = k + 2 := ⟨r - 2, by omega⟩
    have h7 : (k + 2 + 2) * (k + 2 - 1) = (k + 2) * (k + 2) + k := by
      rw [show k + 2 - 1 = k + 1 by omega]; grind
    omega
  · intro hc b c hbc hcn
    rw [hsz b (by omega), hsz c hcn]
    rcases Nat.eq_or_lt_of_le hbc with rfl | hlt
    · exact Nat.le_refl _
    apply Nat.add_le_add_left
    have hone : Tile.up n r (c + 1) ≤ Tile.up n r c + 1 := by
      rw [Tile.up_le n r (c + 1) hn, Nat.add_mul, Nat.mul_add]
      have := (Tile.up_le n r c hn (Tile.up n r c)).1 (Nat.le_refl _)
      omega
    rcases hc with hc | hc
    · -- remainder 0 or 1: no later bucket is larger
      have h1 : Tile.up n r (c + 1) ≤ 1 := by
        rw [Tile.up_le n r (c + 1) hn]
        have : (c + 1) * r ≤ n * 1 := by
          rcases Nat.lt_or_ge r 1 with h | h
          · have : r = 0 := by omega
            subst this; omega
          · have : r = 1 := by omega
            subst this; omega
        exact this
      rcases Nat.eq_zero_or_pos r with h0 | h0
      · have : Tile.up n r (c + 1) ≤ 0 := by rw [Tile.up_le n r (c + 1) hn, h0]; omega
        omega
      · have : 0 < Tile.up n r c := by
          rw [Tile.lt_up n r c hn]; have := Nat.mul_pos (show 0 < c by omega) h0; omega
        omega
    · -- remainder n - 1: every earlier bucket has the extra row
      have h1 : ∀ d, d < n → d ≤ Tile.up n r d := by
        intro d hd
        rcases Nat.eq_zero_or_pos d with h0 | h0
        · omega
        · have : d - 1 < Tile.up n r d := by
            rw [Tile.lt_up n r d hn, hc]
            obtain ⟨k, rfl⟩ : ∃ k, d = k + 1 := ⟨d - 1, by omega⟩
            obtain ⟨m, rfl⟩ : ∃ m, n = m + 1 := ⟨n - 1, by omega⟩
            simp only [Nat.add_sub_cancel]
            have : (m + 1) * k = m * k + k := by grind
            have : (k + 1) * m = m * k + m := by grind
            omega
          omega
      have h2 := h1 (b + 1) (by omega)
      have h3 := Tile.up_le_self n r b hn (by omega)
      omega

/-- 10 rows in 4 buckets leave the remainder 2; 9 rows in 4 buckets the remainder 1. -/
example : ¬ (10 % 4 ≤ 1 ∨ 10 % 4 = 4 - 1) ∧ (9 % 4 ≤ 1 ∨ 9 % 4 = 4 - 1) := by decide

/-- **C81**, FROM_UNIXTIME(t), where it is a moment at all, is `t` seconds after 1970, in every time zone. -/
theorem C81_from_unixtime (zone : Int → Int) (t : Int) (a : Calendar.Aware) (h : Calendar.fromUnixtime zone t = some a) :
    Date.Valid a.wall ∧ Calendar.wallSeconds a.wall - a.offset = t :=
  ⟨(C97_unixtime_partial zone 0 t a h).1, (C97_unixtime_partial zone 0 t a h).2.1⟩

end Verif.Props
