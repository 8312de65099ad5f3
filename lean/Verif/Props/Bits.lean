import Verif.Props.Scalar
/-! C75: bit operators; ties of ROUND (C51). -/
namespace Verif.Props
open Verif.Val

/-- **C93** ROUND of a number exactly between two neighbours takes the even one (so `ROUND(2.5, 0)` is 2 and `ROUND(3.5, 0)` is 4). -/
theorem C93_round_ties (py : Py) (q : Rat) (d : Nat) (k : Int) (h : q * 10 ^ d = k + 1 / 2) :
    ∃ j : Int, py.round (.flt q) (some d) = .flt (j / 10 ^ d) ∧ (j = k ∨ j = k + 1) ∧ j % 2 = 0 := by
  refine ⟨roundHalfEven (q * 10 ^ d), rfl, ?_⟩
  rw [h]
  have hf : ((k : Rat) + 1 / 2).floor = k := by
    have h1 : k ≤ ((k : Rat) + 1 / 2).floor := Rat.le_floor_iff.2 (by grind)
    have h2 : ((k : Rat) + 1 / 2).floor < k + 1 := by
      have := Rat.floor_le ((k : Rat) + 1 / 2)
      have : (((k : Rat) + 1 / 2).floor : Rat) < ((k + 1 : Int) : Rat) := by push_cast; grind
      exact Rat.intCast_lt_intCast.1 this
    omega
  have hr : (k : Rat) + 1 / 2 - k = 1 / 2 := by grind
  unfold roundHalfEven
  simp only [hf, hr]
  rw [if_neg (by decide +kernel), if_neg (by decide +kernel)]
  split
  · rename_i he; exact ⟨.inl rfl, he⟩
  · exact ⟨.inr rfl, by omega⟩

example : (5 / 2 : Rat) * 10 ^ 0 = (2 : Int) + 1 / 2 := by decide +kernel

/-- **C75** Of natural numbers, every bit of `a & b`, `a | b` and `a ^ b` is the conjunction, disjunction and difference of the bits. -/
theorem C75_bits (py : Py) (a b : Nat) :
    ∃ x o d : Nat, py.bit .and (.int a) (.int b) = .int x ∧ py.bit .or (.int a) (.int b) = .int o ∧
      py.bit .xor (.int a) (.int b) = .int d ∧
      ∀ i, x.testBit i = (a.testBit i && b.testBit i) ∧ o.testBit i = (a.testBit i || b.testBit i) ∧
        d.testBit i = (a.testBit i != b.testBit i) := by
  refine ⟨a &&& b, a ||| b, a ^^^ b, ?_, ?_, ?_, ?_⟩
  · simp [Py.bit, Py.bitArg, Py.ensureInt, Bit.apply, caught]; rfl
  · simp [Py.bit, Py.bitArg, Py.ensureInt, Bit.apply, caught]; rfl
  · simp [Py.bit, Py.bitArg, Py.ensureInt, Bit.apply, caught]; rfl
  · intro i
    simp [Nat.testBit_and, Nat.testBit_or, Nat.testBit_xor]

/-- **C75** Shifts multiply by and divide (rounding down) by powers of two; a negative number of places gives NULL. -/
theorem C75_shifts (py : Py) (a : Int) (n : Nat) :
    py.bit .shl (.int a) (.int n) = .int (a * 2 ^ n) ∧
    (∃ r : Int, py.bit .shr (.int a) (.int n) = .int r ∧ r * 2 ^ n ≤ a ∧ a < (r + 1) * 2 ^ n) ∧
    py.bit .shl (.int a) (.int (-(n + 1 : Nat))) = .null ∧ py.bit .shr (.int a) (.int (-(n + 1 : Nat))) = .null := by
  have hn : ¬ ((n : Int) < 0) := by omega
  have hneg : (-((n + 1 : Nat) : Int)) < 0 := by omega
  refine ⟨?_, ⟨a.fdiv (2 ^ n), ?_, ?_, ?_⟩, ?_, ?_⟩
  · simp [Py.bit, Py.bitArg, Py.ensureInt, Bit.apply, caught, hn]
  · simp [Py.bit, Py.bitArg, Py.ensureInt, Bit.apply, caught, hn]
  · have h := Int.mul_fdiv_add_fmod a (2 ^ n)
    have h2 := Int.fmod_nonneg_of_pos a (b := 2 ^ n) (Int.pow_pos (by omega))
    rw [Int.mul_comm] at h; omega
  · have h := Int.mul_fdiv_add_fmod a (2 ^ n)
    have h2 := Int.fmod_lt_of_pos a (b := 2 ^ n) (Int.pow_pos (by omega))
    rw [Int.mul_comm] at h
    rw [Int.add_mul, Int.one_mul]; omega
  · simp only [Py.bit, Py.bitArg, Py.ensureInt, Bit.apply, hneg, if_true]; rfl
  · simp only [Py.bit, Py.bitArg, Py.ensureInt, Bit.apply, hneg, if_true]; rfl

/-- **C75** Operands that are texts, booleans or fractions count as the integer `ensure_int` makes of them; NULL gives NULL
(`C29_null`). -/
theorem C75_operands (py : Py) (op : Bit) (v w : Val) (i j : Int) (hv : py.ensureInt v = some (.int i))
    (hw : py.ensureInt w = some (.int j)) : py.bit op v w = py.bit op (.int i) (.int j) := by
  have h1 : v ≠ .null := by rintro rfl; simp [Py.ensureInt] at hv
  have h2 : w ≠ .null := by rintro rfl; simp [Py.ensureInt] at hw
  simp only [Py.bit, Py.bitArg, hv, hw, h1, h2, or_self, if_false]
  simp [Py.ensureInt]

/-- **C107 is violated**: numbers are not 64 bits wide.  `~a` is negative instead of `2^64 - 1 - a`, and bits shifted out are kept:
`a << n` with `n ≥ 64` is 0 in SQL. -/
theorem C107_width_violated (py : Py) (a n : Nat) :
    py.bitNot (.int a) = .int (-a - 1) ∧ (-(a : Int) - 1 ≠ 2 ^ 64 - 1 - a) ∧
    (0 < a → 64 ≤ n → py.bit .shl (.int a) (.int n) ≠ .int 0) := by
  refine ⟨?_, by omega, ?_⟩
  · simp [Py.bitNot, Py.bitArg, Py.ensureInt, caught]
  · intro ha _
    rw [(C75_shifts py a n).1]
    intro h
    simp at h
    omega

/-- **C107 is violated** for fractions: they are cut off, not rounded: `2.7 & 3` is 2 (SQL: 3). -/
theorem C107_fraction_violated (py : Py) : py.bit .and (.flt (27 / 10)) (.int 3) = .int 2 := by
  have : trunc (27 / 10) = 2 := by decide +kernel
  simp [Py.bit, Py.bitArg, Py.ensureInt, Bit.apply, caught, this]
  rfl

/-- **C27** IS NULL and IS NOT NULL are 1 or 0 for every value, NULL included. -/
theorem C27_is_null (v : Val) :
    mysqlIsNull v = .int (if v = .null then 1 else 0) ∧ mysqlIsNotNull v = .int (if v = .null then 0 else 1) := by
  cases v <;> simp [mysqlIsNull, mysqlIsNotNull, ofBool]

/-- **C30** on fractions: sums, differences, products and quotients are exact, also when one operand is an integer. -/
theorem C30_fraction_arithmetic (py : Py) (p q : Rat) (i : Int) :
    py.ar .add (.flt p) (.flt q) = .flt (p + q) ∧ py.ar .sub (.flt p) (.flt q) = .flt (p - q) ∧
    py.ar .mul (.flt p) (.flt q) = .flt (p * q) ∧ (q ≠ 0 → py.ar .div (.flt p) (.flt q) = .flt (p / q)) ∧
    py.ar .div (.flt p) (.flt 0) = .null ∧ py.ar .mod (.flt p) (.flt 0) = .null ∧
    py.ar .add (.int i) (.flt q) = .flt (i + q) ∧ py.ar .sub (.int i) (.flt q) = .flt (i - q) ∧
    py.ar .sub (.flt q) (.int i) = .flt (q - i) ∧ py.ar .mul (.flt q) (.int i) = .flt (q * i) := by
  refine ⟨rfl, rfl, rfl, fun hq => ?_, ?_, ?_, rfl, rfl, rfl, rfl⟩
  · simp [Py.ar, Py.arRaw, Py.ensureNumber, Ar.apply, Num.toRat, hq, Num.toVal, caught]
  · simp [Py.ar, Py.arRaw, Py.ensureNumber, Ar.apply, Num.toRat, caught]
  · simp [Py.ar, Py.arRaw, Py.ensureNumber, Ar.apply, Num.toRat, caught]

/-- **C30** on fractions: for `q ≠ 0`, `p MOD q` is the `r` with `p = q*k + r` for an integer `k`, smaller than `q` in magnitude,
with the sign of `q` (SQL: of `p`, see C90_mod_sign_violated). -/
theorem C30_modulo_fractions (py : Py) (p q : Rat) (hq : q ≠ 0) :
    ∃ (k : Int) (r : Rat), py.ar .mod (.flt p) (.flt q) = .flt r ∧ p = q * k + r ∧
      (0 < q → 0 ≤ r ∧ r < q) ∧ (q < 0 → r ≤ 0 ∧ q < r) := by
  refine ⟨(p / q).floor, ratMod p q, ?_, ?_, ?_, ?_⟩
  · simp [Py.ar, Py.arRaw, Py.ensureNumber, Ar.apply, Num.toRat, hq, Num.toVal, caught]
  · unfold ratMod; grind
  all_goals
    intro h
    have h1 : ((p / q).floor : Rat) ≤ p / q := Rat.le_floor_iff.1 (Int.le_refl _)
    have h2 : p / q < ((p / q).floor : Rat) + 1 := by
      have := Rat.le_floor_iff (x := (p / q).floor + 1) (a := p / q)
      by_cases hc : ((p / q).floor : Rat) + 1 ≤ p / q
      · have h4 : ((((p / q).floor + 1 : Int)) : Rat) ≤ p / q := by rw [Rat.intCast_add]; exact hc
        have := this.2 h4
        omega
      · exact Rat.not_le.1 hc
    have h3 : p = q * (p / q) := by rw [Rat.mul_comm, Rat.div_mul_cancel hq]
    unfold ratMod
    generalize ((p / q).floor : Rat) = f at *
    generalize p / q = x at *
    subst h3
  · have a1 := Rat.mul_nonneg (Rat.le_of_lt h) (show (0 : Rat) ≤ x - f by grind)
    have a2 := Rat.mul_pos h (show (0 : Rat) < 1 - (x - f) by grind)
    constructor <;> grind
  · have a1 := Rat.mul_nonneg (show (0 : Rat) ≤ -q by grind) (show (0 : Rat) ≤ x - f by grind)
    have a2 := Rat.mul_pos (show (0 : Rat) < -q by grind) (show (0 : Rat) < 1 - (x - f) by grind)
    constructor <;> grind

/-- `7.5 MOD 2` is 1.5. -/
example (py : Py) : (2 : Rat) ≠ 0 ∧ py.ar .mod (.flt (15 / 2)) (.flt 2) = .flt (3 / 2) := by
  refine ⟨by decide, ?_⟩
  have : ratMod (15 / 2) 2 = 3 / 2 := by decide +kernel
  simp [Py.ar, Py.arRaw, Py.ensureNumber, Ar.apply, Num.toRat, Num.toVal, caught, this]

end Verif.Props
