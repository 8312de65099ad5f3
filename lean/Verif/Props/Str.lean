import Verif.Props.Scalar
import Verif.Model.Str
import Verif.Spec.Text
/-! Property theorems C32-C36: text functions and LIKE. -/
namespace Verif.Props
open Verif.Val Verif.Text

section
variable (py : Py)

/-! ## C32 -/

theorem bound_nat (n i : Nat) : Str.bound n (i : Int) = min i n := by
  unfold Str.bound
  rw [if_neg (by omega)]; simp

theorem bound_neg (n i : Nat) (h : 0 < i) : Str.bound n (-(i : Int)) = n - i := by
  unfold Str.bound
  rw [if_pos (by omega)]; omega

theorem slice_to {α : Type} (s : List α) (i : Nat) : Str.slice s none (some (i : Int)) = s.take i := by
  simp only [Str.slice, bound_nat, List.drop_zero, Nat.sub_zero]
  rw [List.take_eq_take_iff]; omega

theorem slice_to_neg {α : Type} (s : List α) (i : Nat) (h : 0 < i) :
    Str.slice s none (some (-(i : Int))) = s.take (s.length - i) := by
  simp only [Str.slice, bound_neg _ _ h, List.drop_zero, Nat.sub_zero]

theorem slice_from {α : Type} (s : List α) (i : Nat) : Str.slice s (some (i : Int)) none = s.drop i := by
  simp only [Str.slice, bound_nat]
  rw [List.take_of_length_le (by simp)]
  by_cases h : i ≤ s.length
  · rw [Nat.min_eq_left h]
  · rw [Nat.min_eq_right (by omega), List.drop_of_length_le (Nat.le_refl _), List.drop_of_length_le (by omega)]

theorem slice_from_neg {α : Type} (s : List α) (i : Nat) (h : 0 < i) :
    Str.slice s (some (-(i : Int))) none = s.drop (s.length - i) := by
  simp only [Str.slice, bound_neg _ _ h]
  exact List.take_of_length_le (by simp)

theorem slice_range {α : Type} (s : List α) (i j : Nat) :
    Str.slice s (some (i : Int)) (some ((i + j : Nat) : Int)) = (s.drop i).take j := by
  simp only [Str.slice, bound_nat]
  by_cases h : i ≤ s.length
  · rw [Nat.min_eq_left h, List.take_eq_take_iff]; simp; omega
  · rw [Nat.min_eq_right (by omega : s.length ≤ i), List.drop_of_length_le (Nat.le_refl _),
      List.drop_of_length_le (by omega : s.length ≤ i)]; simp

variable {v : Val} {s : Str}

theorem ensureStr_ne (h : py.ensureStr v = some s) : v ≠ .null := by rintro rfl; simp [Py.ensureStr] at h

/-- **C32**, LEFT: the first `n` characters. -/
theorem C32_left (h : py.ensureStr v = some s) (n : Nat) : Str.left py v (.int n) = .str (s.take n) := by
  simp [Str.left, Str.leftRaw, ensureStr_ne py h, h, Str.indexOrNone, Str.index, slice_to, caught]

/-- **C32**, RIGHT, for a positive count: the last `n` characters. -/
theorem C32_right (h : py.ensureStr v = some s) (n : Nat) (hn : 0 < n) :
    Str.right py v (.int n) = .str (s.drop (s.length - n)) := by
  simp [Str.right, Str.rightRaw, ensureStr_ne py h, h, Str.index, slice_from_neg _ _ hn, caught]

/-- **C32**, SUBSTRING from position `n + 1`: what is left after the first `n` characters. -/
theorem C32_substring (h : py.ensureStr v = some s) (n : Nat) :
    Str.substring py v (.int (n + 1 : Nat)) = .str (s.drop n) := by
  have e : ((n + 1 : Nat) : Int) - 1 = (n : Int) := by omega
  simp only [Str.substring, Str.substringRaw, ensureStr_ne py h, h, Str.index, caught, if_false, Option.bind_eq_bind,
    Option.bind_some, e, slice_from]
  rfl

/-- **C32**, SUBSTRING from position `n + 1` with length `l`. -/
theorem C32_substring_length (h : py.ensureStr v = some s) (n l : Nat) :
    Str.substring py v (.int (n + 1 : Nat)) (.int l) = .str ((s.drop n).take l) := by
  have e : ((n + 1 : Nat) : Int) - 1 = (n : Int) := by omega
  have e2 : ((n + 1 : Nat) : Int) + (l : Int) - 1 = ((n + l : Nat) : Int) := by omega
  simp only [Str.substring, Str.substringRaw, ensureStr_ne py h, h, Str.index, caught, if_false, Option.bind_eq_bind,
    Option.bind_some, e, e2, slice_range]
  rfl

/-- **C32**: LEFT(s, n) is a prefix of `min(n, length)` characters, and CONCAT(LEFT(s, n), SUBSTRING(s, n + 1)) is `s`. -/
theorem C32_left_substring (h : py.ensureStr v = some s) (n : Nat) :
    (∃ t, Str.left py v (.int n) = .str t ∧ t <+: s ∧ t.length = min n s.length) ∧
    Str.concat py [Str.left py v (.int n), Str.substring py v (.int (n + 1 : Nat))] = .str s := by
  refine ⟨⟨_, C32_left py h n, List.take_prefix n s, by simp⟩, ?_⟩
  rw [C32_left py h, C32_substring py h]
  simp [Str.concat, Str.concatRaw, Py.ensureStr, caught]

/-- **C32**: RIGHT(s, n), for positive `n`, is a suffix of `min(n, length)` characters; LEFT and RIGHT together are `s`. -/
theorem C32_left_right (h : py.ensureStr v = some s) (n : Nat) (hn : 0 < n) :
    (∃ t, Str.right py v (.int n) = .str t ∧ t <:+ s ∧ t.length = min n s.length) ∧
    Str.concat py [Str.left py v (.int (s.length - n : Nat)), Str.right py v (.int n)] = .str s := by
  refine ⟨⟨_, C32_right py h n hn, List.drop_suffix _ s, by simp; omega⟩, ?_⟩
  rw [C32_left py h, C32_right py h n hn]
  simp [Str.concat, Str.concatRaw, Py.ensureStr, caught]

/-- **C104 is violated by RIGHT(s, 0)**, which is the whole text, for every text. -/
theorem C104_right_zero_violated (h : py.ensureStr v = some s) : Str.right py v (.int 0) = .str s := by
  have : Str.slice s (some (0 : Int)) none = s := by simpa using slice_from s 0
  simp [Str.right, Str.rightRaw, ensureStr_ne py h, h, Str.index, this, caught]

/-- **C104 is violated by negative counts** (SQL: the empty text): LEFT(s, -n) drops the last `n` characters and RIGHT(s, -n)
the first `n`. -/
theorem C104_negative_violated (h : py.ensureStr v = some s) (n : Nat) (hn : 0 < n) :
    Str.left py v (.int (-(n : Int))) = .str (s.take (s.length - n)) ∧
    Str.right py v (.int (-(n : Int))) = .str (s.drop n) := by
  constructor
  · simp [Str.left, Str.leftRaw, ensureStr_ne py h, h, Str.indexOrNone, Str.index, slice_to_neg _ _ hn, caught]
  · simp [Str.right, Str.rightRaw, ensureStr_ne py h, h, Str.index, slice_from, caught]

/-- **C104 is violated by SUBSTRING from the end**: SUBSTRING(s, -n) gives `n + 1` characters instead of `n` (and
SUBSTRING(s, 0) the last character instead of the empty text). -/
theorem C104_substring_negative_violated (h : py.ensureStr v = some s) (n : Nat) :
    Str.substring py v (.int (-(n : Int))) = .str (s.drop (s.length - (n + 1))) := by
  have e : -(n : Int) - 1 = -((n + 1 : Nat) : Int) := by omega
  simp only [Str.substring, Str.substringRaw, ensureStr_ne py h, h, Str.index, caught, if_false, Option.bind_eq_bind,
    Option.bind_some, e, slice_from_neg _ _ (Nat.succ_pos n)]
  rfl

/-- NULL arguments: LEFT(s, NULL) and SUBSTRING(s, n, NULL) are not NULL. -/
theorem C104_null_argument_violated (h : py.ensureStr v = some s) :
    Str.left py v .null = .str s ∧ Str.substring py v (.int 1) .null = .str s := by
  refine ⟨?_, by simpa using C32_substring py h 0⟩
  have : Str.slice s none none = s := by simp [Str.slice]
  simp [Str.left, Str.leftRaw, ensureStr_ne py h, h, Str.indexOrNone, this, caught]

/-- LEFT, RIGHT, SUBSTRING, REPEAT, REVERSE, TRIM and the lengths of NULL are NULL. -/
theorem C32_null_text (x y : Val) :
    Str.left py .null x = .null ∧ Str.right py .null x = .null ∧ Str.substring py .null x y = .null ∧
    Str.mysqlRepeat py .null x = .null ∧ Str.reverse py .null = .null ∧ Str.trim py .null = .null ∧
    Str.length .null = .null ∧ Str.charLength py .null = .null ∧ Str.substringIndex py .null x y = .null ∧
    Str.mysqlReplace py .null x y = .null := by
  simp [Str.left, Str.leftRaw, Str.right, Str.rightRaw, Str.substring, Str.substringRaw, Str.mysqlRepeat, Str.repeatRaw,
    Str.reverse, Str.reverseRaw, Str.trim, Str.trimRaw, Str.length, Str.lengthRaw, Str.charLength, Str.charLengthRaw,
    Str.substringIndex, Str.substringIndexRaw, Str.mysqlReplace, Str.replaceRaw, caught]

/-- CHAR_LENGTH counts characters. -/
theorem C32_char_length (h : py.ensureStr v = some s) : Str.charLength py v = .int s.length := by
  cases v <;> simp_all [Str.charLength, Str.charLengthRaw, caught, Py.ensureStr]

/-- LENGTH counts bytes: between the number of characters and four times that; equal to it exactly for ASCII texts. -/
theorem C32_length (s : Str) :
    ∃ n : Nat, Str.length (.str s) = .int n ∧ Str.bitLength (.str s) = .int (n * 8 : Nat) ∧
      s.length ≤ n ∧ n ≤ 4 * s.length ∧ (n = s.length ↔ ∀ c ∈ s, c.toNat < 128) := by
  refine ⟨Str.utf8Len s, rfl, rfl, ?_, ?_, ?_⟩
  · induction s with
    | nil => simp
    | cons c s ih =>
      have := Char.utf8Size_pos c
      simp only [Str.utf8Len, List.map_cons, List.sum_cons, List.length_cons] at ih ⊢; omega
  · induction s with
    | nil => simp [Str.utf8Len]
    | cons c s ih =>
      have := Char.utf8Size_le_four c
      simp only [Str.utf8Len, List.map_cons, List.sum_cons, List.length_cons] at ih ⊢; omega
  · induction s with
    | nil => simp [Str.utf8Len]
    | cons c s ih =>
      have hpos := Char.utf8Size_pos c
      have hge : s.length ≤ Str.utf8Len s := by
        clear ih
        induction s with
        | nil => simp
        | cons c s ih =>
          have := Char.utf8Size_pos c
          simp only [Str.utf8Len, List.map_cons, List.sum_cons, List.length_cons] at ih ⊢; omega
      have h1 : c.utf8Size = 1 ↔ c.toNat < 128 := by
        rw [Char.utf8Size_eq_one_iff]
        show c.val ≤ 127 ↔ c.val.toNat < 128
        rw [UInt32.le_iff_toNat_le]
        show c.val.toNat ≤ 127 ↔ _
        omega
      have hs : Str.utf8Len (c :: s) = c.utf8Size + Str.utf8Len s := by simp [Str.utf8Len]
      rw [hs]
      simp only [List.length_cons, List.mem_cons, forall_eq_or_imp, ← h1, ← ih]
      omega

end
end Verif.Props
