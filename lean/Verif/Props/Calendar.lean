import Verif.Props.DateFields
import Verif.Model.Calendar
import Verif.Spec.Calendar
/-! C80: DATE_FORMAT; C81: dates, times and instants. -/
namespace Verif.Props
open Verif.Date Verif.DateSpec Verif.DateProofs Verif.Calendar
open Verif.Spec.Calendar (spec digits Format)

namespace Cal

/-- The specifiers Python and MySQL agree on. -/
def common : List Char := ['a', 'b', 'd', 'f', 'H', 'I', 'j', 'm', 'p', 'r', 'S', 'T', 'U', 'w', 'Y', 'y', '%']

/-- A format made of other characters and these specifiers; a `%` at the end is not one. -/
inductive Plain : List Char → Prop where
  | nil : Plain []
  | lit {c f} : c ≠ '%' → Plain f → Plain (c :: f)
  | spec {c f} : c ∈ common → Plain f → Plain ('%' :: c :: f)

theorem digit_eq (n : Nat) : digit (n : Int) = (n % 10).digitChar := by
  have h : n % 10 < 10 := Nat.mod_lt _ (by omega)
  have e : (((n : Int) % 10).toNat) = n % 10 := by omega
  unfold digit
  rw [e]
  generalize n % 10 = a at h
  have : a = 0 ∨ a = 1 ∨ a = 2 ∨ a = 3 ∨ a = 4 ∨ a = 5 ∨ a = 6 ∨ a = 7 ∨ a = 8 ∨ a = 9 := by omega
  rcases this with h | h | h | h | h | h | h | h | h | h <;> subst h <;> rfl

theorem digits_nat (k n : Nat) : digits k (n : Int) = List.replicate (k - (Nat.toDigits 10 n).length) '0' ++ Nat.toDigits 10 n := by
  simp [digits, Nat.toList_repr]

theorem padded_digits (k n : Nat) (hn : n < 10 ^ (k + 1)) : padded (k + 1) (n : Int) = digits (k + 1) (n : Int) := by
  induction k generalizing n with
  | zero =>
    have h : n < 10 := by simpa using hn
    rw [digits_nat, Nat.toDigits_of_lt_base h]
    simp [padded, digit_eq, Nat.mod_eq_of_lt h]
  | succ k ih =>
    have e : padded (k + 2) (n : Int) = padded (k + 1) ((n / 10 : Nat) : Int) ++ [digit (n : Int)] := by
      rw [padded]; simp
    have hlt : n / 10 < 10 ^ (k + 1) := by
      rw [Nat.pow_succ] at hn; omega
    rw [e, ih _ hlt, digits_nat, digits_nat, digit_eq]
    by_cases h : n < 10
    · have h0 : n / 10 = 0 := by omega
      rw [h0, Nat.toDigits_zero, Nat.toDigits_of_lt_base h, Nat.mod_eq_of_lt h]
      have : k + 1 + 1 - 1 = k + 1 - 1 + 1 := by omega
      simp [List.replicate_succ']
    · rw [Nat.toDigits_of_base_le (by omega) (by omega : 10 ≤ n)]
      simp

theorem padded_int (k : Nat) (n : Int) (h0 : 0 ≤ n) (hn : n < 10 ^ (k + 1)) : padded (k + 1) n = digits (k + 1) n := by
  obtain ⟨m, rfl⟩ := Int.eq_ofNat_of_zero_le h0
  exact padded_digits k m (by exact_mod_cast hn)

/-- Enough digits: no zeros in front. -/
theorem digits_long (k n : Nat) (hk : 10 ^ k ≤ n) : digits (k + 1) (n : Int) = digits 1 (n : Int) := by
  have hl : k + 1 ≤ (Nat.toDigits 10 n).length := by
    cases k with
    | zero => exact Nat.length_toDigits_pos
    | succ k =>
      have := (Nat.length_toDigits_le_iff (b := 10) (n := n) (k := k + 1) (by omega) (by omega))
      by_cases h : (Nat.toDigits 10 n).length ≤ k + 1
      · have := this.1 h; omega
      · omega
  have h1 := Nat.length_toDigits_pos (b := 10) (n := n)
  rw [digits_nat, digits_nat, show k + 1 - (Nat.toDigits 10 n).length = 0 by omega,
    show 1 - (Nat.toDigits 10 n).length = 0 by omega]

theorem plain_digits (n : Int) (h0 : 0 ≤ n) (hn : n < 10000) : plain n = digits 1 n := by
  obtain ⟨m, rfl⟩ := Int.eq_ofNat_of_zero_le h0
  have hm : m < 10000 := by omega
  simp only [plain]
  split
  · exact padded_digits 0 m (by omega)
  · split
    · rw [padded_digits 1 m (by omega), digits_long 1 m (by omega)]
    · split
      · rw [padded_digits 2 m (by omega), digits_long 2 m (by omega)]
      · rw [padded_digits 3 m (by omega), digits_long 3 m (by omega)]

theorem plain_four (n : Int) (h0 : 1000 ≤ n) (hn : n < 10000) : plain n = digits 4 n := by
  obtain ⟨m, rfl⟩ := Int.eq_ofNat_of_zero_le (by omega : 0 ≤ n)
  rw [plain_digits _ (by omega) hn, ← digits_long 3 m (by omega)]

theorem cases7 (w : Int) (h : 0 ≤ w ∧ w ≤ 6) : w = 0 ∨ w = 1 ∨ w = 2 ∨ w = 3 ∨ w = 4 ∨ w = 5 ∨ w = 6 := by omega

theorem weekday_bounds (x : DT) : 0 ≤ weekday x ∧ weekday x ≤ 6 := by unfold weekday; omega

theorem day_eq (x : DT) : dayName x = Spec.Calendar.day x := by
  have h := cases7 _ (weekday_bounds x)
  simp only [dayName, Spec.Calendar.day, Spec.Calendar.dow]
  rcases h with h | h | h | h | h | h | h <;> rw [h] <;> rfl

theorem mon_eq (x : DT) (h : 1 ≤ x.m ∧ x.m ≤ 12) : monthName x = Spec.Calendar.mon x := by
  have : x.m = 1 ∨ x.m = 2 ∨ x.m = 3 ∨ x.m = 4 ∨ x.m = 5 ∨ x.m = 6 ∨ x.m = 7 ∨ x.m = 8 ∨ x.m = 9 ∨ x.m = 10 ∨ x.m = 11 ∨ x.m = 12 := by
    omega
  simp only [monthName, Spec.Calendar.mon]
  rcases this with h | h | h | h | h | h | h | h | h | h | h | h <;> rw [h] <;> rfl

theorem time_fields {x : DT} (h : Valid x) :
    hour x = Spec.Calendar.hh x ∧ minute x = Spec.Calendar.mi x ∧ second x = Spec.Calendar.ss x ∧
    hour12 x = Spec.Calendar.h12 x ∧ 0 ≤ hour x ∧ hour x < 24 := by
  have h1 := h.2.2.2.2.2.2.1
  have h2 := h.2.2.2.2.2.2.2
  unfold dayUs at h2
  have e0 : hour x = x.us / 1000000 / 3600 := by unfold hour; omega
  have e2 : minute x = x.us / 1000000 / 60 % 60 := by unfold minute; omega
  have b1 : 0 ≤ x.us / 1000000 := by omega
  have b2 : x.us / 1000000 < 86400 := by omega
  have e3 : hour12 x = (hour x + 11) % 12 + 1 := by
    by_cases hs : hour x % 12 = 0
    · rw [hour12, if_pos hs]; omega
    · rw [hour12, if_neg hs]; omega
  refine ⟨e0, ?_, rfl, ?_, by omega, by omega⟩
  · simp only [Spec.Calendar.mi, Spec.Calendar.secs]; omega
  · rw [e3, e0]; rfl

theorem week_bounds {x : DT} (h : Valid x) (b : Bool) : 0 ≤ week x b ∧ week x b ≤ 53 := by
  have h1 := C52_dayofyear x h
  have h2 := weekday_bounds x
  have h3 : (if leap x.y then (1 : Int) else 0) ≤ 1 := by split <;> omega
  unfold week
  split <;> omega

theorem directive_spec (lib : Lib) {x : DT} (hx : Valid x) (hy : 1000 ≤ x.y) {c : Char} (hc : c ∈ common) :
    spec c x = some (directive lib c x) := by
  obtain ⟨t1, t2, t3, t4, t5, t6⟩ := time_fields hx
  have hm : 1 ≤ x.m ∧ x.m ≤ 12 := ⟨hx.2.2.1, hx.2.2.2.1⟩
  have hd : 1 ≤ x.d ∧ x.d ≤ 31 := ⟨hx.2.2.2.2.1, by have := dim_bounds x.y x.m; have := hx.2.2.2.2.2.1; omega⟩
  have hyy : x.y ≤ 9999 := hx.2.1
  have e2 : ∀ n : Int, 0 ≤ n → n < 100 → padded 2 n = digits 2 n := fun n h1 h2 => padded_int 1 n h1 (by omega)
  have m1 : 0 ≤ minute x ∧ minute x < 60 := by unfold minute; omega
  have s1 : 0 ≤ second x ∧ second x < 60 := by unfold second; omega
  have h12 : 1 ≤ hour12 x ∧ hour12 x ≤ 12 := by unfold hour12; split <;> omega
  have j := C52_dayofyear x hx
  have j3 : (if leap x.y then (1 : Int) else 0) ≤ 1 := by split <;> omega
  have w := week_bounds hx false
  have wd := weekday_bounds x
  have am : Spec.Calendar.ampm x = if hour x < 12 then ['A', 'M'] else ['P', 'M'] := by
    simp only [Spec.Calendar.ampm, t1]; split <;> rfl
  simp only [common, List.mem_cons, List.not_mem_nil, or_false] at hc
  rcases hc with h | h | h | h | h | h | h | h | h | h | h | h | h | h | h | h | h <;> subst h <;>
    simp only [spec, directive, Option.some.injEq, ← t1, ← t2, ← t3, ← t4, am]
  · rw [day_eq]
  · rw [mon_eq x hm]
  · rw [e2 _ (by omega) (by omega)]
  · rw [micro, padded_int 5 _ (by omega) (by omega)]
  · rw [e2 _ (by omega) (by omega)]
  · rw [e2 _ (by omega) (by omega)]
  · rw [padded_int 2 _ (by omega) (by omega)]
  · rw [e2 _ (by omega) (by omega)]
  · rw [e2 _ (by omega) (by omega), e2 _ (by omega) (by omega), e2 _ (by omega) (by omega)]
  · rw [e2 _ (by omega) (by omega)]
  · rw [e2 _ (by omega) (by omega), e2 _ (by omega) (by omega), e2 _ (by omega) (by omega)]
  · rw [e2 _ (by omega) (by omega)]
  · rw [plain_digits _ (by omega) (by omega)]
    simp only [Spec.Calendar.dow]
    congr 1; omega
  · rw [plain_four _ (by omega) (by omega)]
  · rw [e2 _ (by omega) (by omega)]
  · simp

theorem replaceV_id (f : List Char) (h : ¬ ['%', 'v'] <:+: f) : replaceV f = f := by
  induction f with
  | nil => rfl
  | cons c f ih =>
    have hf : ¬ ['%', 'v'] <:+: f := fun hh => h (hh.trans (List.suffix_cons c f).isInfix)
    unfold replaceV
    split
    · next f' heq =>
      exfalso; apply h
      rw [heq]
      exact ⟨[], f', rfl⟩
    · next heq => 
      simp only [List.cons.injEq] at heq
      obtain ⟨rfl, rfl⟩ := heq
      rw [ih hf]
    · next heq => simp at heq

theorem strftime_spec (lib : Lib) {x : DT} (hx : Valid x) (hy : 1000 ≤ x.y) {f : List Char} (hf : Plain f) :
    Format x f (strftime lib x f) := by
  induction hf with
  | nil => exact .nil
  | @lit c f hc _ ih =>
    have : strftime lib x (c :: f) = c :: strftime lib x f := by
      rw [strftime]
      intro c' f' h1 _
      exact hc h1
    rw [this]; exact .lit hc ih
  | @spec c f hc _ ih =>
    rw [strftime]
    exact .spec (directive_spec lib hx hy hc) ih

end Cal
open Cal

/-- C80: MySQL's meaning of a format is one text at most. -/
theorem C80_format_unique (x : DT) (f t u : List Char) (h1 : Format x f t) (h2 : Format x f u) : t = u := by
  induction h1 generalizing u with
  | nil => cases h2; rfl
  | lit hc _ ih =>
    cases h2 with
    | lit _ h => rw [ih _ h]
    | spec _ _ => exact absurd rfl hc
  | spec hs _ ih =>
    cases h2 with
    | lit hc _ => exact absurd rfl hc
    | spec hs' h => rw [hs] at hs'; cases hs'; rw [ih _ h]

/-- C80: DATE_FORMAT for the years from 1000 and formats of any length made of the specifiers %a %b %d %f %H %I %j %m %p %r %S %T %U
%w %Y %y %% and other characters.  Missing for the full property: the other specifiers (violated below), earlier years (%Y), and
`v` after `%%`. -/
theorem C80_format (lib : Lib) (x : DT) (hx : Valid x) (hy : 1000 ≤ x.y) (f : List Char) (hf : Plain f)
    (hv : ¬ ['%', 'v'] <:+: f) : Format x f (dateFormat lib x f) := by
  rw [dateFormat, replaceV_id f hv]
  exact strftime_spec lib hx hy hf

namespace Cal

theorem digits_isDigit (k : Nat) (n : Int) : ∀ c ∈ digits k n, c.isDigit = true := by
  intro c hc
  simp only [digits, Nat.toList_repr, List.mem_append, List.mem_replicate] at hc
  rcases hc with ⟨_, rfl⟩ | hc
  · decide
  · exact Nat.isDigit_of_mem_toDigits (by omega) (by omega) hc

theorem padded_isDigit (k : Nat) (n : Int) : ∀ c ∈ padded k n, c.isDigit = true := by
  induction k generalizing n with
  | zero => simp [padded]
  | succ k ih =>
    intro c hc
    rw [padded, List.mem_append, List.mem_singleton] at hc
    rcases hc with hc | rfl
    · exact ih _ c hc
    · unfold digit
      have : (n % 10).toNat < 10 := by omega
      exact (digit_char _ this).1

theorem padded_length (k : Nat) (n : Int) : (padded k n).length = k := by
  induction k generalizing n with
  | zero => rfl
  | succ k ih => simp [padded, ih]

theorem mon_letter (x : DT) (h : Valid x) : ∃ a b c t, monthName x = a :: b :: c :: t ∧ a.isDigit = false := by
  have h1 := h.2.2.1
  have h2 := h.2.2.2.1
  have : x.m = 1 ∨ x.m = 2 ∨ x.m = 3 ∨ x.m = 4 ∨ x.m = 5 ∨ x.m = 6 ∨ x.m = 7 ∨ x.m = 8 ∨ x.m = 9 ∨ x.m = 10 ∨ x.m = 11 ∨ x.m = 12 := by
    omega
  simp only [monthName]
  rcases this with h | h | h | h | h | h | h | h | h | h | h | h <;> rw [h] <;> exact ⟨_, _, _, _, rfl, rfl⟩

theorem day_letter (x : DT) : ∃ a t, dayName x = a :: t ∧ a.isDigit = false := by
  have h := cases7 _ (weekday_bounds x)
  simp only [dayName]
  rcases h with h | h | h | h | h | h | h <;> rw [h] <;> exact ⟨_, _, rfl, rfl⟩

theorem ne_of_digit {a b : List Char} (ha : ∀ c ∈ a, c.isDigit = true) (hb : ∃ c ∈ b, c.isDigit = false) : b ≠ a := by
  rintro rfl
  obtain ⟨c, hc, h⟩ := hb
  rw [ha c hc] at h
  cases h

theorem suffix_mem (n : Int) : '/' ∉ (Spec.Calendar.suffix n).toList := by
  unfold Spec.Calendar.suffix
  repeat' split
  all_goals decide

end Cal

/-- C119 (violated, for every date): %c, %D, %h, %i, %M and %W are not what MySQL puts; they are a whole date, a date with slashes,
the name of the month, the letters themselves, the minute, and the number of the week. -/
theorem C119_specifiers_violated (lib : Lib) (x : DT) (hx : Valid x) (c : Char) (hc : c ∈ ['c', 'D', 'h', 'i', 'M', 'W']) :
    spec c x ≠ some (dateFormat lib x ['%', c]) := by
  have e : ∀ c : Char, c ≠ 'v' → dateFormat lib x ['%', c] = directive lib c x := by
    intro c hcv
    have : replaceV ['%', c] = ['%', c] := replaceV_id _ (by
      rintro ⟨a, b, h⟩
      cases a with
      | nil => simp at h; exact hcv h.1.symm
      | cons a0 a =>
        have := congrArg List.length h
        simp at this; omega)
    simp [dateFormat, this, strftime]
  obtain ⟨a, b, c3, t, hm, ha⟩ := mon_letter x hx
  obtain ⟨a', t', hd, ha'⟩ := day_letter x
  simp only [List.mem_cons, List.not_mem_nil, or_false] at hc
  rcases hc with h | h | h | h | h | h <;> subst h <;> rw [e _ (by decide)] <;>
    simp only [spec, directive, ne_eq, Option.some.injEq]
  · exact fun h => ne_of_digit (digits_isDigit _ _) ⟨' ', by simp, by decide⟩ h.symm
  · intro h
    have : '/' ∈ digits 1 x.d ++ (Spec.Calendar.suffix x.d).toList := by rw [h]; simp
    rcases List.mem_append.1 this with h | h
    · have := digits_isDigit _ _ _ h
      exact absurd this (by decide)
    · exact suffix_mem _ h
  · rw [hm]
    exact fun h => ne_of_digit (digits_isDigit _ _) ⟨a, by simp, ha⟩ h.symm
  · exact fun h => ne_of_digit (digits_isDigit _ _) ⟨'%', by simp, by decide⟩ h.symm
  · rw [← mon_eq x ⟨hx.2.2.1, hx.2.2.2.1⟩, hm]
    exact fun h => ne_of_digit (padded_isDigit _ _) ⟨a, by simp, ha⟩ h
  · rw [← day_eq, hd]
    exact fun h => ne_of_digit (padded_isDigit _ _) ⟨a', by simp, ha'⟩ h

/-- C119 (violated): %e has a space before the days 1 to 9; the years before 1000 are not four digits; `%%v` is not `%v`; what is no
specifier keeps its `%`. -/
theorem C119_rest_violated (lib : Lib) :
    (∀ x, Valid x → x.d < 10 → spec 'e' x ≠ some (dateFormat lib x ['%', 'e'])) ∧
    (∀ x, Valid x → x.y < 1000 → spec 'Y' x ≠ some (dateFormat lib x ['%', 'Y'])) ∧
    (∀ x, Format x ['%', '%', 'v'] ['%', 'v'] ∧ dateFormat lib x ['%', '%', 'v'] = ['%', 'V']) ∧
    (∀ x, Format x ['%', 'q'] ['q'] ∧ dateFormat lib x ['%', 'q'] = ['%', 'q']) := by
  refine ⟨?_, ?_, ?_, ?_⟩
  · intro x hx h
    have e : dateFormat lib x ['%', 'e'] = ' ' :: padded 1 x.d := by simp [dateFormat, replaceV, strftime, directive, spaced, h]
    rw [e]
    simp only [spec, ne_eq, Option.some.injEq]
    exact fun h => ne_of_digit (digits_isDigit _ _) ⟨' ', by simp, by decide⟩ h.symm
  · intro x hx h
    have h0 := hx.1
    have e : dateFormat lib x ['%', 'Y'] = plain x.y := by simp [dateFormat, replaceV, strftime, directive]
    rw [e]
    simp only [spec, ne_eq, Option.some.injEq]
    intro he
    rw [← padded_int 3 _ (by omega) (by omega)] at he
    have := congrArg List.length he
    rw [padded_length] at this
    unfold plain at this
    split at this
    · rw [padded_length] at this; omega
    · split at this
      · rw [padded_length] at this; omega
      · rw [padded_length] at this; omega
  · intro x
    refine ⟨.spec (s := ['%']) rfl (.lit (by decide) .nil), ?_⟩
    simp [dateFormat, replaceV, strftime, directive]
  · intro x
    refine ⟨.spec (s := ['q']) rfl .nil, ?_⟩
    simp [dateFormat, replaceV, strftime, directive]

/-- C80 on 2023-04-24 17:07:08: `%Y-%m %H:%%%S` meets the hypotheses. -/
example (lib : Lib) : Valid ⟨2023, 4, 24, 61628000000⟩ ∧ Plain ['%', 'Y', '-', '%', 'm', ' ', '%', 'H', ':', '%', '%', '%', 'S'] ∧
    ¬ ['%', 'v'] <:+: ['%', 'Y', '-', '%', 'm', ' ', '%', 'H', ':', '%', '%', '%', 'S'] ∧
    dateFormat lib ⟨2023, 4, 24, 61628000000⟩ ['%', 'Y', '-', '%', 'm', ' ', '%', 'H', ':', '%', '%', '%', 'S'] =
      ['2', '0', '2', '3', '-', '0', '4', ' ', '1', '7', ':', '%', '0', '8'] := by
  refine ⟨by decide, ?_, by decide, rfl⟩
  exact .spec (by decide) (.lit (by decide) (.spec (by decide) (.lit (by decide) (.spec (by decide) (.lit (by decide)
      (.spec (by decide) (.spec (by decide) .nil)))))))

/-! ### YEARWEEK, MONTHNAME, DAYNAME -/

namespace Cal

def value (acc : Int) (t : List Char) : Int := t.foldl (fun n c => 10 * n + ((c.toNat : Int) - 48)) acc

theorem value_padded (k n : Nat) (acc : Int) : value acc (padded k (n : Int)) = acc * 10 ^ k + (n % 10 ^ k : Nat) := by
  induction k generalizing n acc with
  | zero => simp [padded, value, Nat.mod_one]
  | succ k ih =>
    have e : padded (k + 1) (n : Int) = padded k ((n / 10 : Nat) : Int) ++ [digit (n : Int)] := by rw [padded]; simp
    have hd : (((digit (n : Int)).toNat : Int) - 48) = ((n % 10 : Nat) : Int) := by
      unfold digit
      have h10 : ((n : Int) % 10).toNat < 10 := by omega
      rw [(digit_char _ h10).2]
      omega
    rw [e, value, List.foldl_append]
    have := ih (n / 10) acc
    rw [value] at this
    rw [this, List.foldl_cons, List.foldl_nil, hd]
    have hm : n % 10 ^ (k + 1) = 10 * (n / 10 % 10 ^ k) + n % 10 := by
      rw [Nat.pow_succ, Nat.mul_comm, Nat.mod_mul]; omega
    rw [hm, Int.pow_succ]
    push_cast
    generalize ((n : Int) / 10 % 10 ^ k) = u
    grind

theorem value_plain (n : Int) (h0 : 0 ≤ n) (hn : n < 10000) : value 0 (plain n) = n := by
  obtain ⟨m, rfl⟩ := Int.eq_ofNat_of_zero_le h0
  have hm : m < 10000 := by omega
  unfold plain
  repeat' split
  all_goals rw [value_padded]; simp; omega

theorem plain_isDigit (n : Int) : ∀ c ∈ plain n, c.isDigit = true := by
  unfold plain
  repeat' split
  all_goals exact padded_isDigit _ _

theorem yearweek_eq (lib : Lib) (x : DT) (hx : Valid x) (b : Bool) : yearweek lib x b = some (100 * x.y + week x b) := by
  have e : strftime lib x (if b then ['%', 'Y', '%', 'W'] else ['%', 'Y', '%', 'U']) = plain x.y ++ padded 2 (week x b) := by
    cases b <;> simp [strftime, directive]
  have hw := week_bounds hx b
  have hd : (plain x.y ++ padded 2 (week x b)).all Char.isDigit = true := by
    rw [List.all_eq_true]
    intro c hc
    rcases List.mem_append.1 hc with h | h
    · exact plain_isDigit _ c h
    · exact padded_isDigit _ _ c h
  have hne : plain x.y ++ padded 2 (week x b) ≠ [] := by
    intro h
    have := congrArg List.length h
    simp [padded_length] at this
  rw [yearweek, e, int?, if_pos ⟨hne, hd⟩]
  congr 1
  show value 0 (plain x.y ++ padded 2 (week x b)) = _
  obtain ⟨w, hw'⟩ := Int.eq_ofNat_of_zero_le hw.1
  have h1 := value_plain x.y (by have := hx.1; omega) (by have := hx.2.1; omega)
  rw [value] at h1
  rw [value, List.foldl_append, h1]
  have h2 := value_padded 2 w x.y
  rw [value] at h2
  rw [hw', h2]
  have : w % 10 ^ 2 = w := Nat.mod_eq_of_lt (by omega)
  rw [this]; omega

end Cal

/-- C94, YEARWEEK: within a year, two dates have the same number exactly when they have the same WEEK (in either mode); it is the
year and the WEEK side by side. -/
theorem C94_yearweek_partial (lib : Lib) (x z : DT) (hx : Valid x) (hz : Valid z) (b : Bool) :
    yearweek lib x b = some (100 * x.y + week x b) ∧
    (yearweek lib x b = yearweek lib z b ↔ x.y = z.y ∧ week x b = week z b) := by
  have h1 := week_bounds hx b
  have h2 := week_bounds hz b
  rw [yearweek_eq lib x hx, yearweek_eq lib z hz]
  refine ⟨rfl, ?_⟩
  rw [Option.some.injEq]
  omega

/-- C94 (violated by YEARWEEK): a year that does not begin on a Sunday begins within a week; December 31st and January 1st, in the
same week, never have the same YEARWEEK. -/
theorem C94_yearweek_violated (lib : Lib) (y us : Int) (hx : Valid ⟨y, 12, 31, us⟩) (hz : Valid ⟨y + 1, 1, 1, us⟩)
    (_hs : weekday ⟨y + 1, 1, 1, us⟩ ≠ 6) :
    nextDay ⟨y, 12, 31, us⟩ = ⟨y + 1, 1, 1, us⟩ ∧
    yearweek lib ⟨y, 12, 31, us⟩ false ≠ yearweek lib ⟨y + 1, 1, 1, us⟩ false := by
  refine ⟨by simp [nextDay, dim], ?_⟩
  intro h
  have := ((C94_yearweek_partial lib _ _ hx hz false).2.1 h).1
  simp at this; omega

example : Valid ⟨2024, 12, 31, 0⟩ ∧ Valid ⟨2025, 1, 1, 0⟩ ∧ weekday ⟨2025, 1, 1, 0⟩ = 2 := by
  refine ⟨by decide, by decide, by decide +kernel⟩

/-- C94: DAYNAME is the name of the day; MONTHNAME (violated) is the first three letters of the name of the month. -/
theorem C94_names (lib : Lib) (x : DT) (hx : Valid x) :
    dayname lib x = Spec.Calendar.day x ∧ monthname lib x = (Spec.Calendar.mon x).take 3 ∧
    (monthname lib x = Spec.Calendar.mon x ↔ x.m = 5) := by
  have h1 := hx.2.2.1
  have h2 := hx.2.2.2.1
  have e : monthname lib x = (Spec.Calendar.mon x).take 3 := by simp [monthname, strftime, directive, mon_eq x ⟨h1, h2⟩]
  refine ⟨by simp [dayname, strftime, directive, day_eq], e, ?_⟩
  rw [e]
  have : x.m = 1 ∨ x.m = 2 ∨ x.m = 3 ∨ x.m = 4 ∨ x.m = 5 ∨ x.m = 6 ∨ x.m = 7 ∨ x.m = 8 ∨ x.m = 9 ∨ x.m = 10 ∨ x.m = 11 ∨ x.m = 12 := by
    omega
  simp only [Spec.Calendar.mon]
  rcases this with h | h | h | h | h | h | h | h | h | h | h | h <;> rw [h] <;> decide

/-! ### C81 -/

/-- C81: DATE and TIME are the two halves of a moment: the fields of DATE are those of the moment, DATETIME of DATE is its
midnight, and no two moments have both halves in common. -/
theorem C81_halves (now x z : DT) :
    date (some (.datetime x)) = some (.date x.y x.m x.d) ∧ time (some (.datetime x)) = some (.time x.us) ∧
    datetime now (date (some (.datetime x))) = some (.datetime { x with us := 0 }) ∧
    time (date (some (.datetime x))) = some (.time 0) ∧ date (time (some (.datetime x))) = none ∧
    (date (some (.datetime x)) = date (some (.datetime z)) → time (some (.datetime x)) = time (some (.datetime z)) → x = z) := by
  refine ⟨rfl, rfl, rfl, rfl, rfl, ?_⟩
  intro h1 h2
  obtain ⟨y, m, d, us⟩ := x
  obtain ⟨y', m', d', us'⟩ := z
  simp [date, time] at h1 h2
  simp [h1, h2]

/-- C81: YEAR, MONTH and DAYOFMONTH do not see the difference between a moment and its date; the conversions, done twice, do
nothing more; NULL stays NULL; a time of day has no date. -/
theorem C81_fields (now : DT) (v : Option Temporal) :
    (v ≠ none → date v ≠ none → year (date v) = year v ∧ month (date v) = month v ∧ dayofmonth (date v) = dayofmonth v) ∧
    date (date v) = date v ∧ time (time v) = time v ∧ datetime now (datetime now v) = datetime now v ∧
    date (datetime now (date v)) = date v ∧ time (datetime now (time v)) = time v ∧
    (date none = none ∧ time none = none ∧ datetime now none = none ∧ year none = none) ∧
    (∀ us, year (some (.time us)) = none ∧ month (some (.time us)) = none ∧ dayofmonth (some (.time us)) = none) := by
  refine ⟨?_, ?_, ?_, ?_, ?_, ?_, ⟨rfl, rfl, rfl, rfl⟩, fun _ => ⟨rfl, rfl, rfl⟩⟩
  · rcases v with _ | (_ | _ | _) <;> simp [date, year, month, dayofmonth]
  all_goals rcases v with _ | (_ | _ | _) <;> rfl

/-- C97: FROM_UNIXTIME(t), where it is a moment at all, is `t` seconds after 1970 in every time zone; UNIX_TIMESTAMP of it is `t`
exactly when the clock of the machine is UTC. -/
theorem C97_unixtime_partial (zone : Int → Int) (machine t : Int) (a : Aware) (h : fromUnixtime zone t = some a) :
    Valid a.wall ∧ wallSeconds a.wall - a.offset = t ∧ unixTimestamp machine a = t - machine ∧
    (unixTimestamp machine a = t ↔ machine = 0) := by
  unfold fromUnixtime at h
  split at h
  · cases h
  · rw [Option.map_eq_some_iff] at h
    obtain ⟨w, hw, rfl⟩ := h
    obtain ⟨hv, hi⟩ := shift_some hw
    have e : wallSeconds w = t + zone t := by
      unfold wallSeconds; rw [hi]; omega
    refine ⟨hv, ?_, ?_, ?_⟩
    · simp only [e]; omega
    · simp only [unixTimestamp, e]; omega
    · simp only [unixTimestamp, e]; omega

/-- C97 (violated): on a machine one hour ahead of UTC, UNIX_TIMESTAMP(FROM_UNIXTIME(t)) is an hour early, for every `t`. -/
theorem C97_unixtime_violated (zone : Int → Int) (t : Int) (a : Aware) (h : fromUnixtime zone t = some a) :
    unixTimestamp 3600 a = t - 3600 := (C97_unixtime_partial zone 3600 t a h).2.2.1

/-- Every `t` whose moments in UTC and in the zone lie in the years 1 to 9999 meets the hypothesis. -/
example (zone : Int → Int) (t : Int) (u w : DT) (hu : Valid u) (hw : Valid w) (h1 : inst u = inst ⟨1970, 1, 1, 0⟩ + t * 1000000)
    (h2 : inst w = inst u + zone t * 1000000) : fromUnixtime zone t = some ⟨w, zone t⟩ := by
  have e1 := shift_to (x := ⟨1970, 1, 1, 0⟩) hu h1
  have e2 : shift ⟨1970, 1, 1, 0⟩ ((t + zone t) * 1000000) = some w := shift_to hw (by rw [h2, h1]; omega)
  unfold fromUnixtime
  rw [e1, e2]
  rfl

/-- 1970-01-01 23:59:59 UTC is 01:59:59 of the next day two hours east. -/
example : Valid ⟨1970, 1, 1, 86399000000⟩ ∧ Valid ⟨1970, 1, 2, 7199000000⟩ ∧
    inst ⟨1970, 1, 1, 86399000000⟩ = inst ⟨1970, 1, 1, 0⟩ + 86399 * 1000000 ∧
    inst ⟨1970, 1, 2, 7199000000⟩ = inst ⟨1970, 1, 1, 86399000000⟩ + 7200 * 1000000 := by
  refine ⟨by decide, by decide, by decide +kernel, by decide +kernel⟩

end Verif.Props
