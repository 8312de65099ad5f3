import Verif.Model.Window
import Verif.Spec.Window
/-! Property theorems C23–C26: window functions. -/
namespace Verif.Props
open Verif.Val Verif.Window

/-! ### C23: position functions -/

/-- A partition given by the arguments `v :: others` of the function in each row. -/
def rowsOf (rows : List (Val × List Val)) : List Arg := rows.map fun r => .many (r.1 :: r.2)

theorem pick_rows (rows : List (Val × List Val)) (d : List Val) (o : Int) :
    pick (rowsOf rows) d o = some (Spec.at? (rows.map Prod.fst) o ((d[2]?).getD .null)) := by
  unfold pick Spec.at?
  by_cases h0 : o < 0
  · simp [h0, dflt]
  · by_cases h1 : o ≥ rows.length
    · have : rows.length ≤ o.toNat := by omega
      simp [h0, rowsOf, h1, dflt, List.getElem?_eq_none this]
    · have : o.toNat < rows.length := by omega
      simp [h0, rowsOf, h1, List.getElem?_eq_getElem this, Arg.first]

/-- **C23**, `LAG(v, n, d)` for every partition, every row and every whole `n`: the value of `v` in the row `n` rows
earlier, the current row's default when there is none. -/
theorem C23_lag (py : Py) (rows : List (Val × List Val)) (idx : Nat) (v : Val) (n : Int) (ds : List Val) :
    lag py (rowsOf rows) idx (.many (v :: .int n :: ds)) =
      some (.one (Spec.at? (rows.map Prod.fst) (idx - n) (ds.headD .null))) := by
  simp only [lag, offsetOf, List.getElem?_cons_succ, List.getElem?_cons_zero, pyInt, Option.bind_some, pick_rows]
  cases ds <;> simp

/-- **C23**, `LEAD(v, n, d)`. -/
theorem C23_lead (py : Py) (rows : List (Val × List Val)) (idx : Nat) (v : Val) (n : Int) (ds : List Val) :
    lead py (rowsOf rows) idx (.many (v :: .int n :: ds)) =
      some (.one (Spec.at? (rows.map Prod.fst) (idx + n) (ds.headD .null))) := by
  simp only [lead, offsetOf, List.getElem?_cons_succ, List.getElem?_cons_zero, pyInt, Option.bind_some, pick_rows]
  cases ds <;> simp

/-- **C23**, `LAG(v)` and `LEAD(v)`: the neighbouring rows, `NULL` at the ends. -/
theorem C23_lag_lead_one (py : Py) (vs : List Val) (idx : Nat) (v : Val) :
    lag py (vs.map .one) idx (.one v) = some (.one (Spec.at? vs ((idx : Int) - 1) .null)) ∧
    lead py (vs.map .one) idx (.one v) = some (.one (Spec.at? vs ((idx : Int) + 1) .null)) := by
  have key : ∀ o : Int, pickOne (vs.map .one) o = some (.one (Spec.at? vs o .null)) := by
    intro o
    unfold pickOne Spec.at?
    by_cases h0 : o < 0
    · simp [h0]
    · by_cases h1 : o ≥ vs.length
      · have : vs.length ≤ o.toNat := by omega
        simp [h0, h1, List.getElem?_eq_none this]
      · have : o.toNat < vs.length := by omega
        simp [h0, h1, List.getElem?_eq_getElem this]
  exact ⟨key _, key _⟩

/-- **C23**, `NTH_VALUE(v, n)` for `n ≥ 1`: the value of `v` in the `n`-th row of the partition, otherwise the
default. -/
theorem C23_nth_value (py : Py) (rows : List (Val × List Val)) (v : Val) (n : Int) (hn : 1 ≤ n) (ds : List Val) :
    nthValue py (rowsOf rows) (.many (v :: .int n :: ds)) =
      some (.one (Spec.at? (rows.map Prod.fst) (n - 1) (ds.headD .null))) := by
  have hd : ((v :: Val.int n :: ds)[2]?).getD .null = ds.headD .null := by cases ds <;> simp
  have h := pick_rows rows (v :: .int n :: ds) (n - 1)
  rw [hd] at h
  have hp : nthMany py (rowsOf rows) (v :: .int n :: ds) = pick (rowsOf rows) (v :: .int n :: ds) (n - 1) := by
    have h1 : n > 0 := by omega
    have h2 : ¬ n - 1 < 0 := by omega
    simp [nthMany, offsetOf, pyInt, pick, h1, h2]
  simp [nthValue, hp, h]

/-- **C23**, negative `n` (an extension of SQL) counts from the end. -/
theorem C23_nth_value_from_end (py : Py) (rows : List (Val × List Val)) (v : Val) (n : Int) (hn : n < 0) (ds : List Val) :
    nthValue py (rowsOf rows) (.many (v :: .int n :: ds)) =
      some (.one (Spec.at? (rows.map Prod.fst) (rows.length + n) (ds.headD .null))) := by
  have hd : ((v :: Val.int n :: ds)[2]?).getD .null = ds.headD .null := by cases ds <;> simp
  have h := pick_rows rows (v :: .int n :: ds) (rows.length + n)
  rw [hd] at h
  have hl : (rowsOf rows).length = rows.length := by simp [rowsOf]
  have hp : nthMany py (rowsOf rows) (v :: .int n :: ds) = pick (rowsOf rows) (v :: .int n :: ds) (rows.length + n) := by
    have h1 : ¬ n > 0 := by omega
    simp only [nthMany, offsetOf, pyInt, pick, List.getElem?_cons_succ, List.getElem?_cons_zero, Option.bind_some, h1,
      if_false, hl, hn, if_true, true_and]
    have e1 : (-n > (rows.length : Int) ∨ n ≥ (rows.length : Int)) ↔
        ((rows.length : Int) + n < 0 ∨ (rows.length : Int) + n ≥ rows.length) := by omega
    simp only [e1, Int.add_comm n]
  simp [nthValue, hp, h]

/-- `NTH_VALUE(v, 0)`, an error in SQL, is the first row. -/
theorem C23_nth_value_zero (py : Py) (r : Val × List Val) (rows : List (Val × List Val)) (v : Val) (ds : List Val) :
    nthValue py (rowsOf (r :: rows)) (.many (v :: .int 0 :: ds)) = some (.one r.1) := by
  have h : ¬ ((rows.length : Int) + 1 ≤ 0) := by omega
  simp [nthValue, nthMany, offsetOf, pyInt, rowsOf, Arg.first, h]

theorem trunc_nonneg (q : Rat) (h : 0 ≤ q) : trunc q = q.floor := by
  rw [Rat.floor_def]; unfold trunc
  exact Int.tdiv_eq_ediv_of_nonneg (Rat.num_nonneg.2 h)

/-- **C23**: without `n` the neighbouring row is meant for LAG and LEAD, the first row for NTH_VALUE, also when the arguments
are given as a list of one. -/
theorem C23_default_offset (py : Py) (rows : List (Val × List Val)) (idx : Nat) (v : Val) :
    lag py (rowsOf rows) idx (.many [v]) = some (.one (Spec.at? (rows.map Prod.fst) (idx - 1) .null)) ∧
    lead py (rowsOf rows) idx (.many [v]) = some (.one (Spec.at? (rows.map Prod.fst) (idx + 1) .null)) ∧
    nthValue py (rowsOf rows) (.many [v]) = some (.one (Spec.at? (rows.map Prod.fst) 0 .null)) := by
  have h := fun o => pick_rows rows [v] o
  refine ⟨?_, ?_, ?_⟩
  · simp only [lag, offsetOf, List.getElem?_cons_succ, List.getElem?_nil, Option.bind_some]; rw [h]; rfl
  · simp only [lead, offsetOf, List.getElem?_cons_succ, List.getElem?_nil, Option.bind_some]; rw [h]; rfl
  · have hp : nthMany py (rowsOf rows) [v] = pick (rowsOf rows) [v] 0 := by simp [nthMany, offsetOf, pick]
    simp only [nthValue, hp, h]; rfl

/-- **C23**: `NTH_VALUE(v)` is the value of the first row. -/
theorem C23_nth_value_one (py : Py) (v w : Val) (vs : List Val) :
    nthValue py ((v :: vs).map .one) (.one w) = some (.one v) := rfl

/-- **C23**: an offset given as a boolean counts as 1 or 0, a fraction is cut towards zero, a text is read as a whole number; NULL
and other texts raise. -/
theorem C23_offset_kinds (py : Py) (datas : List Arg) (idx : Nat) (v : Val) (ds : List Val) :
    (∀ b : Bool, lag py datas idx (.many (v :: .bool b :: ds)) = lag py datas idx (.many (v :: .int b.toNat :: ds))) ∧
    (∀ q : Rat, 0 ≤ q → lag py datas idx (.many (v :: .flt q :: ds)) = lag py datas idx (.many (v :: .int q.floor :: ds))) ∧
    (∀ q : Rat, q < 0 → lag py datas idx (.many (v :: .flt q :: ds)) = lag py datas idx (.many (v :: .int (-(-q).floor) :: ds))) ∧
    (∀ s i, py.int s = some i → lag py datas idx (.many (v :: .str s :: ds)) = lag py datas idx (.many (v :: .int i :: ds))) ∧
    (∀ s, py.int s = none → lag py datas idx (.many (v :: .str s :: ds)) = none) ∧
    lag py datas idx (.many (v :: .null :: ds)) = none := by
  have hk : ∀ (o : Val) (i : Int), pyInt py o = some i →
      lag py datas idx (.many (v :: o :: ds)) = lag py datas idx (.many (v :: .int i :: ds)) := by
    intro o i h
    have e1 : offsetOf py (v :: o :: ds) = some i := by simp [offsetOf, h]
    have e2 : offsetOf py (v :: .int i :: ds) = some i := by simp [offsetOf, pyInt]
    have e3 : dflt (v :: o :: ds) = dflt (v :: .int i :: ds) := by simp [dflt]
    simp only [lag, e1, e2, Option.bind_some, pick, e3]
  refine ⟨?_, ?_, ?_, ?_, ?_, rfl⟩
  · intro b; exact hk _ _ (by cases b <;> rfl)
  · intro q h; exact hk _ _ (by simp [pyInt, trunc_nonneg q h])
  · intro q h
    apply hk
    have h2 := trunc_nonneg (-q) (by grind)
    rw [← h2]
    simp [pyInt, trunc]
  · intro s i h; exact hk _ _ h
  · intro s h; simp [lag, offsetOf, pyInt, h]

/-- **C23**, `FIRST_VALUE` and `LAST_VALUE` (of the whole partition) and `ROW_NUMBER`. -/
theorem C23_first_last_row_number (v w : Val) (vs : List Val) (a : Arg) (before after : List Arg) :
    firstValue (.one v :: vs.map .one) = some (.one v) ∧
    lastValue (vs.map .one ++ [.one w]) = some (.one w) ∧
    rowNumber before.length = (before ++ [a]).length ∧
    (before ++ a :: after)[rowNumber before.length - 1]? = some a := by
  simp [firstValue, lastValue, rowNumber]

/-- SQL's default frame ends with the current row; the code's `LAST_VALUE` looks at the whole partition instead: in the
first row of the partition 1, 2 SQL gives 1, the code 2. -/
theorem C23_last_value_default_frame : lastValue [.one (.int 1), .one (.int 2)] = some (.one (.int 2)) := rfl

example : lag ⟨fun _ => none, fun _ => none, fun _ => []⟩
    (rowsOf [(.int 10, [.int 2, .int 0]), (.int 20, [.int 2, .int 0]), (.int 30, [.int 2, .int 0])]) 2
    (.many [.int 30, .int 2, .int 0]) = some (.one (.int 10)) := by decide

/-! ### C24: NTILE -/

theorem ntile_eq (len idx : Nat) (n : Nat) (hn : 0 < n) (hl : 0 < len) :
    ntile len idx n = some (((idx * n / len : Nat) : Int) + 1) := by
  have hn' : ¬ (n : Int) ≤ 0 := by omega
  unfold ntile; rw [if_neg hn']; congr 2
  have hL : (0 : Rat) < (len : Rat) := by exact_mod_cast hl
  have hN : (0 : Rat) < (n : Rat) := by exact_mod_cast hn
  have he : (idx : Rat) / ((len : Rat) / ((n : Int) : Rat)) = ((idx * n : Nat) : Rat) / (len : Rat) := by
    have : ((n : Int) : Rat) = (n : Rat) := rfl
    rw [this]
    have : ((idx * n : Nat) : Rat) = (idx : Rat) * (n : Rat) := by push_cast; rfl
    rw [this]; grind
  rw [he]
  have hnn : (0 : Rat) ≤ ((idx * n : Nat) : Rat) / (len : Rat) := by
    have h0 : (0 : Rat) ≤ ((idx * n : Nat) : Rat) := by exact_mod_cast Nat.zero_le _
    have := Rat.div_lt_iff (a := ((idx * n : Nat) : Rat)) (c := 0) hL
    grind
  rw [trunc_nonneg _ hnn]
  generalize idx * n = x
  have hd := Nat.div_add_mod x len
  have hm := Nat.mod_lt x hl
  generalize hq : x / len = q at hd
  generalize x % len = r at hd hm
  apply Int.le_antisymm
  · apply Int.le_of_lt_add_one
    rw [Rat.floor_lt_iff, Rat.div_lt_iff hL]
    have : (x : Rat) = (len : Rat) * (q : Rat) + (r : Rat) := by exact_mod_cast hd.symm
    have hm' : (r : Rat) < (len : Rat) := by exact_mod_cast hm
    have hc : (((q : Int) + 1 : Int) : Rat) = (q : Rat) + 1 := by push_cast; rfl
    rw [this, hc]; grind
  · rw [Rat.le_floor_iff]
    have : (x : Rat) = (len : Rat) * (q : Rat) + (r : Rat) := by exact_mod_cast hd.symm
    have hm' : (0 : Rat) ≤ (r : Rat) := by exact_mod_cast Nat.zero_le r
    have hc : ((q : Int) : Rat) = (q : Rat) := rfl
    rw [hc]
    have h1 := Rat.div_lt_iff (a := (x : Rat)) (c := (q : Rat)) hL
    by_cases h2 : (x : Rat) / (len : Rat) < (q : Rat)
    · have := h1.1 h2; grind
    · grind

theorem ntile_bucket (len idx n b : Nat) (hn : 0 < n) (hl : 0 < len) :
    ntile len idx n = some ((b : Int) + 1) ↔ b * len ≤ idx * n ∧ idx * n < (b + 1) * len := by
  rw [ntile_eq _ _ _ hn hl]
  have : some (((idx * n / len : Nat) : Int) + 1) = some ((b : Int) + 1) ↔ idx * n / len = b := by
    generalize idx * n / len = q; simp; omega
  rw [this, Nat.div_eq_iff hl]
  constructor
  · rintro ⟨h1, h2⟩; exact ⟨by omega, by rw [Nat.add_mul]; omega⟩
  · rintro ⟨h1, h2⟩; rw [Nat.add_mul] at h2; exact ⟨by omega, by omega⟩

/-- **C24**: every row of every non-empty partition gets a bucket between 1 and `n`, non-decreasing along the order. -/
theorem C24_ntile_range_monotone (len n : Nat) (hn : 0 < n) (i j : Nat) (hij : i ≤ j) (hj : j < len) :
    ∃ a b : Int, ntile len i n = some a ∧ ntile len j n = some b ∧ 1 ≤ a ∧ a ≤ b ∧ b ≤ n := by
  have hl : 0 < len := by omega
  refine ⟨_, _, ntile_eq len i n hn hl, ntile_eq len j n hn hl, ?_, ?_, ?_⟩
  · generalize i * n / len = q; omega
  · have : i * n / len ≤ j * n / len := Nat.div_le_div_right (Nat.mul_le_mul_right _ hij)
    generalize i * n / len = q at *; generalize j * n / len = q' at *; omega
  · have : j * n / len < n := by
      rw [Nat.div_lt_iff_lt_mul hl, Nat.mul_comm n]
      exact Nat.mul_lt_mul_of_pos_right hj hn
    generalize j * n / len = q' at *; omega

theorem filter_range_between (L lo hi : Nat) (h : hi ≤ L) (p : Nat → Bool) (hp : ∀ i, i < L → (p i = true ↔ lo ≤ i ∧ i < hi)) :
    ((List.range L).filter p).length = hi - lo := by
  induction L generalizing hi with
  | zero => simp; omega
  | succ L ih =>
    rw [List.range_succ, List.filter_append, List.length_append]
    have hL := hp L (by omega)
    by_cases hh : hi = L + 1
    · subst hh
      by_cases hlo : lo ≤ L
      · have := ih L (by omega) (fun i hi => by rw [hp i (by omega)]; omega)
        rw [this]
        have : p L = true := hL.2 ⟨hlo, by omega⟩
        simp [this]; omega
      · have := ih L (by omega) (fun i hi => by rw [hp i (by omega)]; omega)
        rw [this]
        have : p L = false := by rw [Bool.eq_false_iff]; intro h; have := hL.1 h; omega
        simp [this]; omega
    · have := ih hi (by omega) (fun i hi' => hp i (by omega))
      rw [this]
      have : p L = false := by rw [Bool.eq_false_iff]; intro h; have := hL.1 h; omega
      simp [this]

/-- The size of bucket `b`: the rows between two rounded-up boundaries. -/
theorem ntile_size (len n : Nat) (hn : 0 < n) (hl : 0 < len) (b : Nat) (hb : b < n) :
    Spec.bucketSize len (fun i => ntile len i n) ((b : Int) + 1) =
      ((b + 1) * len + (n - 1)) / n - (b * len + (n - 1)) / n := by
  -- rows of bucket `b` are those between the two rounded-up boundaries
  have hbound : ∀ x i : Nat, x ≤ i * n ↔ (x + (n - 1)) / n ≤ i := by
    intro x i
    rw [Nat.div_le_iff_le_mul_add_pred hn, Nat.mul_comm]
    constructor <;> intro h
    · omega
    · rcases Nat.lt_or_ge (i * n) x with h1 | h1
      · have h2 : n * i = i * n := Nat.mul_comm _ _
        have h3 : ¬ x + (n - 1) ≤ n * i + (n - 1) := by omega
        omega
      · rw [Nat.mul_comm]; exact h1
  have hhi : ((b + 1) * len + (n - 1)) / n ≤ len := by
    rw [← hbound, Nat.mul_comm len]; exact Nat.mul_le_mul_right _ (by omega)
  unfold Spec.bucketSize
  apply filter_range_between len _ _ hhi
  intro i _
  rw [decide_eq_true_iff, ntile_bucket _ _ _ _ hn hl, ← hbound]
  have := hbound ((b + 1) * len) i
  constructor
  · rintro ⟨h1, h2⟩; exact ⟨h1, by omega⟩
  · rintro ⟨h1, h2⟩; exact ⟨h1, by omega⟩

/-- **C24**: for every partition size and every `n`, each of the `n` buckets has `⌊rows/n⌋` or `⌊rows/n⌋ + 1` rows. -/
theorem C24_ntile_balanced (len n : Nat) (hn : 0 < n) (hl : 0 < len) (b : Nat) (hb : b < n) :
    len / n ≤ Spec.bucketSize len (fun i => ntile len i n) ((b : Int) + 1) ∧
    Spec.bucketSize len (fun i => ntile len i n) ((b : Int) + 1) ≤ len / n + 1 := by
  have hs := ntile_size len n hn hl b hb
  rw [hs, Nat.add_mul, Nat.one_mul]
  generalize b * len = x
  have a1 := Nat.div_add_mod (x + len + (n - 1)) n
  have a2 := Nat.mod_lt (x + len + (n - 1)) hn
  have b1 := Nat.div_add_mod (x + (n - 1)) n
  have b2 := Nat.mod_lt (x + (n - 1)) hn
  have c1 := Nat.div_add_mod len n
  have c2 := Nat.mod_lt len hn
  generalize (x + len + (n - 1)) / n = hi at a1
  generalize (x + (n - 1)) / n = lo at b1
  generalize len / n = q at c1
  generalize (x + len + (n - 1)) % n = r1 at a1 a2
  generalize (x + (n - 1)) % n = r2 at b1 b2
  generalize len % n = r3 at c1 c2
  have h1 : lo + q ≤ hi := by
    apply Nat.le_of_lt_succ
    apply Nat.lt_of_mul_lt_mul_left (a := n)
    rw [Nat.mul_succ, Nat.mul_add]; omega
  have h2 : hi ≤ lo + q + 1 := by
    apply Nat.le_of_lt_succ
    apply Nat.lt_of_mul_lt_mul_left (a := n)
    rw [Nat.mul_succ, Nat.mul_add, Nat.mul_add, Nat.mul_one]; omega
  omega

/-- **C88, last clause is violated**: `NTILE(4)` of 10 rows makes buckets of 3, 2, 3, 2 rows; SQL makes 3, 3, 2, 2. -/
theorem C88_larger_first_violated :
    [1, 2, 3, 4].map (Spec.bucketSize 10 fun i => ntile 10 i 4) = [3, 2, 3, 2] := by decide +kernel

/-- `n ≤ 0` gives `NULL`. -/
theorem C24_ntile_nonpositive (len idx : Nat) (n : Int) (h : n ≤ 0) : ntile len idx n = none := by simp [ntile, h]

example : (List.range 10).map (fun i => ntile 10 i 4) =
    [1, 1, 1, 2, 2, 3, 3, 3, 4, 4].map some := by decide +kernel

/-! ### C25: RANK and DENSE_RANK -/

section Rank
variable {κ : Type} [DecidableEq κ]

/-- Number of keys other than `k`. -/
def others (k : κ) (l : List κ) : Nat := (l.filter fun x => x ≠ k).length

theorem others_cons (k x : κ) (l : List κ) : others k (x :: l) = others k l + if x = k then 0 else 1 := by
  unfold others; by_cases e : x = k <;> simp [e]

theorem others_append (k : κ) (l m : List κ) : others k (l ++ m) = others k l + others k m := by
  unfold others; rw [List.filter_append, List.length_append]

theorem others_nil (k : κ) : others k [] = 0 := rfl

theorem rankStates_some (s : RankState κ) (ks : List κ) (i : Nat) (h : i < ks.length) :
    (rankStates (some s) ks)[i]? = some ⟨s.order, s.rank + others s.order (ks.take (i + 1)), s.row + i + 1⟩ := by
  induction ks generalizing s i with
  | nil => simp at h
  | cons k ks ih =>
    cases i with
    | zero =>
      simp only [rankStates, rankStep, List.getElem?_cons_zero, List.take_succ_cons, List.take_zero, others_cons, others_nil]
      by_cases e : k = s.order <;> simp [e]
    | succ i =>
      simp only [rankStates, List.getElem?_cons_succ, List.take_succ_cons]
      rw [ih _ i (by simpa using h)]
      simp only [rankStep, others_cons]
      by_cases e : k = s.order
      · simp [e]; omega
      · simp [e]; omega

theorem rankStates_formula (k : κ) (ks : List κ) (i : Nat) (h : i < (k :: ks).length) :
    (rankStates none (k :: ks))[i]? = some ⟨k, 1 + others k ((k :: ks).take (i + 1)), i + 1⟩ := by
  cases i with
  | zero => simp [rankStates, rankStep, others]
  | succ i =>
    simp only [rankStates, List.getElem?_cons_succ, List.take_succ_cons]
    rw [rankStates_some _ _ _ (by simpa using h)]
    simp [rankStep, others_cons]
    omega

/-- What the code computes for every partition: one plus the number of rows up to this one whose key differs from the
*first* row's. -/
theorem C25_computed (k : κ) (ks : List κ) (i : Nat) (h : i < (k :: ks).length) :
    (ranks (k :: ks))[i]? = some (1 + others k ((k :: ks).take (i + 1))) := by
  unfold ranks
  rw [List.getElem?_map, rankStates_formula _ _ _ h]; rfl

variable {lt : κ → κ → Prop} [DecidableRel lt]

theorem ordered_get {ks : List κ} (ho : Spec.Ordered lt ks) {i j : Nat} (hij : i < j) (hj : j < ks.length) :
    ¬ lt ks[j] (ks[i]'(by omega)) := List.pairwise_iff_getElem.1 ho i j (by omega) hj hij

theorem others_all (k : κ) (l : List κ) (h : ∀ x ∈ l, x ≠ k) : others k l = l.length := by
  unfold others; rw [List.filter_eq_self.2]; simpa using h

theorem others_none (k : κ) (l : List κ) (h : ∀ x ∈ l, x = k) : others k l = 0 := by
  unfold others; rw [List.length_eq_zero_iff, List.filter_eq_nil_iff]; simpa using h

/-- Rows strictly before row `i` in a duplicate-free ordered partition: exactly `i`. -/
theorem count_before (st : Spec.StrictTotal lt) (ks : List κ) (ho : Spec.Ordered lt ks) (hn : ks.Nodup) (i : Nat)
    (h : i < ks.length) : (ks.filter fun x => lt x ks[i]).length = i := by
  have e : ks = ks.take i ++ ks[i] :: ks.drop (i + 1) := by simp
  have hb : ∀ x ∈ ks.take i, lt x ks[i] := by
    intro x hx
    obtain ⟨j, hj, rfl⟩ := List.mem_iff_getElem.1 hx
    have hj' : j < i := by rw [List.length_take] at hj; omega
    rw [List.getElem_take]
    have h1 := ordered_get ho hj' h
    rcases st.total (ks[j]'(by omega)) ks[i] with h2 | h2 | h2
    · exact h2
    · exact absurd h2 (List.pairwise_iff_getElem.1 hn j i (by omega) h hj')
    · exact absurd h2 h1
  have ha : ∀ x ∈ ks[i] :: ks.drop (i + 1), ¬ lt x ks[i] := by
    intro x hx
    rcases List.mem_cons.1 hx with rfl | hx
    · exact st.irrefl _
    · obtain ⟨j, hj, rfl⟩ := List.mem_iff_getElem.1 hx
      rw [List.getElem_drop]
      rw [List.length_drop] at hj
      exact ordered_get ho (by omega) (by omega)
  generalize hk : ks[i] = k at *
  rw [e, List.filter_append, List.length_append]
  rw [List.filter_eq_self.2 (by simpa using hb), List.filter_eq_nil_iff.2 (by simpa using ha)]
  simp; omega

/-- The code's number of row `i` after the first row, when row 1 differs from row 0. -/
theorem code_rank_distinct_second (st : Spec.StrictTotal lt) (k : κ) (ks : List κ) (ho : Spec.Ordered lt (k :: ks))
    (hd : ∀ x ∈ ks, x ≠ k) (i : Nat) (h : i < (k :: ks).length) : 1 + others k ((k :: ks).take (i + 1)) = i + 1 := by
  have : others k ((k :: ks).take (i + 1)) = others k (ks.take i) := by simp [others_cons]
  rw [this, others_all _ _ (fun x hx => hd x (List.mem_of_mem_take hx)), List.length_take]
  simp at h; omega

theorem first_other (k : κ) (ks : List κ) (h : ¬ ∀ x ∈ ks, x = k) :
    ∃ pre y post, ks = pre ++ y :: post ∧ (∀ x ∈ pre, x = k) ∧ y ≠ k := by
  induction ks with
  | nil => simp at h
  | cons a ks ih =>
    by_cases e : a = k
    · obtain ⟨pre, y, post, rfl, hp, hy⟩ := ih (by intro hc; apply h; intro x hx; rcases List.mem_cons.1 hx with hx | hx
                                                   · rw [hx, e]
                                                   · exact hc x hx)
      refine ⟨a :: pre, y, post, rfl, ?_, hy⟩
      intro x hx
      rcases List.mem_cons.1 hx with hx | hx
      · rw [hx, e]
      · exact hp x hx
    · exact ⟨[], a, ks, rfl, by simp, e⟩

/-- **C25, RANK**: for every ordered partition, the code's `RANK` is right in all rows iff the keys are all different or
all equal.  (So it is wrong as soon as some keys tie and some differ.) -/
theorem C25_rank_correct_iff_partial (st : Spec.StrictTotal lt) (ks : List κ) (ho : Spec.Ordered lt ks) :
    (∀ i (h : i < ks.length), (ranks ks)[i]? = some (Spec.rank lt ks ks[i])) ↔
      (ks.Nodup ∨ ∀ x ∈ ks, ∀ y ∈ ks, x = y) := by
  cases ks with
  | nil => simp
  | cons k ks =>
    constructor
    · intro hr
      have hr' : ∀ i (h : i < (k :: ks).length), 1 + others k ((k :: ks).take (i + 1)) = Spec.rank lt (k :: ks) (k :: ks)[i] := by
        intro i h; have := hr i h; rw [C25_computed _ _ _ h] at this; exact Option.some.inj this
      by_cases hall : ∀ x ∈ ks, x = k
      · right
        have : ∀ x ∈ k :: ks, x = k := by
          intro x hx; rcases List.mem_cons.1 hx with h | h
          · exact h
          · exact hall x h
        intro x hx y hy; rw [this x hx, this y hy]
      · left
        have hsecond : ∀ x ∈ ks, x ≠ k := by
          obtain ⟨pre, y, post, rfl, hp, hy⟩ := first_other k ks hall
          have hlt : lt k y := by
            have h1 : ¬ lt y k := (List.pairwise_cons.1 ho).1 y (by simp)
            rcases st.total k y with h | h | h
            · exact h
            · exact absurd h.symm hy
            · exact absurd h h1
          have hi : pre.length + 1 < (k :: (pre ++ y :: post)).length := by simp
          have h2 := hr' (pre.length + 1) hi
          have hget : (k :: (pre ++ y :: post))[pre.length + 1] = y := by simp
          rw [hget] at h2
          have htake : (k :: (pre ++ y :: post)).take (pre.length + 1 + 1) = k :: (pre ++ [y]) := by
            rw [List.take_succ_cons, List.take_length_add_append]; simp
          rw [htake] at h2
          have hc : others k (k :: (pre ++ [y])) = 1 := by
            simp [others_cons, others_append, others_none k pre hp, others_nil, hy]
          have hge : pre.length + 2 ≤ Spec.rank lt (k :: (pre ++ y :: post)) y := by
            unfold Spec.rank
            have : (k :: pre).filter (fun x => decide (lt x y)) = k :: pre := by
              apply List.filter_eq_self.2
              intro x hx
              rcases List.mem_cons.1 hx with rfl | hx
              · simpa using hlt
              · rw [hp x hx]; simpa using hlt
            rw [show k :: (pre ++ y :: post) = (k :: pre) ++ (y :: post) from rfl, List.filter_append, this]
            simp
          have hpre : pre = [] := by
            rw [← List.length_eq_zero_iff]; omega
          subst hpre
          intro x hx
          rcases List.mem_cons.1 hx with rfl | hx
          · exact hy
          · rintro rfl
            exact (List.pairwise_cons.1 (List.pairwise_cons.1 ho).2).1 x (by simpa using hx) hlt
        unfold List.Nodup
        rw [List.pairwise_iff_getElem]
        intro i j hi hj hij he
        have h1 := hr' i hi
        have h2 := hr' j hj
        rw [code_rank_distinct_second st k ks ho hsecond _ hi] at h1
        rw [code_rank_distinct_second st k ks ho hsecond _ hj] at h2
        rw [he, ← h2] at h1
        omega
    · rintro (hn | he) i h
      · rw [C25_computed _ _ _ h]
        congr 1
        rw [code_rank_distinct_second st k ks ho (fun x hx => fun e => (List.nodup_cons.1 hn).1 (e ▸ hx)) i h]
        unfold Spec.rank; rw [count_before st _ ho hn i h]
      · rw [C25_computed _ _ _ h]
        congr 1
        have hk : ∀ x ∈ k :: ks, x = k := fun x hx => he x hx k (by simp)
        rw [others_none k _ (fun x hx => hk x (List.mem_of_mem_take hx))]
        unfold Spec.rank
        have : (k :: ks).filter (fun x => decide (lt x (k :: ks)[i])) = [] := by
          apply List.filter_eq_nil_iff.2
          intro x hx
          rw [hk x hx, hk _ (List.getElem_mem h)]
          simpa using st.irrefl k
        rw [this]; rfl

/-- **C25, DENSE_RANK**: for every ordered partition, right in all rows iff the keys other than the first row's are all
different. -/
theorem C25_dense_rank_correct_iff_partial (st : Spec.StrictTotal lt) (k : κ) (ks : List κ)
    (ho : Spec.Ordered lt (k :: ks)) :
    (∀ i (h : i < (k :: ks).length), ∀ r, (ranks (k :: ks))[i]? = some r → Spec.IsDenseRank lt (k :: ks) (k :: ks)[i] r) ↔
      (ks.filter fun x => x ≠ k).Nodup := by
  have hk : ∀ x ∈ ks, x ≠ k → lt k x := by
    intro x hx hne
    rcases st.total k x with h | h | h
    · exact h
    · exact absurd h.symm hne
    · exact absurd h ((List.pairwise_cons.1 ho).1 x hx)
  constructor
  · intro hr
    have hr' : ∀ i (h : i < (k :: ks).length),
        Spec.IsDenseRank lt (k :: ks) (k :: ks)[i] (1 + others k ((k :: ks).take (i + 1))) :=
      fun i h => hr i h _ (C25_computed _ _ _ h)
    have hinj : ∀ i j (hij : i < j) (hj : j < ks.length), ks[j] ≠ k → ks[i]'(by omega) ≠ ks[j] := by
      intro i j hij hj hne he
      obtain ⟨D1, n1, m1, l1⟩ := hr' (i + 1) (by simp; omega)
      obtain ⟨D2, n2, m2, l2⟩ := hr' (j + 1) (by simp; omega)
      have hp : D1.Perm D2 := by
        rw [List.perm_ext_iff_of_nodup n1 n2]
        intro a; rw [m1, m2]; simp [he]
      have hlen := hp.length_eq
      have h1 : others k ((k :: ks).take (i + 1 + 1)) = others k (ks.take (i + 1)) := by simp [others_cons]
      have h2 : others k ((k :: ks).take (j + 1 + 1)) = others k (ks.take j) + 1 := by
        rw [List.take_succ_cons, List.take_succ_eq_append_getElem hj]
        simp only [others_cons, others_append, others_nil, hne, if_true, if_false]
      have h3 : others k (ks.take (i + 1)) ≤ others k (ks.take j) := by
        unfold others
        apply List.Sublist.length_le
        apply List.Sublist.filter
        exact List.take_sublist_take_left (by omega)
      omega
    -- pairwise distinct positions give a duplicate-free filtered list
    have : ks.Pairwise fun a b => b ≠ k → a ≠ b := by
      rw [List.pairwise_iff_getElem]
      intro i j hi hj hij hne
      exact hinj i j hij hj hne
    unfold List.Nodup
    rw [List.pairwise_filter]
    exact this.imp fun h _ hb => h (by simpa using hb)
  · intro hn i h r hr
    rw [C25_computed _ _ _ h] at hr
    obtain rfl := Option.some.inj hr
    cases i with
    | zero =>
      refine ⟨[], by simp, ?_, by simp [others_cons, others_nil]⟩
      intro x
      simp only [List.not_mem_nil, List.getElem_cons_zero, false_iff]
      rintro ⟨hx, hl⟩
      rcases List.mem_cons.1 hx with rfl | hx
      · exact st.irrefl _ hl
      · exact (List.pairwise_cons.1 ho).1 x hx hl
    | succ i =>
      have hi : i < ks.length := by simpa using h
      have hoth : others k ((k :: ks).take (i + 1 + 1)) = others k (ks.take (i + 1)) := by simp [others_cons]
      rw [hoth]
      by_cases hik : ks[i] = k
      · refine ⟨[], by simp, ?_, ?_⟩
        · intro x
          simp only [List.not_mem_nil, List.getElem_cons_succ, false_iff]
          rintro ⟨hx, hl⟩
          rw [hik] at hl
          rcases List.mem_cons.1 hx with rfl | hx
          · exact st.irrefl _ hl
          · exact (List.pairwise_cons.1 ho).1 x hx hl
        · rw [others_none]; rfl
          intro x hx
          obtain ⟨j, hj, rfl⟩ := List.mem_iff_getElem.1 hx
          rw [List.getElem_take]
          rw [List.length_take] at hj
          by_cases hji : j = i
          · subst hji; exact hik
          · have h1 := ordered_get (List.pairwise_cons.1 ho).2 (i := j) (j := i) (by omega) hi
            rw [hik] at h1
            apply Classical.byContradiction
            intro hne
            exact h1 (hk _ (List.getElem_mem _) hne)
      · refine ⟨k :: (ks.take i).filter fun x => x ≠ k, ?_, ?_, ?_⟩
        · rw [List.nodup_cons]
          refine ⟨by simp, ?_⟩
          exact hn.sublist (List.Sublist.filter _ (List.take_sublist _ _))
        · intro x
          simp only [List.mem_cons, List.mem_filter, List.getElem_cons_succ, decide_eq_true_eq, ne_eq]
          constructor
          · rintro (rfl | ⟨hx, hne⟩)
            · exact ⟨.inl rfl, hk _ (List.getElem_mem _) hik⟩
            · refine ⟨.inr (List.mem_of_mem_take hx), ?_⟩
              obtain ⟨j, hj, rfl⟩ := List.mem_iff_getElem.1 hx
              rw [List.getElem_take] at hne ⊢
              rw [List.length_take] at hj
              have h1 := ordered_get (List.pairwise_cons.1 ho).2 (i := j) (j := i) (by omega) hi
              rcases st.total (ks[j]'(by omega)) ks[i] with h2 | h2 | h2
              · exact h2
              · exfalso
                have hnn : ks.Pairwise fun a b => a ≠ k → b ≠ k → a ≠ b := by
                  have := hn
                  unfold List.Nodup at this
                  rw [List.pairwise_filter] at this
                  exact this.imp fun h ha hb => h (by simpa using ha) (by simpa using hb)
                exact List.pairwise_iff_getElem.1 hnn j i (by omega) hi (by omega) hne hik h2
              · exact absurd h2 h1
          · rintro ⟨rfl | hx, hl⟩
            · exact .inl rfl
            · by_cases hxk : x = k
              · exact .inl hxk
              · right
                refine ⟨?_, hxk⟩
                obtain ⟨j, hj, rfl⟩ := List.mem_iff_getElem.1 hx
                have hji : j < i := by
                  apply Classical.byContradiction
                  intro hc
                  by_cases hji : j = i
                  · subst hji; exact st.irrefl _ hl
                  · exact ordered_get (List.pairwise_cons.1 ho).2 (i := i) (j := j) (by omega) hj hl
                rw [List.mem_take_iff_getElem]
                exact ⟨j, by omega, rfl⟩
        · rw [List.take_succ_eq_append_getElem hi]
          simp only [others_append, others_cons, others_nil, hik, if_false]
          unfold others; simp only [List.length_cons]; omega

omit [DecidableEq κ] [DecidableRel lt] in
/-- **C25 is violated**: keys 1, 1, 2 get ranks 1, 1, 2 (SQL: 1, 1, 3) and keys 1, 2, 2 get dense ranks 1, 2, 3
(SQL: 1, 2, 2). -/
theorem C25_violated : ranks [1, 1, 2] = [1, 1, 2] ∧ Spec.rank (· < ·) [1, 1, 2] 2 = 3 ∧ ranks [1, 2, 2] = [1, 2, 3] ∧
    Spec.IsDenseRank (· < ·) [1, 2, 2] 2 2 ∧ ¬ Spec.IsDenseRank (· < ·) [1, 2, 2] 2 3 := by
  refine ⟨by decide, by decide, by decide, ⟨[1], by decide, by intro x; simp; omega, rfl⟩, ?_⟩
  rintro ⟨D, hn, hm, hl⟩
  have : D.Perm [1] := by
    rw [List.perm_ext_iff_of_nodup hn (by decide)]
    intro a; rw [hm]; simp; omega
  have := this.length_eq
  simp at this; omega

/-- The hypotheses are satisfiable: whole numbers in ascending order. -/
theorem intOrder : Spec.StrictTotal (fun a b : Int => a < b) := ⟨by omega, by omega, by omega⟩

example : Spec.Ordered (fun a b : Int => a < b) [1, 3, 7] ∧ [1, 3, 7].Nodup ∧ ranks [1, 3, 7] = [1, 2, 3] := by
  refine ⟨?_, by decide, by decide⟩
  unfold Spec.Ordered; decide

/-! ### C26 -/

omit [DecidableEq κ] in
/-- **C26, CUME_DIST is wrong in every row** of every non-empty partition: the result is above 1. -/
theorem C26_cume_dist_always_wrong (ks : List κ) (i : Nat) (h : i < ks.length) (k : κ) :
    1 < cumeDist ks.length i ∧ Spec.cumeDist lt ks k ≤ 1 := by
  have hl : (0 : Rat) < (ks.length : Rat) := by
    have : 0 < ks.length := by omega
    exact_mod_cast this
  constructor
  · unfold cumeDist
    rw [if_neg (by omega)]
    have h1 : (0 : Rat) ≤ (i : Rat) := by exact_mod_cast Nat.zero_le i
    have h2 : (0 : Rat) < 1 / (ks.length : Rat) := by
      rw [Rat.div_def, Rat.one_mul]; exact Rat.inv_pos.2 hl
    grind
  · unfold Spec.cumeDist
    have h1 : ((ks.filter fun x => ¬ lt k x).length : Rat) ≤ (ks.length : Rat) := by
      exact_mod_cast List.length_filter_le _ _
    have := Rat.div_lt_iff (a := (ks.length : Rat)) (b := (ks.length : Rat)) (c := 1) hl
    apply Rat.not_lt.1
    intro hc
    have h3 : ((ks.filter fun x => ¬ lt k x).length : Rat) / (ks.length : Rat) * (ks.length : Rat) =
      ((ks.filter fun x => ¬ lt k x).length : Rat) := Rat.div_mul_cancel (by grind)
    have := Rat.mul_lt_mul_of_pos_right hc hl
    grind

/-- **C26, PERCENT_RANK**: what is computed in every row after the first. -/
theorem C26_percent_rank_computed (k : κ) (ks : List κ) (i : Nat) (h : i + 1 < (k :: ks).length) :
    (percentRanks (k :: ks))[i + 1]? =
      some ((others k ((k :: ks).take (i + 2)) : Rat) - 1 / ((i : Rat) + 2)) := by
  unfold percentRanks
  rw [List.getElem?_map, rankStates_formula _ _ _ h]
  simp only [Option.map_some, percentFinal]
  rw [if_neg (by omega)]
  congr 1
  push_cast
  have : (i : Rat) + 1 + 1 = (i : Rat) + 2 := by grind
  rw [this]; grind

/-- **C26, first row**: 0, as in SQL. -/
theorem C26_percent_rank_first_row_partial (st : Spec.StrictTotal lt) (k : κ) (ks : List κ) (ho : Spec.Ordered lt (k :: ks)) :
    (percentRanks (k :: ks))[0]? = some (Spec.percentRank lt (k :: ks) k) := by
  have h1 : (percentRanks (k :: ks))[0]? = some 0 := by
    unfold percentRanks
    rw [List.getElem?_map, rankStates_formula _ _ _ (by simp)]; simp [percentFinal]
  rw [h1]
  unfold Spec.percentRank
  split
  · rfl
  · have : (k :: ks).filter (fun x => decide (lt x k)) = [] := by
      apply List.filter_eq_nil_iff.2
      intro x hx
      rcases List.mem_cons.1 hx with rfl | hx
      · simpa using st.irrefl _
      · simpa using (List.pairwise_cons.1 ho).1 x hx
    unfold Spec.rank; rw [this]
    simp only [List.length_nil, Nat.zero_add, Rat.div_def]
    have : ((1 : Nat) : Rat) - 1 = 0 := by decide +kernel
    rw [this, Rat.zero_mul]

/-- **C26, PERCENT_RANK of the last row is wrong** in every partition of at least two rows. -/
theorem C26_percent_rank_last_row_wrong (k : κ) (ks : List κ) (m : Nat) (hm : ks.length = m + 1) :
    (percentRanks (k :: ks))[m + 1]? ≠ some (Spec.percentRank lt (k :: ks) ((k :: ks)[m + 1]'(by simp [hm]))) := by
  have h1 := C26_percent_rank_computed k ks m (by simp [hm])
  rw [h1]
  unfold Spec.percentRank
  rw [if_neg (by simp [hm])]
  intro he
  have he := Option.some.inj he
  generalize others k ((k :: ks).take (m + 2)) = a at he
  have hr : (Spec.rank lt (k :: ks) ((k :: ks)[m + 1]'(by simp [hm])) : Rat) - 1 =
      ((((k :: ks).filter fun x => lt x ((k :: ks)[m + 1]'(by simp [hm]))).length : Nat) : Rat) := by
    unfold Spec.rank; push_cast; grind
  rw [hr] at he
  generalize ((k :: ks).filter fun x => lt x ((k :: ks)[m + 1]'(by simp [hm]))).length = b at he
  have hlen : ((k :: ks).length : Rat) - 1 = (m : Rat) + 1 := by rw [List.length_cons, hm]; push_cast; grind
  rw [hlen] at he
  have p1 : (0 : Rat) < (m : Rat) + 1 := by
    have : (0 : Rat) ≤ (m : Rat) := by exact_mod_cast Nat.zero_le m
    grind
  have p2 : (0 : Rat) < (m : Rat) + 2 := by grind
  -- clear denominators
  have hx : ((a : Rat) * ((m : Rat) + 2) - 1) * ((m : Rat) + 1) = (b : Rat) * ((m : Rat) + 2) := by
    grind
  have hx1 : (a : Rat) * ((m : Rat) + 2) * ((m : Rat) + 1) = (b : Rat) * ((m : Rat) + 2) + ((m : Rat) + 1) := by grind
  have hx2 : a * (m + 2) * (m + 1) = b * (m + 2) + (m + 1) := by exact_mod_cast hx1
  have d1 : (m + 2) ∣ b * (m + 2) + (m + 1) := by
    rw [← hx2, Nat.mul_assoc, Nat.mul_comm (m + 2), ← Nat.mul_assoc]; exact Nat.dvd_mul_left _ _
  have d2 : (m + 2) ∣ m + 1 := (Nat.dvd_add_right (Nat.dvd_mul_left _ _)).1 d1
  have := Nat.le_of_dvd (by omega) d2
  omega

/-- It can even be negative: keys 1, 1. -/
theorem C26_percent_rank_negative : percentRanks [1, 1] = [0, -1 / 2] := by decide +kernel

example : percentRanks [1, 2, 3] = [0, 1 / 2, 5 / 3] ∧ cumeDist 2 0 = 3 / 2 := by decide +kernel

end Rank

end Verif.Props
