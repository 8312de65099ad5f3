import Verif.Props.SelectDistinct
import Verif.Props.Reduce
/-! Examples for C57, C58 and C59, and the queries that violate them. -/
namespace Verif.Props
open Verif.Val Verif.Expr Verif.Sql Verif.Where Verif.Order Verif.SqlOrder Verif.Select Verif.SqlSelect Verif.Reduce Verif.GroupSpec

section
variable (text : Str → Bool) (py : Py) (calls : Str → List Val → Val)

/-- Values ordered as integers. -/
def rankLe (x y : Val) : Bool :=
  let rank : Val → Int := fun v => match v with | .int n => n | _ => 0
  decide (rank x ≤ rank y)

/-- An engine that reads all rows in one batch. -/
def oneBatch : Engine := ⟨idealSrc py, rankLe, 0, fun l => [(l, false)]⟩
/-- An engine that reads the rows one by one, reducing after every second batch. -/
def smallBatches : Engine := ⟨idealSrc py, rankLe, 2, fun l => l.map fun r => ([r], false)⟩

/-- Rows of the examples. -/
def selRow (a b : Int) : Row := fun c =>
  if baseName c = ['a'] then .int a else if baseName c = ['b'] then .int b else .null

theorem baseName_idem (c : Str) : baseName (baseName c) = baseName c := by
  simp only [baseName]
  induction c with
  | nil => rfl
  | cons a c ih =>
    rw [List.takeWhile_cons]
    split
    · rename_i h; rw [List.takeWhile_cons, if_pos h, ih]
    · rfl

theorem selRow_typed (a b : Int) (c : Str) : selRow a b c = selRow a b (baseName c) := by
  simp only [selRow, baseName_idem]

theorem rankLe_total (x y : Val) : rankLe x y = true ∨ rankLe y x = true := by
  simp only [rankLe, decide_eq_true_eq]; exact Int.le_total _ _
theorem rankLe_trans (x y z : Val) (h : rankLe x y = true) (h' : rankLe y z = true) : rankLe x z = true := by
  simp only [rankLe, decide_eq_true_eq] at *; exact Int.le_trans h h'

/-- COUNT as the program computes it. -/
def countAggr : Aggr (Option (Option Int)) := ⟨Calc.total Agg.count, fun s => match s with | some s => Agg.count.final s | none => .null⟩

/-- `SELECT a, b AS x FROM t WHERE b > 1 ORDER BY a DESC LIMIT 1 OFFSET 1`. -/
def q57 : Query Empty :=
  { cols := [(['a'], .expr (.col ['a'])), (['x'], .expr (.col ['b']))], cond := some (.cmp .gt (.col ['b']) (.lit (.int 1))),
    order := [(.col none ['a'], true)], limit := some 1, offset := 1, table := ['t'], columns := [['a'], ['b']] }

theorem whereOk_b (S : Type) (q : Query S) (h : q.cond = some (.cmp .gt (.col ['b']) (.lit (.int 1)))) (rows : List Row)
    (ht : ∀ r ∈ rows, ∃ a b, r = selRow a b) : WhereOk text py calls q rows := by
  refine ⟨?_, ?_, ?_, ?_⟩
  · intro e he; rw [h] at he; cases he; exact testsOk_noTests _ _ rfl
  · intro e he
    rw [h] at he; cases he
    refine ⟨rfl, rfl, ?_⟩
    intro k hk k' hk' _
    rw [show operandCols (tested (.cmp .gt (.col ['b']) (.lit (.int 1)))) = [['b']] from rfl] at hk hk'
    simp only [List.mem_singleton] at hk hk'
    rw [hk, hk']
  · intro e he
    rw [h] at he; cases he
    intro r _
    trivial
  · intro r hr c
    obtain ⟨a, b, rfl⟩ := ht r hr
    exact selRow_typed a b c

/-- C57 on `q57`: of the rows with `b > 1`, `(1, 5)`, `(3, 2)` and `(2, 4)`, the second largest `a` is 2. -/
example :
    let rows := [selRow 1 5, selRow 3 2, selRow 9 0, selRow 2 4]
    ∃ p, compileSelect q57 = some p ∧ RowResult text py.cmp calls rankLe q57 rows (Select.run py calls (oneBatch py) p rows) ∧
      Select.run py calls (oneBatch py) p rows = [[(['a'], .int 2), (['x'], .int 4)]] := by
  refine ⟨_, rfl, ?_, rfl⟩
  apply C57_select_partial text py calls (oneBatch py) rankLe_total rankLe_trans (idealSrc_faithful py) q57 _ rfl
  · intro c hc
    simp only [q57, List.mem_cons, List.not_mem_nil, or_false] at hc
    rcases hc with rfl | rfl <;> exact ⟨_, rfl, rfl⟩
  · decide
  · rfl
  · rfl
  · decide
  · refine whereOk_b text py calls _ q57 rfl _ ?_
    intro r hr
    simp only [List.mem_cons, List.not_mem_nil, or_false] at hr
    rcases hr with rfl | rfl | rfl | rfl <;> exact ⟨_, _, rfl⟩
  · intro e he; cases he
  · refine ⟨?_, ?_⟩
    · intro t n d h; simp [q57] at h
    · intro n d h _ _ _
      simp only [q57, List.mem_singleton, Prod.mk.injEq, Order.Item.col.injEq, true_and] at h
      rw [h.1]; simp [q57]

/-- `SELECT a, COUNT(b) AS n FROM t WHERE b > 1 GROUP BY a HAVING n > 1 ORDER BY n DESC`. -/
def q58 : Query (Option (Option Int)) :=
  { cols := [(['a'], .expr (.col ['a'])), (['n'], .agg [(countAggr, .col ['b'])] (fun l => l.headD .null))],
    cond := some (.cmp .gt (.col ['b']) (.lit (.int 1))), group := [.bare ['a']],
    having := some (.cmp .gt (.col ['n']) (.lit (.int 1))), order := [(.col none ['n'], true)], table := ['t'], columns := [['a'], ['b']] }

/-- C58 on `q58`, with batches of one row. -/
example :
    let rows := [selRow 1 5, selRow 3 2, selRow 1 4, selRow 1 0]
    ∃ p, compileSelect q58 = some p ∧ GroupResult text py.cmp calls rankLe q58 rows (Select.run py calls (smallBatches py) p rows) ∧
      Select.run py calls (smallBatches py) p rows = [[(['a'], .int 1), (['n'], .int 2)]] := by
  refine ⟨_, rfl, ?_, rfl⟩
  apply C58_grouped_partial text py calls (smallBatches py) rankLe_total rankLe_trans (idealSrc_faithful py) ?_ q58 _ rfl
  · intro n e h
    simp [q58] at h
    rw [h.2]; rfl
  · intro n args final h a ha
    simp [q58] at h
    rw [h.2.1] at ha
    simp at ha
    rw [ha]; rfl
  · intro e h; simp [q58] at h
  · decide
  · simp [q58]
  · left; simp [q58]
  · intro c hc _
    simp [q58] at hc
    exact ⟨[], .col ['a'], _, by rw [hc]; rfl, Or.inr (by simp)⟩
  · decide
  · left; rfl
  · refine whereOk_b text py calls _ q58 rfl _ ?_
    intro r hr
    simp only [List.mem_cons, List.not_mem_nil, or_false] at hr
    rcases hr with rfl | rfl | rfl | rfl <;> exact ⟨_, _, rfl⟩
  · intro e he
    simp only [q58, Option.mem_def, Option.some.injEq] at he
    rw [← he]; rfl
  · intro n args final h a ha
    simp [q58] at h
    rw [h.2.1] at ha
    simp at ha
    rw [ha]
    exact ⟨fun _ => True, total_law Agg.count _ fun l1 l2 _ _ => C20_count l1 l2, fun _ _ => trivial⟩
  · left; simp [q58]
  · intro h
    have := h (['n'], .agg [(countAggr, .col ['b'])] (fun l => l.headD .null)) (by simp [q58])
    simp [isAgg] at this
  · refine ⟨?_, ?_⟩
    · intro t n d h; simp [q58] at h
    · intro n d h
      simp only [q58, List.mem_singleton, Prod.mk.injEq, Order.Item.col.injEq, true_and] at h
      rw [h.1]
      exact ⟨by simp [q58], fun _ _ => Or.inl ⟨_, _, by simp [q58]; exact ⟨rfl, rfl⟩⟩⟩
  · intro l
    simp [smallBatches, List.flatMap_map]

/-- The number of rows of a result of a grouped query without HAVING and LIMIT over rows that are read in order. -/
theorem groupResult_length {S : Type} (le : Val → Val → Bool) (q : Query S) (rows : List Row) (result : List Out)
    (h : GroupResult text py.cmp calls le q rows result) (hh : q.having = none) (hl : q.limit = none) (ho : q.offset = 0) (hor : q.order = []) :
    result.length = (groupsOf text py.cmp calls q (rows.filter (satisfies text py.cmp calls q.cond))).length := by
  obtain ⟨members, sorted, _, hm, hs, _, hr⟩ := h
  rw [hr, hl, ho, pageOf, List.drop_zero, hs.length_eq, hm hor, hh]
  rw [show (fun o : Out => satisfies text py.cmp calls none fun n => colVal n o) = fun _ => true from rfl, List.filter_eq_self.2 (fun _ _ => rfl), List.length_map]

/-- `SELECT COUNT(a) AS n, b AS y FROM t GROUP BY y`. -/
def qAlias : Query (Option (Option Int)) :=
  { cols := [(['n'], .agg [(countAggr, .col ['a'])] (fun l => l.headD .null)), (['y'], .expr (.col ['b']))],
    group := [.bare ['y']], table := ['t'], columns := [['a'], ['b']] }

/-- **C58 is violated by an alias in GROUP BY that stands after an aggregate**: in `qAlias` it is taken for a column of the table; there
is one group, though `b` is 1 and 2. -/
theorem C58_alias_violated :
    let rows := [selRow 0 1, selRow 0 2]
    ∃ p, compileSelect qAlias = some p ∧ Select.run py calls (oneBatch py) p rows = [[(['n'], .int 2), (['y'], .int 1)]] ∧
      ¬ GroupResult text py.cmp calls rankLe qAlias rows (Select.run py calls (oneBatch py) p rows) := by
  refine ⟨_, rfl, rfl, ?_⟩
  intro h
  have := groupResult_length text py calls _ _ _ _ h rfl rfl rfl rfl
  have h2 : (groupsOf text py.cmp calls qAlias ([selRow 0 1, selRow 0 2].filter (satisfies text py.cmp calls qAlias.cond))).length = 2 := rfl
  rw [h2] at this
  have h3 : 1 = 2 := this
  omega

/-- `SELECT COUNT(a) AS n FROM t`. -/
def qCount : Query (Option (Option Int)) :=
  { cols := [(['n'], .agg [(countAggr, .col ['a'])] (fun l => l.headD .null))], table := ['t'], columns := [['a']] }

/-- **C58 is violated by aggregates without GROUP BY over no rows**: there is no row in the result. -/
theorem C58_no_rows_violated :
    ∃ p, compileSelect qCount = some p ∧ Select.run py calls (oneBatch py) p [] = [] ∧
      ¬ GroupResult text py.cmp calls rankLe qCount [] (Select.run py calls (oneBatch py) p []) := by
  refine ⟨_, rfl, rfl, ?_⟩
  intro h
  have := groupResult_length text py calls _ _ _ _ h rfl rfl rfl rfl
  have h3 : 0 = 1 := this
  omega

/-- `SELECT a FROM t GROUP BY a LIMIT 2`, and with DISTINCT instead of GROUP BY. -/
def qLimit : Query Empty :=
  { cols := [(['a'], .expr (.col ['a']))], group := [.bare ['a']], limit := some 2, table := ['t'], columns := [['a']] }
def qDistinctLimit : Query Empty := { qLimit with group := [], distinct := true }

/-- **C58 is violated by LIMIT on GROUP BY without aggregates**: the rows that are read are limited; of the groups 1 and 2 only the
first is in the result. -/
theorem C58_limit_violated :
    let rows := [selRow 1 0, selRow 1 0, selRow 2 0]
    ∃ p, compileSelect qLimit = some p ∧ Select.run py calls (oneBatch py) p rows = [[(['a'], .int 1)]] ∧
      ¬ GroupResult text py.cmp calls rankLe qLimit rows (Select.run py calls (oneBatch py) p rows) := by
  refine ⟨_, rfl, rfl, ?_⟩
  rintro ⟨members, sorted, _, hm, hs, _, hr⟩
  have hlen := hs.length_eq
  rw [hm rfl] at hlen
  have h2 : sorted.length = 2 := hlen
  have hr' : ([[(['a'], Val.int 1)]] : List Out) = sorted.take 2 := hr
  have := congrArg List.length hr'
  rw [List.length_take, h2] at this
  exact absurd this (by decide)

/-- **C59 is violated by LIMIT**, in the same way. -/
theorem C59_limit_violated :
    let rows := [selRow 1 0, selRow 1 0, selRow 2 0]
    ∃ p, compileSelect qDistinctLimit = some p ∧ Select.run py calls (oneBatch py) p rows = [[(['a'], .int 1)]] ∧
      ¬ DistinctResult text py.cmp calls rankLe qDistinctLimit rows (Select.run py calls (oneBatch py) p rows) := by
  refine ⟨_, rfl, rfl, ?_⟩
  rintro ⟨sorted, hn, hm, _, hr⟩
  have hr' : ([[(['a'], Val.int 1)]] : List Out) = sorted.take 2 := hr
  have h2 : [(['a'], Val.int 2)] ∈ sorted := (hm _).2 ⟨selRow 2 0, by simp, rfl, rfl, rfl⟩
  have h1 : sorted = [[(['a'], Val.int 1)]] := by
    match sorted, hr' with
    | [_], h => simp only [List.take_succ_cons, List.take_nil, List.cons.injEq, and_true] at h; rw [h]
    | _ :: _ :: _, h => simp at h
  rw [h1] at h2
  simp at h2

/-- `SELECT DISTINCT COUNT(a) AS n FROM t GROUP BY b`. -/
def qDistinctAgg : Query (Option (Option Int)) :=
  { cols := [(['n'], .agg [(countAggr, .col ['a'])] (fun l => l.headD .null))], group := [.bare ['b']], distinct := true,
    table := ['t'], columns := [['a'], ['b']] }

/-- **C59 is violated by DISTINCT with GROUP BY or aggregates**: it is ignored; the result has the same row twice. -/
theorem C59_aggregate_violated :
    ∃ p, compileSelect qDistinctAgg = some p ∧
      Select.run py calls (oneBatch py) p [selRow 0 1, selRow 0 2] = [[(['n'], .int 1)], [(['n'], .int 1)]] :=
  ⟨_, rfl, rfl⟩

/-- `SELECT DISTINCT a FROM t WHERE b > 1 ORDER BY a`. -/
def q59 : Query Empty :=
  { cols := [(['a'], .expr (.col ['a']))], cond := some (.cmp .gt (.col ['b']) (.lit (.int 1))), distinct := true,
    order := [(.col none ['a'], false)], table := ['t'], columns := [['a'], ['b']] }

/-- C59 on `q59`. -/
example :
    let rows := [selRow 3 5, selRow 1 2, selRow 9 0, selRow 3 4]
    ∃ p, compileSelect q59 = some p ∧ DistinctResult text py.cmp calls rankLe q59 rows (Select.run py calls (smallBatches py) p rows) ∧
      Select.run py calls (smallBatches py) p rows = [[(['a'], .int 1)], [(['a'], .int 3)]] := by
  refine ⟨_, rfl, ?_, rfl⟩
  have hrows : ∀ r ∈ [selRow 3 5, selRow 1 2, selRow 9 0, selRow 3 4], ∃ a b, r = selRow a b := by
    intro r hr
    simp only [List.mem_cons, List.not_mem_nil, or_false] at hr
    rcases hr with rfl | rfl | rfl | rfl <;> exact ⟨_, _, rfl⟩
  apply C59_distinct_partial text py calls (smallBatches py) rankLe_total rankLe_trans (idealSrc_faithful py) ?_ q59 _ rfl
  · intro c hc
    simp only [q59, List.mem_cons, List.not_mem_nil, or_false] at hc
    rw [hc]; exact ⟨_, rfl, rfl⟩
  · decide
  · simp [q59]
  · rfl
  · rfl
  · decide
  · left; rfl
  · exact whereOk_b text py calls _ q59 rfl _ hrows
  · intro e he; cases he
  · intro n e h r hr r' hr'
    simp [q59] at h
    rw [h.2]
    obtain ⟨a, b, rfl⟩ := hrows r hr
    obtain ⟨a', b', rfl⟩ := hrows r' hr'
    intro hk
    have ha : ∀ a b, sem text py.cmp calls (selRow a b) (.col ['a']) = .int a := fun a b => rfl
    rw [ha, ha] at hk ⊢
    simpa [Agg.keyOf, numeric] using hk
  · refine ⟨?_, ?_⟩
    · intro t n d h; simp [q59] at h
    · intro n d h
      simp only [q59, List.mem_singleton, Prod.mk.injEq, Order.Item.col.injEq, true_and] at h
      rw [h.1]
      exact ⟨by simp [q59], fun _ _ => Or.inr (by simp [q59])⟩
  · intro l
    simp [smallBatches, List.flatMap_map]

end
end Verif.Props
