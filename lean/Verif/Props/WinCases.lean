import Verif.Props.WinSelect
import Verif.Props.SelectCases
/-! An example for C65, what holds of the columns' order, and the queries that violate C65. -/
namespace Verif.Props
open Verif.Val Verif.Expr Verif.Sql Verif.Where Verif.Order Verif.SqlOrder Verif.Select Verif.SqlSelect Verif.SqlWindow Verif.WinSelect

section
variable {S : Type} (text : Str → Bool) (py : Py) (calls : Str → List Val → Val)

theorem mem_pySlice {β : Type} (s : Nat) (e : Option Nat) (l : List β) (x : β) (h : x ∈ Limit.pySlice s e l) : x ∈ l := by
  cases e with
  | none => exact List.mem_of_mem_drop h
  | some e => exact List.mem_of_mem_take (List.mem_of_mem_drop h)

/-- **C65**: when no column is an expression of window functions, the columns of every result row stand in the order of the select
list. -/
theorem C65_column_order_partial (src : Src) (le : Val → Val → Bool) (q : WinSelect.Query S) (p : WinSelect.Plan S)
    (hp : WinSelect.compileSelect q = some p) (hq : WinQueryOk q) (hc : ∀ n ws e, (n, WinSelect.Item.calc ws e) ∉ q.cols) (rows : List Row) :
    ∀ o ∈ WinSelect.run py calls src le p rows, o.map (·.1) = q.cols.map (·.1) := by
  obtain ⟨hcols, _⟩ := win_compile_eq q p hp
  obtain ⟨sch, fin, hid, hcomp, e1, e2, e3, e4⟩ := addCols_ok q.windows q.cols q.cols {} p.cols (fun _ h => h) hq.wins
    (fun _ _ _ h => by simp at h) (by simpa using hq.names) hcols
  simp only [List.nil_append] at e1 e2
  obtain ⟨h1, h2⟩ := hcomp.same hc
  have hstage : ∀ kept : List Row, ∀ o ∈ (stage1 py calls le p.cols.schema kept).map (stage2 py calls p.cols), o.map (·.1) = q.cols.map (·.1) := by
    intro kept o ho
    obtain ⟨o', ho', rfl⟩ := List.mem_map.1 ho
    rw [stage2, e2, h2, if_pos rfl, ← h1, ← e1]
    obtain ⟨i, hi⟩ := List.getElem?_of_mem ho'
    rw [stage1, List.getElem?_mapIdx, Option.map_eq_some_iff] at hi
    obtain ⟨r, _, rfl⟩ := hi
    rw [List.map_map]
    rfl
  have hproc : ∀ read : List Row, ∀ o ∈ winProcessed py calls le p read, o.map (·.1) = q.cols.map (·.1) := by
    intro read o ho
    refine hstage (read.filter (passes py calls p.predicate)) o ?_
    simp only [winProcessed] at ho
    cases hs : p.sort with
    | none => rw [hs] at ho; exact (List.mem_filter.1 ho).1
    | some s => rw [hs] at ho; exact (List.mem_filter.1 ((perm_isort _ _).mem_iff.1 ho)).1
  intro o ho
  rw [win_run_eq, Limit.run] at ho
  revert ho
  cases p.limit.slice with
  | none => exact hproc _ o
  | some se => exact fun ho => hproc _ o (mem_pySlice se.1 se.2 _ _ ho)

/-- **C65 is violated by ORDER BY the alias of an expression of window functions**: such a query is refused, whatever the rest of it. -/
theorem C65_order_by_expr_refused (q : WinSelect.Query S) (hq : WinQueryOk q) (n : Str) (d : Bool)
    (hn : (Order.Item.col none n, d) ∈ q.order) (ws : List (Str × Win S)) (e : E) (hc : (n, WinSelect.Item.calc ws e) ∈ q.cols) :
    WinSelect.compileSelect q = none := by
  cases hp : WinSelect.compileSelect q with
  | none => rfl
  | some p =>
    obtain ⟨hcols, _, _, _, hord, _⟩ := win_compile_eq q p hp
    obtain ⟨sch, fin, hid, hcomp, e1, e2, e3, e4⟩ := addCols_ok q.windows q.cols q.cols {} p.cols (fun _ h => h) hq.wins
      (fun _ _ _ h => by simp at h) (by simpa using hq.names) hcols
    simp only [List.nil_append] at e1 e2 e4
    have hw : n ∈ p.cols.windows := by rw [e4]; exact List.mem_map.2 ⟨_, List.mem_filter.2 ⟨hc, rfl⟩, rfl⟩
    have hm : n ∈ p.cols.schema.map (·.1) := order_refused _ _ _ hord _ hn (by simp only [prim, isPrimary, if_pos hw])
    have hf : n ∈ fin.map (·.1) := List.mem_map.2 ⟨_, (hcomp.mem_calc n ws e hc).1, rfl⟩
    have := (List.nodup_append.1 (hcomp.names.nodup_iff.2 hq.names)).2.2
    rw [e1] at hm
    exact absurd rfl (this n hm n hf)

/-- **C65 is violated by HAVING on the alias of an expression of window functions**: such a query is refused.  (`havingCols`: not in the
list of an IN or the bounds of a BETWEEN, which are not looked at.) -/
theorem C65_having_expr_refused (q : WinSelect.Query S) (hq : WinQueryOk q) (n : Str) (hv : E) (hh : q.having = some hv) (hn : n ∈ havingCols hv)
    (ws : List (Str × Win S)) (e : E) (hc : (n, WinSelect.Item.calc ws e) ∈ q.cols) : WinSelect.compileSelect q = none := by
  cases hp : WinSelect.compileSelect q with
  | none => rfl
  | some p =>
    obtain ⟨hcols, _, _, hi, _, _⟩ := win_compile_eq q p hp
    obtain ⟨sch, fin, hid, hcomp, e1, e2, e3, e4⟩ := addCols_ok q.windows q.cols q.cols {} p.cols (fun _ h => h) hq.wins
      (fun _ _ _ h => by simp at h) (by simpa using hq.names) hcols
    simp only [List.nil_append] at e1 e2 e4
    rw [hh, compileIntercept] at hi
    split at hi
    · rename_i hall
      rw [List.all_eq_true] at hall
      have hm : n ∈ p.cols.schema.map (·.1) := by simpa using hall n hn
      have hf : n ∈ fin.map (·.1) := List.mem_map.2 ⟨_, (hcomp.mem_calc n ws e hc).1, rfl⟩
      have := (List.nodup_append.1 (hcomp.names.nodup_iff.2 hq.names)).2.2
      rw [e1] at hm
      exact absurd rfl (this n hm n hf)
    · cases hi

/-- The rows of a result, when nothing is filtered, sorted or cut. -/
theorem winResult_rows (le : Val → Val → Bool) (q : WinSelect.Query S) (rows : List Row) (result : List Out) (hc : q.cond = none)
    (hh : q.having = none) (ho : q.order = []) (hl : q.limit = none) (hof : q.offset = 0)
    (h : WinResult text py.cmp calls le q rows result) (i : Nat) (r : Row) (o : Out) (hr : rows[i]? = some r) (hres : result[i]? = some o) :
    IsRow text py.cmp calls le q rows i r o := by
  obtain ⟨rows', outs, sorted, _, hrows, hlen, hrow, hs, rfl⟩ := h
  have hrows := hrows ho
  rw [hc] at hrows
  have hall : ∀ {α : Type} (p : α → Bool) (l : List α), (∀ a, p a = true) → l.filter p = l :=
    fun p l h => List.filter_eq_self.2 fun a _ => h a
  rw [hall _ _ (by intro; rfl)] at hrows
  subst hrows
  have hst := hs.stable (fun _ => true) (fun a b _ _ => by rw [ho]; simp [Le])
  rw [hh] at hst
  rw [hall (fun _ => true) sorted fun _ => rfl, hall (fun _ => true) _ fun _ => rfl, hall _ _ (by intro; rfl)] at hst
  have hi : i < rows'.length := (List.getElem?_eq_some_iff.1 hr).1
  refine hrow i r o hr ?_
  rw [hl, hof, pageOf, List.drop_zero, hst] at hres
  have hfm : ((List.range rows'.length).filterMap fun i => outs[i]?) = outs := by
    rw [← hlen]
    have : ∀ l : List Nat, (∀ i ∈ l, i < outs.length) → (l.filterMap fun i => outs[i]?) = l.map fun i => outs[i]?.getD [] := by
      intro l hl'
      induction l with
      | nil => rfl
      | cons i l ih =>
        have := hl' i (by simp)
        rw [List.filterMap_cons, List.getElem?_eq_getElem this, List.map_cons, ih fun j hj => hl' j (by simp [hj])]
        simp [this]
    rw [this _ fun i hi => List.mem_range.1 hi]
    apply List.ext_getElem?
    intro i
    by_cases hi' : i < outs.length
    · simp [hi']
    · simp [hi']
  rw [hfm] at hres
  exact hres

end

section
variable (text : Str → Bool) (py : Py) (calls : Str → List Val → Val)

/-- The states of COUNT. -/
abbrev CountS := Option (Option Int)

/-- `SELECT a, b, COUNT(b) OVER w AS n, IFNULL(ROW_NUMBER() OVER (ORDER BY b), a) AS x FROM t WHERE b > 1
WINDOW w AS (PARTITION BY a ORDER BY b) ORDER BY b DESC LIMIT 2`. -/
def q65 : WinSelect.Query CountS :=
  { cols := [(['a'], .expr (.col ['a'])), (['b'], .expr (.col ['b'])), (['n'], .win ⟨.agg countAggr, .named ['w'], .exprs [.col ['b']]⟩),
      (['x'], .calc [(['h'], ⟨rowNumberFn, .inline ⟨[], [(.bare ['b'], false)]⟩, .exprs []⟩)] (.ifnull (.col ['h']) (.col ['a'])))],
    windows := [(['w'], ⟨[.bare ['a']], [(.bare ['b'], false)]⟩)],
    cond := some (.cmp .gt (.col ['b']) (.lit (.int 1))), order := [(.col none ['b'], true)], limit := some 2, table := ['t'],
    columns := [['a'], ['b']] }

theorem q65_ok : WinQueryOk q65 := by
  have hplain : ∀ n : Str, n = ['a'] ∨ n = ['b'] → Plain q65.cols n := by
    intro n hn c hc
    simp only [q65, List.mem_cons, List.not_mem_nil, or_false] at hc
    rcases hn with rfl | rfl <;> rcases hc with rfl | rfl | rfl | rfl <;> simp [hiddenOf]
  refine ⟨by decide, ?_, ?_, ?_, ?_⟩
  · intro c hc w hw
    simp only [q65, List.mem_cons, List.not_mem_nil, or_false] at hc
    rcases hc with rfl | rfl | rfl | rfl
    · simp [winsOf] at hw
    · simp [winsOf] at hw
    · simp only [winsOf, List.mem_singleton] at hw
      subst hw
      refine ⟨?_, ?_⟩
      · intro o ho k hk
        simp only [windowOf, q65, List.mem_singleton, Prod.mk.injEq, true_and] at ho
        subst ho
        simp at hk
        rcases hk with rfl | rfl
        · exact ⟨rfl, fun n h => by cases h; exact hplain _ (Or.inl rfl)⟩
        · exact ⟨rfl, fun n h => by cases h; exact hplain _ (Or.inr rfl)⟩
      · intro l h e he
        cases h
        simp only [List.mem_singleton] at he
        subst he
        rfl
    · simp [winsOf] at hw
      subst hw
      refine ⟨?_, ?_⟩
      · intro o ho k hk
        simp only [windowOf] at ho
        subst ho
        simp at hk
        subst hk
        exact ⟨rfl, fun n h => by cases h; exact hplain _ (Or.inr rfl)⟩
      · intro l h e he
        cases h
        simp at he
  · intro n e h
    simp [q65] at h
    rcases h with ⟨_, rfl⟩ | ⟨_, rfl⟩ <;> rfl
  · intro n ws e h
    simp [q65] at h
    obtain ⟨_, rfl, rfl⟩ := h
    refine ⟨rfl, ?_⟩
    intro c hc
    simp [colsE] at hc
    rcases hc with rfl | rfl
    · left; simp
    · right; simp [q65]
  · intro t n d h c hc
    simp only [q65, List.mem_singleton, Prod.mk.injEq, Order.Item.col.injEq] at h
    simp only [q65, List.mem_cons, List.not_mem_nil, or_false] at hc
    obtain ⟨⟨_, rfl⟩, _⟩ := h
    rcases hc with rfl | rfl | rfl | rfl <;> simp [hiddenOf]

/-- C65 on `q65`: of the rows with `b > 1` the two with the largest `b`, with their numbers in their partitions and in all. -/
example :
    let rows := [selRow 1 5, selRow 2 7, selRow 9 0, selRow 1 4]
    ∃ p, WinSelect.compileSelect q65 = some p ∧
      WinResult text py.cmp calls rankLe q65 rows (WinSelect.run py calls (idealSrc py) rankLe p rows) ∧
      WinSelect.run py calls (idealSrc py) rankLe p rows =
        [[(['a'], .int 2), (['b'], .int 7), (['n'], .int 1), (['x'], .int 3)],
         [(['a'], .int 1), (['b'], .int 5), (['n'], .int 2), (['x'], .int 2)]] := by
  refine ⟨_, rfl, ?_, rfl⟩
  apply C65_window_partial text py calls (idealSrc py) rankLe rankLe_total rankLe_trans (idealSrc_faithful py) q65 _ rfl q65_ok
  · exact ⟨_, by simp only [q65]; exact List.mem_cons_of_mem _ (List.mem_cons_of_mem _ (List.mem_cons_self)), rfl⟩
  · decide
  · refine whereOk_b text py calls _ (asSelect q65) rfl _ ?_
    intro r hr
    simp only [List.mem_cons, List.not_mem_nil, or_false] at hr
    rcases hr with rfl | rfl | rfl | rfl <;> exact ⟨_, _, rfl⟩
  · intro e he; cases he
  · refine ⟨?_, ?_⟩
    · intro t n d h; simp [q65] at h
    · intro n d h _ _ _ _
      simp only [q65, List.mem_singleton, Prod.mk.injEq, Order.Item.col.injEq, true_and] at h
      rw [h.1]; simp [q65]
  · intro c hc w hw A hA o ho
    simp only [q65, List.mem_cons, List.not_mem_nil, or_false] at hc
    rcases hc with rfl | rfl | rfl | rfl
    · simp [winsOf] at hw
    · simp [winsOf] at hw
    · simp only [winsOf, List.mem_singleton] at hw
      subst hw
      simp only [windowOf, q65, List.mem_singleton, Prod.mk.injEq, true_and] at ho
      subst ho
      right
      have hne : ∀ a b a' b' : Int, b ≠ b' → ¬ Peers text calls py.cmp rankLe ⟨[.bare ['a']], [(.bare ['b'], false)]⟩ (selRow a b) (selRow a' b') := by
        intro a b a' b' hb h
        have := h.2 (.bare ['b'], false) (by simp)
        have h1 : decide (b ≤ b') = true := this.1
        have h2 : decide (b' ≤ b) = true := this.2
        rw [decide_eq_true_eq] at h1 h2
        exact hb (Int.le_antisymm h1 h2)
      simp only [List.pairwise_cons, List.mem_cons, List.not_mem_nil, or_false, forall_eq_or_imp, forall_eq]
      refine ⟨⟨hne _ _ _ _ (by decide), hne _ _ _ _ (by decide), hne _ _ _ _ (by decide)⟩, ⟨hne _ _ _ _ (by decide), hne _ _ _ _ (by decide)⟩,
        hne _ _ _ _ (by decide), ?_⟩
      exact ⟨by simp, List.Pairwise.nil⟩
    · simp [winsOf] at hw
      subst hw
      cases hA

/-- `SELECT COUNT(b) OVER (ORDER BY a) AS n FROM t`. -/
def qPeers : WinSelect.Query CountS :=
  { cols := [(['n'], .win ⟨.agg countAggr, .inline ⟨[], [(.bare ['a'], false)]⟩, .exprs [.col ['b']]⟩)], table := ['t'], columns := [['b']] }

/-- **C65 is violated by peers**: in `qPeers` the rows are counted one by one; of two rows with the same `a` the first counts 1, though
SQL's frame goes up to the last peer. -/
theorem C65_peers_violated :
    let rows := [selRow 1 5, selRow 1 6]
    ∃ p, WinSelect.compileSelect qPeers = some p ∧
      WinSelect.run py calls (idealSrc py) rankLe p rows = [[(['n'], .int 1)], [(['n'], .int 2)]] ∧
      ¬ WinResult text py.cmp calls rankLe qPeers rows (WinSelect.run py calls (idealSrc py) rankLe p rows) := by
  refine ⟨_, rfl, rfl, ?_⟩
  intro h
  have := (winResult_rows text py calls _ _ _ _ rfl rfl rfl rfl rfl h 0 (selRow 1 5) [(['n'], .int 1)] rfl rfl).values _ (List.mem_cons_self)
  obtain ⟨o, part, pos, ho, hs, _, hv⟩ := this
  simp only [windowOf] at ho
  subst ho
  obtain ⟨frame, hf, hiff, hv⟩ := hv
  have htie : ∀ i j : Nat, i < 2 → j < 2 → Le rankLe (windowKeys text py.cmp calls ⟨[], [(.bare ['a'], false)]⟩ [selRow 1 5, selRow 1 6]) i j := by
    intro i j hi hj
    have hi' : i = 0 ∨ i = 1 := by omega
    have hj' : j = 0 ∨ j = 1 := by omega
    rcases hi' with rfl | rfl <;> rcases hj' with rfl | rfl <;> exact Or.inr ⟨rfl, rfl, trivial⟩
  have hp : partition text py.cmp calls ⟨[], [(.bare ['a'], false)]⟩ [selRow 1 5, selRow 1 6] 0 = [0, 1] := rfl
  rw [hp] at hs
  have hst := hs.stable (fun i => decide (i < 2)) (fun a b ha hb => htie a b (by simpa using ha) (by simpa using hb))
  have hmem : ∀ j ∈ part, j < 2 := by
    intro j hj
    have := hs.perm.mem_iff.1 hj
    simp at this
    omega
  rw [List.filter_eq_self.2 (fun j hj => by simpa using hmem j hj)] at hst
  have hpart : part = [0, 1] := hst
  subst hpart
  have h0 : 0 ∈ frame := (hiff 0 (by simp)).2 (htie 0 0 (by omega) (by omega))
  have h1 : 1 ∈ frame := (hiff 1 (by simp)).2 (htie 1 0 (by omega) (by omega))
  have : frame = [0, 1] := by
    cases hf with
    | cons _ h =>
      have := h.subset h0
      simp at this
    | cons_cons _ h =>
      rename_i l
      cases h with
      | cons _ h => cases h; simp at h1
      | cons_cons _ h => cases h; rfl
  subst this
  exact absurd hv (by
    intro e
    have : (Val.int 1) = .int 2 := e
    cases this)

/-- `SELECT b AS a, COUNT(b) OVER (PARTITION BY a) AS n FROM t`. -/
def qHidden : WinSelect.Query CountS :=
  { cols := [(['a'], .expr (.col ['b'])), (['n'], .win ⟨.agg countAggr, .inline ⟨[.bare ['a']], []⟩, .exprs [.col ['b']]⟩)], table := ['t'],
    columns := [['b']] }

/-- **C65 is violated by an alias that hides a column in PARTITION BY**: `qHidden` is divided by `b`. -/
theorem C65_alias_violated :
    let rows := [selRow 1 5, selRow 2 5]
    ∃ p, WinSelect.compileSelect qHidden = some p ∧
      WinSelect.run py calls (idealSrc py) rankLe p rows = [[(['a'], .int 5), (['n'], .int 2)], [(['a'], .int 5), (['n'], .int 2)]] ∧
      ¬ WinResult text py.cmp calls rankLe qHidden rows (WinSelect.run py calls (idealSrc py) rankLe p rows) := by
  refine ⟨_, rfl, rfl, ?_⟩
  intro h
  have := (winResult_rows text py calls _ _ _ _ rfl rfl rfl rfl rfl h 0 (selRow 1 5) [(['a'], .int 5), (['n'], .int 2)] rfl rfl).values _
    (List.mem_cons_of_mem _ List.mem_cons_self)
  obtain ⟨o, part, pos, ho, hs, _, hv⟩ := this
  simp only [windowOf] at ho
  subst ho
  obtain ⟨frame, hf, hiff, hv⟩ := hv
  have hp : partition text py.cmp calls ⟨[.bare ['a']], []⟩ [selRow 1 5, selRow 2 5] 0 = [0] := rfl
  rw [hp] at hs
  have hpart := List.perm_singleton.1 hs.perm
  subst hpart
  have h0 : 0 ∈ frame := (hiff 0 (by simp)).2 trivial
  have hfr : frame = [0] := by
    cases hf with
    | cons _ h => cases h; cases h0
    | cons_cons _ h => cases h; rfl
  subst hfr
  exact absurd hv (by
    intro e
    have : (Val.int 2) = .int 1 := e
    cases this)

/-- `SELECT IFNULL(a, ROW_NUMBER() OVER ()) AS x FROM t`. -/
def qMixed : WinSelect.Query CountS :=
  { cols := [(['x'], .calc [(['h'], ⟨rowNumberFn, .inline ⟨[], []⟩, .exprs []⟩)] (.ifnull (.col ['a']) (.col ['h'])))], table := ['t'],
    columns := [['a']] }

/-- **C65 is violated by a column of the table in an expression of window functions**: unless it is in the select list under its own
name it is NULL there; `qMixed` gives the row's number though `a` is 7. -/
theorem C65_expr_column_violated :
    let rows := [selRow 7 0]
    ∃ p, WinSelect.compileSelect qMixed = some p ∧
      WinSelect.run py calls (idealSrc py) rankLe p rows = [[(['x'], .int 1)]] ∧
      ¬ WinResult text py.cmp calls rankLe qMixed rows (WinSelect.run py calls (idealSrc py) rankLe p rows) := by
  refine ⟨_, rfl, rfl, ?_⟩
  intro h
  have := (winResult_rows text py calls _ _ _ _ rfl rfl rfl rfl rfl h 0 (selRow 7 0) [(['x'], .int 1)] rfl rfl).values _ List.mem_cons_self
  obtain ⟨vs, _, _, hv⟩ := this
  have : (Val.int 1) = .int 7 := hv
  cases this

/-- `SELECT IFNULL(ROW_NUMBER() OVER (), 0) AS x, a FROM t`. -/
def qOrderOfColumns : WinSelect.Query CountS :=
  { cols := [(['x'], .calc [(['h'], ⟨rowNumberFn, .inline ⟨[], []⟩, .exprs []⟩)] (.ifnull (.col ['h']) (.lit (.int 0)))), (['a'], .expr (.col ['a']))],
    table := ['t'], columns := [['a']] }

/-- **C65 is violated in the order of the columns by expressions of window functions**, which come last. -/
theorem C65_column_order_violated :
    ∃ p, WinSelect.compileSelect qOrderOfColumns = some p ∧
      (WinSelect.run py calls (idealSrc py) rankLe p [selRow 7 0]).map (fun o => o.map (·.1)) = [[['a'], ['x']]] ∧
      qOrderOfColumns.cols.map (·.1) = [['x'], ['a']] := ⟨_, rfl, rfl, rfl⟩

end
end Verif.Props
