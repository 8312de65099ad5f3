import Verif.Props.Tree
import Verif.Props.NestCases
import Verif.Props.JoinSelectCases
/-! An example for C155. -/
namespace Verif.Props.TreeCases
open Verif.Val Verif.Expr Verif.Sql Verif.Where Verif.Order Verif.SqlOrder Verif.Select Verif.SqlSelect Verif.Tree Verif.SqlTree
open Verif.Nest (Store append asRow)
open Verif.SqlNest (rowOfRecord QueryResult isAggregate)
open Verif.Props.Nested (LevelOk)
open Verif.Props.TreeLemmas
open Verif.WinSelect (WinQueryOk Plain hiddenOf winsOf)

section
variable (text : Str → Bool) (py : Py) (calls : Str → List Val → Val)

/-- `SELECT i, v FROM s`. -/
def subq : Query Empty := { cols := [(['i'], .expr (.col ['i'])), (['v'], .expr (.col ['v']))], table := ['s'], columns := [['i'], ['v']] }

/-- The number of the row. -/
def number : WinSelect.Fn Empty := .win fun _ i => .int (Window.rowNumber i)

/-- `SELECT a, v, ROW_NUMBER() OVER (ORDER BY a) AS n FROM …`. -/
def numbered : WinSelect.Query Empty :=
  { cols := [(['a'], .expr (.col ['a'])), (['v'], .expr (.col ['v'])), (['n'], .win ⟨number, .inline ⟨[], [(.bare ['a'], false)]⟩, .exprs []⟩)],
    table := ['x'], columns := [['a'], ['v']] }

/-- `SELECT a, v, ROW_NUMBER() OVER (ORDER BY a) AS n FROM (SELECT a, B.v AS v FROM t LEFT JOIN (SELECT i, v FROM s) B ON B.i = t.a
WHERE b > 1 ORDER BY B.v) x`. -/
def tree : Rel Empty :=
  .select (.windowed numbered)
    (.select (.joined JoinCases.joins JoinCases.q) (.scan ['t']) (.cons (.select (.plain subq) (.scan ['s']) .nil) .nil)) .nil

/-- A record of the joined table. -/
def iv (i v : Int) : Out := [(['i'], .int i), (['v'], .int v)]

/-- The tables. -/
def treeDb : Store := fun n =>
  if n = ['t'] then [ab 1 5, ab 3 2, ab 9 0, ab 2 4] else if n = ['s'] then [iv 1 7, iv 3 4] else []

theorem row_ab (a b : Int) : rowOfRecord (ab a b) = selRow a b := by
  funext c
  simp only [rowOfRecord, selRow, ab, colVal]
  by_cases h1 : baseName c = ['a']
  · rw [h1, if_pos rfl, if_pos rfl]
  · rw [if_neg (Ne.symm h1), if_neg h1]
    by_cases h2 : baseName c = ['b']
    · rw [h2, if_pos rfl]
    · rw [if_neg (Ne.symm h2), if_neg h2]

theorem row_iv (i v : Int) : (fun c : String => rowOfRecord (iv i v) c.toList) = JoinCases.brow i v := by
  funext c
  simp only [rowOfRecord, JoinCases.brow, iv, colVal]
  generalize baseName c.toList = n
  by_cases h1 : n = ['i']
  · rw [h1, if_pos rfl, if_pos rfl]
  · rw [if_neg (Ne.symm h1), if_neg h1]
    by_cases h2 : n = ['v']
    · rw [h2, if_pos rfl]
    · rw [if_neg (Ne.symm h2), if_neg h2]

theorem rows_t : (treeDb ['t']).map rowOfRecord = JoinCases.rows := by
  show [ab 1 5, ab 3 2, ab 9 0, ab 2 4].map rowOfRecord = _
  simp only [List.map_cons, List.map_nil, row_ab]
  rfl

/-- The joined subquery has one result. -/
theorem means_sub (rows : List Out) (h : Means text py.cmp calls rankLe JoinCases.ops treeDb (.select (.plain subq) (.scan ['s']) .nil) rows) :
    rows = [iv 1 7, iv 3 4] := by
  rw [Means] at h
  obtain ⟨r, _, hr, _, h⟩ := h
  rw [Means] at hr
  subst hr
  simp only [SelectResult, KindResult] at h
  unfold QueryResult at h
  rw [if_neg (by simp [subq, isAggregate]), if_neg (by decide)] at h
  obtain ⟨sorted, hs, rfl⟩ := h
  have h1 := hs.stable (fun _ => true) fun a b _ _ => by simp only [subq, List.map_nil, Le]
  rw [List.filter_eq_self.2 (fun _ _ => rfl), List.filter_eq_self.2 (fun _ _ => rfl)] at h1
  rw [h1]
  rfl

theorem joined_B (others : List (List Out)) (h : others = [[iv 1 7, iv 3 4]]) :
    joinedTable JoinCases.joins (others.map (·.map rowOfRecord)) = JoinCases.db := by
  subst h
  funext n
  simp only [JoinCases.joins, JoinCases.joinB, List.map_cons, List.map_nil, joinedTable, row_iv, JoinCases.db]
  by_cases hn : n = "B"
  · rw [if_pos hn, if_pos hn.symm]
  · rw [if_neg hn, if_neg (Ne.symm hn)]

theorem numbered_ok : WinQueryOk numbered := by
  have hplain : Plain numbered.cols ['a'] := by
    intro c hc
    simp only [numbered, List.mem_cons, List.not_mem_nil, or_false] at hc
    rcases hc with rfl | rfl | rfl <;> simp [hiddenOf]
  refine ⟨by decide, ?_, ?_, ?_, ?_⟩
  · intro c hc w hw
    simp only [numbered, List.mem_cons, List.not_mem_nil, or_false] at hc
    rcases hc with rfl | rfl | rfl
    · simp [winsOf] at hw
    · simp [winsOf] at hw
    · simp only [winsOf, List.mem_singleton] at hw
      subst hw
      refine ⟨?_, ?_⟩
      · intro o ho k hk
        simp only [SqlWindow.windowOf] at ho
        subst ho
        simp at hk
        subst hk
        exact ⟨rfl, fun n h => by cases h; exact hplain⟩
      · intro l h e he
        cases h
        simp at he
  · intro n e h
    simp [numbered] at h
    rcases h with ⟨_, rfl⟩ | ⟨_, rfl⟩ <;> rfl
  · intro n ws e h
    simp [numbered] at h
  · intro t n d h
    simp [numbered] at h

theorem level_sub (p : Plan Empty) (rows : List Out) : LevelOk text py calls subq p (rows.map rowOfRecord) where
  names := by decide
  limit := by decide
  cond := whereOk_none text py calls _ subq rfl rows
  having := by intro e he; cases he
  kind := by
    left
    refine ⟨rfl, rfl, ?_, ⟨by intro t n d h; simp [subq] at h, by intro n d h; simp [subq] at h⟩⟩
    intro c hc
    simp only [subq, List.mem_cons, List.not_mem_nil, or_false] at hc
    rcases hc with rfl | rfl <;> exact ⟨_, rfl, rfl⟩

theorem level_join (p : JoinSelect.Plan (Join.C Val) Empty) :
    JoinLevelOk text py calls JoinCases.ops JoinCases.joins JoinCases.joins JoinCases.q p JoinCases.db JoinCases.rows where
  shape := Or.inl ⟨JoinCases.joinsOk, rfl⟩
  one := JoinCases.one
  names := by decide
  limit := by decide
  cond := JoinCases.whereOk text py calls JoinCases.q rfl
  having := by intro e he; cases he
  kind := by
    left
    refine ⟨rfl, rfl, ?_, ⟨?_, ?_, ?_, ?_⟩⟩
    · intro c hc
      simp only [JoinCases.q, List.mem_cons, List.not_mem_nil, or_false] at hc
      rcases hc with rfl | rfl <;> exact ⟨_, rfl, rfl⟩
    · intro t n d h
      simp only [JoinCases.q, List.mem_singleton, Prod.mk.injEq, Order.Item.col.injEq] at h
      rw [h.1.2]; decide
    · intro n d h
      simp [JoinCases.q] at h
    · intro t n d h _
      simp only [JoinCases.q, List.mem_singleton, Prod.mk.injEq, Order.Item.col.injEq, Option.some.injEq] at h
      rw [h.1.1, h.1.2]
      simp [JoinCases.q]
    · intro n d h
      simp [JoinCases.q] at h

theorem level_win (en : Engine) (rows : List Out) : WinLevelOk text py calls en numbered (rows.map rowOfRecord) where
  query := numbered_ok
  win := ⟨(['n'], .win ⟨number, .inline ⟨[], [(.bare ['a'], false)]⟩, .exprs []⟩), by simp [numbered], rfl⟩
  limit := by decide
  cond := whereOk_none text py calls _ (asSelect numbered) rfl rows
  having := by intro e he; cases he
  order := ⟨by intro t n d h; simp [numbered] at h, by intro n d h; simp [numbered] at h⟩
  ties := by
    intro c hc w hw A hA
    simp only [numbered, List.mem_cons, List.not_mem_nil, or_false] at hc
    rcases hc with rfl | rfl | rfl
    · simp [winsOf] at hw
    · simp [winsOf] at hw
    · simp only [winsOf, List.mem_singleton] at hw
      subst hw
      cases hA

/-- The result of the middle SELECT. -/
def av (a : Int) (v : Val) : Out := [(['a'], .int a), (['v'], v)]

theorem exec_sub : exec py calls JoinCases.ops id 5 (oneBatch py) treeDb (.select (.plain subq) (.scan ['s']) .nil) =
    some (treeDb, [⟨[(['i'], field ['i']), (['v'], field ['v'])], [iv 1 7, iv 3 4]⟩]) := rfl

theorem run_join (rows : List Row) (others : List (List Row)) (hr : rows = JoinCases.rows)
    (ho : joinedTable JoinCases.joins others = JoinCases.db) :
    runKind py calls JoinCases.ops id 5 (oneBatch py) rows others (.joined JoinCases.joins JoinCases.q)
      = some [av 2 .null, av 3 (.int 4), av 1 (.int 7)] := by
  rw [runKind, tables_eq, ho, hr]
  rfl

theorem exec_join : exec py calls JoinCases.ops id 5 (oneBatch py) treeDb
    (.select (.joined JoinCases.joins JoinCases.q) (.scan ['t']) (.cons (.select (.plain subq) (.scan ['s']) .nil) .nil)) =
    some (treeDb, [⟨[(['a'], field ['a']), (['v'], field ['v'])], [av 2 .null, av 3 (.int 4), av 1 (.int 7)]⟩]) := by
  rw [exec, exec, Option.bind_some, execs, exec_sub, Option.bind_some, execs, Option.map_some, Option.bind_some, if_pos (by decide)]
  simp only [Kind.fill]
  rw [run_join py calls _ _ (by rw [rows_eq, collect]; exact rows_t) (by
    rw [others_eq]; exact joined_B _ rfl)]
  rfl

theorem tree_result : Tree.result py calls JoinCases.ops id 5 (oneBatch py) treeDb tree =
    some [av 2 .null ++ [(['n'], .int 2)], av 3 (.int 4) ++ [(['n'], .int 3)], av 1 (.int 7) ++ [(['n'], .int 1)]] := by
  rw [Tree.result, tree, exec, exec_join, Option.bind_some, execs, Option.bind_some, if_pos (by decide)]
  rfl

/-- C155 on `tree`. -/
example : ∃ out, Tree.result py calls JoinCases.ops id 5 (oneBatch py) treeDb tree = some out ∧
    Means text py.cmp calls rankLe JoinCases.ops treeDb tree out ∧
    out = [av 2 .null ++ [(['n'], .int 2)], av 3 (.int 4) ++ [(['n'], .int 3)], av 1 (.int 7) ++ [(['n'], .int 1)]] := by
  refine ⟨_, tree_result py calls, ?_, rfl⟩
  apply C155_statement_partial text py calls JoinCases.ops id 5 JoinCases.opsSym (fun l => List.Perm.refl l) (oneBatch py) rankLe_total
    rankLe_trans (idealSrc_faithful py) ?_ tree treeDb _ (tree_result py calls)
  · simp [tree, SqlTree.Scoped, Scopeds, Apart, bound, bounds, free, frees]
  · simp [tree, Aligned, Aligneds]
  · simp only [tree, Ok, Oks, true_and, and_true]
    refine ⟨⟨fun rows others _ _ p _ => level_sub text py calls p rows, ?_⟩, fun rows others _ _ => level_win text py calls _ rows⟩
    intro rows others h1 h2 p _
    rw [Means] at h1
    rw [MeansAll] at h2
    obtain ⟨out, rest, h2, h3, rfl⟩ := h2
    rw [MeansAll] at h3
    subst h3
    rw [means_sub text py calls out h2, joined_B _ rfl, h1, rows_t]
    exact ⟨_, level_join text py calls p⟩
  · intro n hn
    simp [tree, bound, bounds] at hn
  · intro l
    simp [oneBatch]

end
end Verif.Props.TreeCases
