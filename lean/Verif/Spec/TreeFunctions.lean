import Verif.Spec.Functions
import Verif.Spec.Tree
/-! When a statement with joins, window functions and subqueries uses the functions where `SqlFunctions.Std` says what they are. -/
namespace Verif.SqlFunctions
open Verif.Val Verif.Text Verif.Expr Verif.Sql Verif.Select Verif.SqlSelect

variable {S : Type} (same : Char → Char → Bool) (text : Str → Bool) (cmp : Cmp → Val → Val → Val) (sql : Str → List Val → Val)
  (le : Val → Val → Bool) (o : Join.Ops Val)

/-- The window function stands in the select list: as a column or in the calculation of one. -/
inductive WinOf (q : WinSelect.Query S) (w : WinSelect.Win S) : Prop where
  | column {n} (h : (n, WinSelect.Item.win w) ∈ q.cols) : WinOf q w
  | part {n ws e k} (h : (n, WinSelect.Item.calc ws e) ∈ q.cols) (hw : (k, w) ∈ ws) : WinOf q w

/-- The expressions of a window function: its arguments, PARTITION BY and ORDER BY. -/
inductive ExprOfWin (q : WinSelect.Query S) (w : WinSelect.Win S) : E → Prop where
  | arg {l e} (h : w.args = .exprs l) (he : e ∈ l) : ExprOfWin q w e
  | part {ov e} (h : SqlWindow.windowOf q.windows w ov) (he : GKey.expr e ∈ ov.part) : ExprOfWin q w e
  | order {ov e d} (h : SqlWindow.windowOf q.windows w ov) (he : (GKey.expr e, d) ∈ ov.order) : ExprOfWin q w e

/-- As `QueryWithin`, for a query with window functions: calculations with their values are done on these, HAVING on the result
rows. -/
structure WinWithin (q : WinSelect.Query S) (rows : List Row) : Prop where
  cond : ∀ e ∈ q.cond, ∀ r ∈ rows, Within same text cmp sql r e
  column : ∀ n e, (n, WinSelect.Item.expr e) ∈ q.cols → ∀ r ∈ rows, Within same text cmp sql r e
  window : ∀ w, WinOf q w → ∀ e, ExprOfWin q w e → ∀ r ∈ rows, Within same text cmp sql r e
  calculation : ∀ n ws e, (n, WinSelect.Item.calc ws e) ∈ q.cols → ∀ (rows' : List Row) (i : Nat) r (vs : List (Str × Val)),
    (∀ r ∈ rows', r ∈ rows) → rows'[i]? = some r → vs.map (·.1) = ws.map (·.1) →
    (∀ p ∈ List.zip ws vs, SqlWindow.WindowValue text cmp sql le q.windows p.1.2 rows' i p.2.2) →
    Within same text cmp sql (fun n => if n ∈ ws.map (·.1) then colVal n vs else r n) e
  having : ∀ e ∈ q.having, ∀ (rows' : List Row) (i : Nat) r out, (∀ r ∈ rows', r ∈ rows) → rows'[i]? = some r →
    SqlWindow.IsRow text cmp sql le q rows' i r out → Within same text cmp sql (fun n => colVal n out) e

/-- The SELECT uses the functions there, on the rows of its joins. -/
def KindWithin (rows : List Row) (others : List (List Row)) : Tree.Kind S → Prop
  | .plain q => QueryWithin same text cmp sql q rows
  | .joined joins q =>
      QueryWithin same text cmp sql q (joinedRows o (String.ofList q.table) (SqlTree.joinedTable joins others) joins rows)
  | .comma ts w q =>
      QueryWithin same text cmp sql { q with cond := JoinSelect.whereE (String.ofList q.table) w }
        (crossRows (String.ofList q.table) (SqlTree.listedTable ts others) ts rows)
  | .windowed q => WinWithin same text cmp sql le q rows
  | .sub _ _ => True
  | .hav _ _ => True

/-- The SELECT with the results of its subqueries in their places. -/
def filled (heads : List (List Str)) (others : List (List Row)) : Tree.Kind S → Tree.Kind S
  | .hav h k => SqlTree.havingThis
      (SqlTree.givenHaving (fun i => SqlTree.firstColumn heads others (k.joins.length + k.subs + i)) h) (SqlTree.placed heads others k)
  | k => SqlTree.placed heads others k

mutual
/-- Every SELECT of the statement does. -/
def TreeWithin (env : Str → List Out) : Tree.Rel S → Prop
  | .scan _ => True
  | .select k src more => TreeWithin env src ∧ TreesWithin env more ∧
      ∀ rows others, SqlTree.Means text cmp sql le o env src rows → SqlTree.MeansAll text cmp sql le o env more others →
        KindWithin same text cmp sql le o (rows.map SqlNest.rowOfRecord) (others.map (·.map SqlNest.rowOfRecord))
          (filled (SqlTree.headers more) (others.map (·.map SqlNest.rowOfRecord)) k)
  | .union l r => TreeWithin env l ∧ TreeWithin env r
  | .withq n d b => TreeWithin env d ∧
      ∀ rows, SqlTree.Means text cmp sql le o env d rows → TreeWithin (fun m => if m = n then rows else env m) b
/-- Every member of the list does. -/
def TreesWithin (env : Str → List Out) : Tree.Rels S → Prop
  | .nil => True
  | .cons e l => TreeWithin env e ∧ TreesWithin env l
end

end Verif.SqlFunctions
