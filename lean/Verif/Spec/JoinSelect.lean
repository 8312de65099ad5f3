import Verif.Model.JoinSelect
import Verif.Spec.Select
import Verif.Spec.Join
/-!
SQL's meaning of a SELECT with joins: the rows of the joins (`SqlJoin.rows`), and of these what a SELECT returns (`SqlSelect`).  A
row of the joins is a function of column names as they stand in expressions: `name` for the primary table, `table.name` for the others
(`JoinSelect.refOf`).
-/
namespace Verif.SqlSelect
open Verif.Val Verif.Expr Verif.Sql Verif.Select

variable {S : Type} (text : Str → Bool) (cmp : Cmp → Val → Val → Val) (calls : Str → List Val → Val)

/-- The columns of the tables whose rows are `e`. -/
def joinedRow (primary : Join.Name) (e : Join.Env Val) : Row := fun c =>
  e ((JoinSelect.refOf c).table.getD primary) (JoinSelect.refOf c).col

/-- Before the joins there is the row of the primary table only. -/
def start (primary : Join.Name) (r : Row) : Join.Env Val := fun n => if n = primary then (fun c => r c.toList) else fun _ => .null

/-- The rows of `FROM primary JOIN …`. -/
def joinedRows (o : Join.Ops Val) (primary : Join.Name) (db : Join.Name → List (Join.Row Val)) (joins : List (Join.Join Val))
    (rows : List Row) : List Row :=
  rows.flatMap fun r => (SqlJoin.rows .null o primary db joins (start primary r)).map (joinedRow primary)

/-- No row of the primary table is matched by two rows of a joined table. -/
def OneMatch (o : Join.Ops Val) (primary : Join.Name) (db : Join.Name → List (Join.Row Val)) (joins : List (Join.Join Val))
    (rows : List Row) : Prop :=
  ∀ r ∈ rows, ∀ before j after, joins = before ++ j :: after →
    ∀ e ∈ SqlJoin.rows .null o primary db before (start primary r), (SqlJoin.matching o primary db j e).length ≤ 1

/-- `result` is a result of the query without aggregates, GROUP BY and DISTINCT on the rows of the joins; as `RowResult`, where a
qualified name in ORDER BY is the column of that table. -/
def JoinRowResult (le : Val → Val → Bool) (q : Query S) (rows : List Row) (result : List Out) : Prop :=
  let out := fun r => project text cmp calls q.cols [r]
  ∃ sorted,
    SqlOrder.Sorted le (q.order.map fun i => (SqlOrder.value (q.cols.map (·.1)) q.table
        (fun t n (r : Row) => if t = q.table then r n else r (t ++ '.' :: n)) (fun n r => colVal n (out r)) i.1, i.2))
      (rows.filter fun r => satisfies text cmp calls q.cond r && satisfies text cmp calls q.having (fun n => colVal n (out r))) sorted ∧
    result = pageOf q.limit q.offset (sorted.map out)

end Verif.SqlSelect
