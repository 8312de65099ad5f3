import Verif.Model.AggExpr
import Verif.Spec.Sql
/-! SQL's value of an expression around aggregates. -/
namespace Verif.SqlAggExpr
open Verif.Val Verif.Expr Verif.Select Verif.AggExpr Verif.Sql

/-- SQL's value of an expression around aggregates for a group: an aggregate is its value over the group, a column of the table its
value in the rows of the group (they agree on the columns of GROUP BY; the first row is taken). -/
def value (text : Str → Bool) (cmp : Cmp → Val → Val → Val) (calls : Str → List Val → Val) (m : Mixed) (rows : List Row) : Val :=
  sem text cmp calls (fun n => match get n m.slots with
    | some f => f rows
    | none => (rows.head?.map fun r => r n).getD .null) m.e

end Verif.SqlAggExpr
