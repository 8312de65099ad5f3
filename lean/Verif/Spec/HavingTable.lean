import Verif.Spec.JoinSelect
/-! SQL's meaning of HAVING with tables: a column written with its table is the column of that table. -/
namespace Verif.SqlSelect
open Verif.Val Verif.Expr Verif.Sql Verif.Select

variable {S : Type} (text : Str → Bool) (cmp : Cmp → Val → Val → Val) (calls : Str → List Val → Val)

/-- The columns HAVING sees: result columns, and those of the joined tables where a table is written. -/
def havingEnv (out : Out) (r : Row) : Row := fun c => if (JoinSelect.refOf c).table = none then colVal c out else r c

/-- As `JoinRowResult`, with tables in HAVING. -/
def JoinHavingResult (le : Val → Val → Bool) (q : Query S) (rows : List Row) (result : List Out) : Prop :=
  let out := fun r => project text cmp calls q.cols [r]
  ∃ sorted,
    SqlOrder.Sorted le (q.order.map fun i => (SqlOrder.value (q.cols.map (·.1)) q.table
        (fun t n (r : Row) => if t = q.table then r n else r (t ++ '.' :: n)) (fun n r => colVal n (out r)) i.1, i.2))
      (rows.filter fun r => satisfies text cmp calls q.cond r && satisfies text cmp calls q.having (havingEnv (out r) r)) sorted ∧
    result = pageOf q.limit q.offset (sorted.map out)

/-- The columns with tables in HAVING. -/
def QualifiedIn (e : E) (c : Str) : Prop := c ∈ colsE e ∧ (JoinSelect.refOf c).table ≠ none

end Verif.SqlSelect
