import Verif.Spec.JoinSelect
/-! SQL's meaning of `FROM a, b, …`: every combination of rows of the tables. -/
namespace Verif.SqlSelect
open Verif.Val Verif.Expr Verif.Sql Verif.Select

/-- The rows of `FROM primary, ts`. -/
def crossRows (primary : Join.Name) (db : Join.Name → List (Join.Row Val)) (ts : List Join.Name) (rows : List Row) : List Row :=
  rows.flatMap fun r => (SqlJoin.cross db ts (start primary r)).map (joinedRow primary)

end Verif.SqlSelect
