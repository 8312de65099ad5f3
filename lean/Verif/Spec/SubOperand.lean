import Verif.Spec.Sql
import Verif.Model.SubOperand
/-! SQL's meaning of conditions with subqueries that do not depend on the row; only the syntax is taken from the model. -/
namespace Verif.SubSpec
open Verif.Val Verif.Expr Verif.Sql Verif.SubOperand

/-- The values of the subquery's only column. -/
def vals (s : Sub) : List Val := s.rows.map fun r => r s.column

/-- A subquery as a value: NULL without rows (more than one row is an error). -/
def scalar (s : Sub) : Val := (vals s).headD .null

variable (text : Str → Bool) (cmp : Cmp → Val → Val → Val) (calls : Str → List Val → Val) (row : Str → Val)

/-- Truth of a condition. -/
def truth : S → Option Bool
  | .e x => tv text (sem text cmp calls row x)
  | .and a b => and3 (truth a) (truth b)
  | .or a b => or3 (truth a) (truth b)
  | .not a => not3 (truth a)
  | .paren a => truth a
  | .cmpSub op a s => tv text (cmp op (sem text cmp calls row a) (scalar s))
  | .subCmp op s a => tv text (cmp op (scalar s) (sem text cmp calls row a))
  | .inSub a s => in3 (fun v => tv text (cmp .eq (sem text cmp calls row a) v)) (vals s)
  | .exist s => some (decide (s.rows ≠ []))

end Verif.SubSpec
