import Verif.Model.CorrSub
import Verif.Spec.Correlated
/-! SQL's meaning of a correlated subquery with DISTINCT, GROUP BY, HAVING and ORDER BY: all of it for one outer row. -/
namespace Verif.SqlCorrelated
open Verif.Join (Name Ref X)
open Verif.Correlated (Env Cond Body)

variable {V : Type}

/-- The rows (of the subquery, for an outer row) in groups with equal values of the GROUP BY expressions, in the order of their first rows. -/
def grouped [DecidableEq V] (cur : List Name) (outer : Env V) (gs : List (X V)) (rows : List (Env V)) : List (List (Env V)) :=
  (rows.map fun row => gs.map (value (resolve cur row outer))).eraseDups.map fun k => rows.filter fun row => gs.map (value (resolve cur row outer)) = k

/-- The groups: single rows if there is neither GROUP BY nor an aggregate, all rows (even none) with an aggregate and no GROUP BY. -/
def groups [DecidableEq V] (cur : List Name) (outer : Env V) (b : Body V) (rows : List (Env V)) : List (List (Env V)) :=
  match b.group with
  | none => rows.map fun row => [row]
  | some [] => [rows]
  | some gs => grouped cur outer gs rows

/-- HAVING, then ORDER BY. -/
def ordered (b : Body V) (l : List (List (Env V))) : List (List (Env V)) :=
  match b.before with
  | none => l.filter b.having
  | some le => Order.isort le (l.filter b.having)

/-- The values of the subquery, of the rows that satisfy its WHERE. -/
def values [DecidableEq V] (cur : List Name) (outer : Env V) (b : Body V) (rows : List (Env V)) : List V :=
  let vs := (ordered b (groups cur outer b rows)).map b.value
  if b.distinct then vs.eraseDups else vs

end Verif.SqlCorrelated
