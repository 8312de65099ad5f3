import Verif.Model.Select
/-!
Model of what `Select` leaves out: a WHERE clause (or what is left of it after push-down) that is a bare column is looked up in the list
of result columns first (compiler.py:962-967 `compile_where_condition_column`).
-/
namespace Verif.Select
open Verif.Val Verif.Expr Verif.Where

variable {S : Type}

/-- compiler.py:962-968 and 985-989: the filter for the rest of a WHERE clause.  A result column that is an aggregate would be
evaluated in the filter: not modelled (`none`). -/
def whereColumn (schema : Schema S) : E → Option T
  | .col c => match get c schema with
    | some (.calc t) => some t
    | some (.agg _ _ _) => none
    | some (.last _ _) => none
    | none => some (compile (.col c))
  | e => some (compile e)

/-- compiler.py:386-584 with 962-967. -/
def compileSelectW (q : Query S) : Option (Plan S) :=
  (compileSelect q).bind fun p =>
    match q.cond with
    | none => some p
    | some e => match (split q.prim [] e).res with
      | none => some p
      | some r => (addCols q.group [] q.cols).bind fun schema => (whereColumn schema r).map fun t => { p with predicate := some t }

end Verif.Select
