import Verif.Model.Select
/-!
Model of expressions around aggregates, such as `a + SUM(b) * 2`: compiler.py:1207-1240 (the second branch of
`compile_aggregate_column`) and taskers/query.py:304-338, 340-359 (`compile_reduce_config`, `run_reduce(…, True)`).

Each aggregate of the expression is replaced by a reference to its own value (1217-1219); what is left is compiled like a column
(1220-1221) but is evaluated (query.py:346-347, the `final_value`) on the row the groups were reduced to, whose fields are the
columns of the select list, not those of the table.
-/
namespace Verif.AggExpr
open Verif.Val Verif.Expr Verif.Select

/-- A column of the select list: an expression of the table's columns; or one made from aggregates, of which the reduced row holds
`state rows` (the running value: final for COUNT, SUM, MIN, MAX; a dictionary for AVG and others, then not a value and not
modelled). -/
inductive SelCol where
  | calc (t : T)
  | agg (state : List Row → Val)

/-- query.py:326-338, 348-349: a field of the reduced row of the group `rows`: the value of the first row (`Select.groupRow`), NULL if there is
no such field. -/
def reduced (py : Py) (calls : Str → List Val → Val) (sel : List (Str × SelCol)) (rows : List Row) (n : Str) : Val :=
  match get n sel with
  | none => .null
  | some (.calc t) => (rows.head?.map fun r => eval py calls r t).getD .null
  | some (.agg st) => st rows

/-- An expression around aggregates: `e` with a name of its own (`value_<id>`, compiler.py:1209) for each aggregate, and what the
aggregates compute from the rows of a group. -/
structure Mixed where
  e : E
  slots : List (Str × (List Row → Val))

/-- The references of the final expression: aggregates by their names (1217-1219), the rest in the reduced row. -/
def finalRow (py : Py) (calls : Str → List Val → Val) (sel : List (Str × SelCol)) (m : Mixed) (rows : List Row) (n : Str) : Val :=
  match get n m.slots with
  | some f => f rows
  | none => reduced py calls sel rows n

/-- query.py:346-347: the value of the column for the group `rows`. -/
def value (py : Py) (calls : Str → List Val → Val) (sel : List (Str × SelCol)) (m : Mixed) (rows : List Row) : Val :=
  eval py calls (finalRow py calls sel m rows) (compile m.e)

end Verif.AggExpr
