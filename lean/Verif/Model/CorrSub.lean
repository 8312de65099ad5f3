import Verif.Model.Correlated
import Verif.Model.Order
/-!
Model of correlated subqueries with DISTINCT, GROUP BY, HAVING and ORDER BY: compiler.py:2480-2519 (`parse_subquery`: the text the
subquery is rewritten to), on top of `Model/Correlated`.
The rewritten SELECT is run as SQL says (C57-C59 are about that); the sort is modelled before DISTINCT, which keeps the first of equal
rows (the two agree when the keys are selected columns).  Columns of the outer query in HAVING, ORDER BY or GROUP BY are not modelled.
-/
namespace Verif.Correlated
open Verif.Join (Name Ref X)

variable {V : Type}

/-- The subquery but for its WHERE.  `group = none`: neither GROUP BY nor an aggregate, and a group is a single row.  `value`, `having` and
`before` are what the select list, HAVING and ORDER BY compute of the rows of a group. -/
structure Body (V : Type) where
  distinct : Bool
  group : Option (List (X V))
  value : List (Env V) → V
  having : List (Env V) → Bool
  before : Option (List (Env V) → List (Env V) → Bool)

/-- compiler.py:2503-2513: the groups of the rewritten subquery: GROUP BY the key columns, the columns of the interceptors and the
subquery's own GROUP BY.  Each group with its key columns and interceptors' columns. -/
def groupsFor [DecidableEq V] (cur : List Name) (s : Split V) (group : Option (List (X V))) (rows : List (Env V)) :
    List ((List V × List V) × List (Env V)) :=
  match group with
  | none => rows.map fun row => (extra cur s row, [row])
  | some gs =>
    (rows.map fun row => (extra cur s row, gs.map (evalX row))).eraseDups.map fun k =>
      (k.1, rows.filter fun row => extra cur s row = k.1 ∧ gs.map (evalX row) = k.2)

/-- compiler.py:2514-2517: HAVING and ORDER BY. -/
def sortFor (b : Body V) (l : List ((List V × List V) × List (Env V))) : List ((List V × List V) × List (Env V)) :=
  match b.before with
  | none => l.filter fun g => b.having g.2
  | some le => Order.isort (fun x y => le x.2 y.2) (l.filter fun g => b.having g.2)

/-- compiler.py:2480-2482: SELECT DISTINCT of the value, the key columns and the interceptors' columns. -/
def loadBody [DecidableEq V] (o : Ops V) (cur : List Name) (s : Split V) (b : Body V) (batch inner : List (Env V)) : List (V × List V × List V) :=
  let rows := (sortFor b (groupsFor cur s b.group (passing o s batch inner))).map fun g => (b.value g.2, g.1.1, g.1.2)
  if b.distinct then rows.eraseDups else rows

/-- The values a correlated subquery gives for an outer row; `none`: refused. -/
def runBody [DecidableEq V] (o : Ops V) (cur parents : List Name) (c : Cond V) (b : Body V) (batch inner : List (Env V))
    (outer : Env V) : Option (List V) :=
  (splitWhere cur parents c).map fun s =>
    (matching o cur parents s ((loadBody o cur s b batch inner).map fun r => ⟨r.1, r.2.1, r.2.2⟩) outer).map (·.val)

end Verif.Correlated
