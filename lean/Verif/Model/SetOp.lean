import Verif.Model.Limit
/-!
Model of set operations: compiler.py:339-350 (`parse` inside `compile_union`) and the dispatch on the class of the statement
(137, 230).  In sqlglot 11 (setup.py) `Except` and `Intersect` are subclasses of `Union`, so all of them go to `compile_union`,
which looks at neither the class nor the `distinct` argument.
-/
namespace Verif.Union

variable {ρ V : Type}

/-- Which operation. -/
inductive Kind where
  | unionAll | union | except | intersect
  deriving DecidableEq

/-- A statement made of SELECTs: sqlglot's `Union`/`Except`/`Intersect` (`op`), `Select`, `Subquery` (parentheses). -/
inductive SetExpr (ρ V : Type) where
  | select (b : Branch ρ V)
  | op (k : Kind) (l r : SetExpr ρ V)
  | paren (e : SetExpr ρ V)

/-- compiler.py:341-350 `parse`, called on what is not a SELECT; `none`: `KeyError` (a `Subquery` has no `expression`). -/
def branches : SetExpr ρ V → Option (List (Branch ρ V))
  | .select b => some [b]
  | .op _ l r =>
    match branches l, branches r with
    | some a, some b => some (a ++ b)
    | _, _ => none
  | .paren _ => none

/-- The rows of the statement; `none`: it is refused. -/
def setResult (null : V) (e : SetExpr ρ V) : Option (List Name × List (List V)) := (branches e).map (union null)

end Verif.Union
