import Verif.Model.SetOp
/-! SQL's set operations on lists of rows; the order of the rows carries no meaning. -/
namespace Verif.SqlSet
open Verif.Union

variable {ρ V : Type} [DecidableEq V]

/-- One of each. -/
def distinct (l : List (List V)) : List (List V) := l.eraseDups

/-- The rows of a statement: the i-th value belongs to the i-th column of the first SELECT. -/
def eval : SetExpr ρ V → List (List V)
  | .select b => b.rows.map fun r => b.schema.map fun nf => nf.2 r
  | .paren e => eval e
  | .op .unionAll l r => eval l ++ eval r
  | .op .union l r => distinct (eval l ++ eval r)
  | .op .except l r => distinct ((eval l).filter fun x => x ∉ eval r)
  | .op .intersect l r => distinct ((eval l).filter fun x => x ∈ eval r)

/-- Only UNION ALL. -/
def AllUnionAll : SetExpr ρ V → Prop
  | .select _ => True
  | .op k l r => k = .unionAll ∧ AllUnionAll l ∧ AllUnionAll r
  | .paren e => AllUnionAll e

/-- Without parentheses. -/
def NoParen : SetExpr ρ V → Prop
  | .select _ => True
  | .op _ l r => NoParen l ∧ NoParen r
  | .paren _ => False

/-- The SELECTs, from left to right. -/
def selects : SetExpr ρ V → List (Branch ρ V)
  | .select b => [b]
  | .op _ l r => selects l ++ selects r
  | .paren e => selects e

end Verif.SqlSet
