import Verif.Model.JoinSelect
/-!
Model of a SELECT with INNER JOINs: the rewriting to LEFT JOINs and IS NOT NULL (compiler.py:2933-2936, 3085-3140), then the
compilation of `JoinSelect`.
-/
namespace Verif.JoinSelect
open Verif.Val Verif.Expr Verif.Where Verif.Reduce Verif.Select

variable {S : Type}

/-- compiler.py:3113: `table.column IS NOT NULL` for one column. -/
def notNull (r : Join.Ref) : E := .not (.is (.col ((r.table.getD "").toList ++ '.' :: r.col.toList)) .null)

/-- compiler.py:3113-3114: the conditions joined by AND, after the conditions in front of them (SQL's AND is parsed from the left). -/
def andAll (e : E) (rs : List Join.Ref) : E := rs.foldl (fun e r => .and e (notNull r)) e

/-- compiler.py:3115-3121: the new WHERE: an OR is put in parentheses. -/
def innerWhere (cond : Option E) (rs : List Join.Ref) : Option E :=
  match cond with
  | some (.or a b) => some (andAll (.paren (.or a b)) rs)
  | some e => some (andAll e rs)
  | none => match rs with
    | [] => none
    | r :: rs => some (andAll (notNull r) rs)

/-- compiler.py:2933-2936, 3085-3140: when a join is an INNER JOIN, every join becomes a LEFT JOIN and the columns of ON are required
not to be NULL; without such columns the query stays as it is (3102-3103). -/
def rewriteInner (joins : List (Join.Join Val)) (q : Query S) : List (Join.Join Val) × Query S :=
  if joins.any fun j => decide (j.kind = .inner) then
    if Join.innerFields (String.ofList q.table) joins = [] then (joins, q)
    else (joins.map fun j => { j with kind := .left },
      { q with cond := innerWhere q.cond (Join.innerFields (String.ofList q.table) joins) })
  else (joins, q)

/-- compiler.py:2003-2007: `parse_joins` refuses a join that is (still) an INNER JOIN. -/
def compileJoins (py : Py) (calls : Str → List Val → Val) (o : Join.Ops Val) (order : List Join.Name → List Join.Name) (fuel : Nat)
    (joins : List (Join.Join Val)) (q : Query S) : Option (Plan (Join.C Val) S) :=
  if (rewriteInner joins q).1.any fun j => decide (j.kind = .inner) then none
  else compile py calls o order fuel (rewriteInner joins q).1 (rewriteInner joins q).2

end Verif.JoinSelect
