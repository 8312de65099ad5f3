import Verif.Model.ItemKind
/-!
Model of functions of a whole table, `SELECT transform$v2h('name', 'date', 'amount') FROM (SELECT …)`: compiler.py:582-609
`compile_pipleline_select`, where it is tried (411-427, a subquery in FROM), and 2260-2313 `parse_calculate` as far as it says whether
there is a column in an expression.

What the function makes of the rows is the function's; the rows are those of the subquery (schema `"$.*"`, 191 and 218), handed over as
its first argument (594-598, `"$.*|array"`).
-/
namespace Verif.Whole
open Verif.ItemKind

mutual
/-- compiler.py:2260-2313 `parse_calculate`: whether a column is found. -/
def hasColumn : Node → Bool
  | .mk .column _ => true                                                     -- 2287-2291
  | .mk .dot as => isPlainColumn (.mk .dot as) || hasColumns as
  | .mk .query _ | .mk .star _ | .mk .interval _ => false                     -- 2295-2297
  | .mk .literal _ | .mk .param _ => false                                    -- 2292-2294, 2298-2299
  | .mk .cast as => match as with                                             -- 2268-2269
    | [] => false
    | a :: _ => hasColumn a
  | .mk _ as => hasColumns as                                                 -- 2265-2267, 2270-2286, 2300-2313
/-- In a list. -/
def hasColumns : List Node → Bool
  | [] => false
  | a :: as => hasColumn a || hasColumns as
end

/-- A SELECT over a subquery, as far as it matters here: the select list, each item with an alias or not; whether the subquery has an
alias; the clauses; the joins. -/
structure Sel (J : Type) where
  items : List (Bool × Node)
  named : Bool
  distinct : Bool := false
  group : Bool := false
  cond : Bool := false
  having : Bool := false
  order : Bool := false
  limit : Bool := false
  offset : Bool := false
  joins : List J := []

/-- compiler.py:582-596 `compile_pipleline_select`: the function and its further arguments; `none`: this is an ordinary SELECT. -/
def pipeline {J : Type} (s : Sel J) : Option (Name × List Node) :=
  match s.items with
  | [(false, .mk (.anon f) args)] =>                                          -- 583-585
    if s.group || s.cond || s.having || s.order || s.limit || s.offset then none   -- 586-588
    else if hasColumns args then none                                         -- 589-592
    else some (lower f, args)                                                 -- 593-600
  | _ => none

/-- compiler.py:418-427 and what follows: `call` calls a function with the rows and the values of its arguments, `value` evaluates an
expression without columns, `ordinary` is everything else a SELECT does; `none`: refused. -/
def result {J R V : Type} (call : Name → List R → List V → List R) (value : Node → V) (ordinary : Sel J → List R → Option (List R))
    (s : Sel J) (rows : List R) : Option (List R) :=
  match pipeline s with
  | some (f, args) => some (call f rows (args.map value))
  | none => if s.named then ordinary s rows else none                         -- 425-427

end Verif.Whole
