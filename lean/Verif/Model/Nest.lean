import Verif.Model.Select
/-!
Model of statements made of several SELECTs: subqueries in FROM (compiler.py:253-269 `compile_subquery`, 411-428), UNION (339-384) and
WITH (226-227, 237-251), to any depth.  Each SELECT is one of `Model.Select`.

A subquery becomes a dependency that runs first and inserts its rows into a collection of its own (262-266), from which the outer
SELECT reads (419-422); that collection is seen by nobody else (`Model.Tasks`), so it is not named here.  The rows of a named query of
WITH are appended to the collection of that name (242), which everything that runs later can read.

Not in this file: joins, window columns and subqueries in expressions; recursive WITH (`Model.Cte`); `compile_pipleline_select`
(582-609), which takes over `SELECT f() FROM (subquery) x`.
-/
namespace Verif.Nest
open Verif.Val Verif.Expr Verif.Select

/-- What can be read: a table, a SELECT from something, a UNION ALL, a WITH with one named query (several: nested). -/
inductive Rel (S : Type) where
  | scan (t : Str)
  | select (q : Query S) (src : Rel S)
  | union (l r : Rel S)
  | withq (n : Str) (d body : Rel S)

/-- The tables: lists of records. -/
abbrev Store := Str → List Out

/-- compiler.py:242, `" use I"`: rows are inserted. -/
def append (s : Store) (n : Str) (rows : List Out) : Store := fun m => if m = n then s n ++ rows else s m

/-- A record as a row of the SELECT that reads it; a column may be written with a type (`a[int]`). -/
def asRow (o : Out) : Row := fun c => field (Where.baseName c) o

variable {S : Type} (py : Py) (calls : Str → List Val → Val) (en : Engine)

/-- What the next reader finds in the collection: for a UNION (339-384, `Union.union`) the aligned records of all branches. -/
def collect : Rel S → List (Union.Branch Out Val) → List Out
  | .union _ _, bs => (Union.union .null bs).2.map fun v => List.zip (Union.union .null bs).1 v
  | .withq _ _ b, bs => collect b bs
  | .scan _, bs => bs.flatMap (·.rows)
  | .select _ _, bs => bs.flatMap (·.rows)

/-- The table the task of a query itself reads (`config["input"]`), if it is not a temporary collection. -/
def input : Rel S → Option Str
  | .select _ (.scan t) => some t
  | .withq _ _ b => input b
  | _ => none

/-- The tables the branches of a UNION read. -/
def branchInputs : Rel S → List Str
  | .union l r => branchInputs l ++ branchInputs r
  | e => (input e).toList

/-- The tables the dependencies of a query read. -/
def depInputs : Rel S → List Str
  | .select _ src => (input src).toList
  | .union l r => branchInputs l ++ branchInputs r
  | .withq _ d b => (input d).toList ++ depInputs b
  | .scan _ => []

/-- compiler.py:245-250: a dependency that reads a table whose name begins with the one that is defined is a recursion
(`Model.Cte`); not part of this file. -/
def loops (n : Str) (d : Rel S) : Bool := (depInputs d).any fun t => n.isPrefixOf t

/-- Running: the dependencies first (query.py:112-121, 195-202), in the order they were compiled; a UNION has the branches
`compile_union` collects (341-350).  The store is the one left behind; `none`: something does not compile, or is
recursive. -/
def exec (st : Store) : Rel S → Option (Store × List (Union.Branch Out Val))
  | .scan t => some (st, [⟨[], st t⟩])
  | .select q src =>
    (exec st src).bind fun x => (compileSelect q).map fun p =>
      (x.1, [⟨q.cols.map (fun c => (c.1, field c.1)), Select.run py calls en p ((collect src x.2).map asRow)⟩])
  | .union l r => (exec st l).bind fun a => (exec a.1 r).map fun b => (b.1, a.2 ++ b.2)
  | .withq n d b => if loops n d then none else (exec st d).bind fun x => exec (append x.1 n (collect d x.2)) b

/-- The result of a statement. -/
def result (st : Store) (e : Rel S) : Option (List Out) := (exec py calls en st e).map fun x => collect e x.2

end Verif.Nest
