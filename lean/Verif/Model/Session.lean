import Verif.Model.Tree
import Verif.Model.Literal
import Verif.Model.Executor
/-!
Model of a script of statements on tables of the memory database, as the queue machine of `Model.Executor` runs it: first all
statements are compiled (executor.py:142-168 `run`), then what was queued is run (170-177 `execute`).

SELECTs (with joins, windows, subqueries, UNION ALL and WITH: `Model.Tree`), INSERT … SELECT (compiler.py:271-316), INSERT … VALUES
(`Model.Literal`), DELETE (`Model.Where`) and SET of a constant (set.py:10-30).  Assumed of the library: a task reads its rows before
it writes; rows that are inserted into a memory table are appended; a DELETE removes the rows that satisfy the conditions pushed to it.
The tables are written in the way `I`.  Variables in SELECTs are not in this file (`Model.UserVar`), nor is SELECT … INTO
(`Model.Executor`, `Model.Into`).
-/
namespace Verif.Session
open Verif.Val Verif.Expr Verif.Select Verif.Tree Verif.Literal
open Verif.Nest (Store append asRow)

/-- A statement. -/
inductive Stmt (S : Type) where
  /-- `SELECT …`, printed -/
  | query (e : Tree.Rel S)
  /-- `INSERT INTO t SELECT …` -/
  | insert (t : Str) (e : Tree.Rel S)
  /-- `INSERT INTO t (columns) VALUES …` -/
  | values (t : Str) (cols : List (Str × Option Ty)) (rows : List (List CE))
  /-- `DELETE FROM t WHERE …` -/
  | delete (t : Str) (cond : Option E)
  /-- `SET @name = constant` -/
  | set (name : Str) (v : Val)

/-- What is queued. -/
inductive Job (S : Type) where
  | query (e : Tree.Rel S)
  | insert (t : Str) (e : Tree.Rel S)
  | records (t : Str) (rows : List Out)
  | delete (t : Str) (qs : Where.Querys)

/-- Variables (with their `@`), tables, and the printed results. -/
structure World where
  env : Str → Option Val
  store : Store
  printed : List (List Out)

variable {S : Type} (py : Py) (calls : Str → List Val → Val) (o : Join.Ops Val) (order : List Join.Name → List Join.Name) (fuel : Nat)
  (en : Engine) (filter : Ty → Val → Val) (prim : Str → Bool)

/-- One SELECT compiles, what is known of the subqueries of its WHERE clause put in. -/
def compilesFilled : Kind S → Bool
  | .plain q => (compileSelect q).isSome
  | .joined joins q => (JoinSelect.compileJoins py calls o order fuel joins q).isSome
  | .comma ts w q => (JoinSelect.compileFrom py calls o order fuel ts [] w q).isSome
  | .windowed q => (WinSelect.compileSelect q).isSome
  | .sub _ _ => false
  | .hav _ _ => false

/-- One SELECT compiles; nothing is known of the subqueries yet (it does not matter: `Verif.Props.SessionLemmas.compilesKind_run`). -/
def compilesKind (k : Kind S) : Bool := compilesFilled py calls o order fuel (k.fill [] [])

mutual
/-- compiler.py:208-235, 253-269, 339-384: the statement compiles: all its parts do. -/
def compiles : Tree.Rel S → Bool
  | .scan _ => true
  | .select k src more => compiles src && compileds more && decide (more.length = k.joins.length + k.subs ∧ k.refused = false) && compilesKind py calls o order fuel k
  | .union l r => compiles l && compiles r
  | .withq n d b => !loops n d && compiles d && compiles b
/-- All of them. -/
def compileds : Rels S → Bool
  | .nil => true
  | .cons e l => compiles e && compileds l
end

/-- compiler.py:311-316: a WITH of the SELECT of an INSERT is not looked at (`Model.Insert.sourceRows`). -/
def dropWith : Tree.Rel S → Tree.Rel S
  | .withq _ _ b => dropWith b
  | e => e

/-- executor.py:158-168: compiling and starting a statement; SET acts at once. -/
def start : Stmt S → World → World × Option (List (Job S))
  | .query e, w => (w, if compiles py calls o order fuel e then some [.query e] else none)
  | .insert t e, w => (w, if compiles py calls o order fuel (dropWith e) then some [.insert t (dropWith e)] else none)
  | .values t cols rows, w => (w, (insertValues filter w.env cols rows).map fun r => [.records t r])
  | .delete t cond, w => (w, (Where.compileDelete prim cond).map fun qs => [.delete t qs])
  | .set n v, w => ({ w with env := fun m => if m = n then some v else w.env m }, some [])

/-- `tasker.run`. -/
def runJob : Job S → World → World × Exec.Outcome
  | .query e, w => match exec py calls o order fuel en w.store e with
    | some (st, bs) => ({ w with store := st, printed := w.printed ++ [collect st e bs] }, .done)
    | none => (w, .fail)
  | .insert t e, w => match exec py calls o order fuel en w.store e with
    | some (st, bs) => ({ w with store := append st t (collect st e bs) }, .done)
    | none => (w, .fail)
  | .records t rows, w => ({ w with store := append w.store t rows }, .done)
  | .delete t qs, w => ({ w with store := fun n =>
      if n = t then (w.store n).filter fun r => !Where.matchRow py calls en.src (asRow r) qs else w.store n }, .done)

/-- The machine. -/
def machine : Exec.Machine World (Stmt S) (Job S) where
  start := start py calls o order fuel filter prim
  run := runJob py calls o order fuel en

end Verif.Session
