import Verif.Model.Session
import Verif.Model.Into
/-!
Model of scripts whose statements use user variables: `Model.Session` with variables that SELECTs read when they run
(compiler.py:1755-1766, 2738-2745: `@v` in an expression becomes a call of `getter`; calculaters/env_variable_calculater.py), and with
SELECT … INTO (compiler.py:138-144, 611-620, taskers/into.py:11-66: `Model.Into`), run by the queue machine of `Model.Executor`.

In an expression `@v` is written `varE v`.  The variables are one dictionary; the parents of a context and names without `@` (C08) are
not in this file, nor is a WHERE … IN whose list has constants and variables only, which is read while the statement is compiled (C149).
Values are scalars here: `image` is what a list or mapping that a variable holds is for an expression.  `two`: the SELECT makes two
passes, INTO reads nothing then (`Model.SecondPass`, C174).
-/
namespace Verif.VarScript
open Verif.Val Verif.Expr Verif.Select Verif.Tree Verif.Into
open Verif.Session (compiles)

/-- compiler.py:1765, 2743. -/
def getter : Str := "@current_env_variable::get_value".toList

/-- compiler.py:1765: `@v` in an expression. -/
def varE (v : Str) : E := .call getter (.cons (.lit (.str ('@' :: v))) .nil)

/-- The dictionary of the variables. -/
abbrev Vars := Verif.Dict Env.Key (Stored Val)

variable {S : Type} (image : Stored Val → Val) (two : Tree.Rel S → Bool)

/-- calculaters/env_variable_calculater.py:22-30 `get_value`, executor.py:64-80: NULL if there is no such variable. -/
def lookup (env : Vars) (k : Env.Key) : Val :=
  match env.get? k with
  | some x => image x
  | none => .null

/-- What functions compute while the variables are `env`. -/
def withVars (calls : Str → List Val → Val) (env : Vars) (f : Str) (args : List Val) : Val :=
  if f = getter then
    match args with
    | [.str k] => lookup image env k
    | _ => .null
  else calls f args

/-- A statement. -/
inductive Stmt (S : Type) where
  | plain (x : Session.Stmt S)
  /-- `SELECT … INTO @v`; `v` with its `@` -/
  | into (e : Tree.Rel S) (v : Str)

/-- What is queued. -/
inductive Job (S : Type) where
  | plain (j : Session.Job S)
  | into (e : Tree.Rel S) (v : Str)

/-- Variables (with their `@`), tables, and the printed results. -/
structure World where
  env : Vars
  store : Nest.Store
  printed : List (List Out)

/-- The world for a statement of `Model.Session`. -/
def World.view (w : World) : Session.World := ⟨fun n => (w.env.get? n).map image, w.store, w.printed⟩

variable (py : Py) (calls : Str → List Val → Val) (o : Join.Ops Val) (order : List Join.Name → List Join.Name) (fuel : Nat)
  (en : Engine) (filter : Literal.Ty → Val → Val) (prim : Str → Bool)

/-- compiler.py:142-143: UNION … INTO is refused. -/
def isUnion : Tree.Rel S → Bool
  | .union _ _ => true
  | .withq _ _ b => isUnion b
  | _ => false

/-- executor.py:158-168: compiling and starting: SET acts at once (set.py:10-30), INTO defines a variable that is missing as NULL
(into.py:11-15), VALUES are read (compiler.py:311-335). -/
def start : Stmt S → World → World × Option (List (Job S))
  | .plain (.set n v), w => ({ w with env := w.env.set n (.scalar v) }, some [])
  | .plain x, w => (w, (Session.start py calls o order fuel filter prim x (w.view image)).2.map (·.map .plain))
  | .into e v, w => if compiles py calls o order fuel e && !isUnion e then ({ w with env := Into.start .null [v] w.env }, some [.into e v]) else (w, none)

/-- `tasker.run`. -/
def runJob : Job S → World → World × Exec.Outcome
  | .plain j, w =>
    let r := Session.runJob py (withVars image calls w.env) o order fuel en j (w.view image)
    ({ w with store := r.1.store, printed := r.1.printed }, r.2)
  | .into e v, w =>
    match exec py (withVars image calls w.env) o order fuel en w.store e with
    | some (st, bs) =>
      match selectInto .null (headOf e) [v] (if two e then [] else collect st e bs) w.env with
      | some env => ({ w with env := env, store := st }, .done)
      | none => (w, .fail)
    | none => (w, .fail)

/-- The machine. -/
def machine : Exec.Machine World (Stmt S) (Job S) where
  start := start image py calls o order fuel filter prim
  run := runJob image two py calls o order fuel en

/-- prompt.py:229-235, main.py:70-75, `__init__.py` `execute`: scripts one after the other, each compiled and then executed; `none` when one is refused or
fails. `n` bounds the iterations of each. -/
def runAll (n : Nat) : World → List (List (Stmt S)) → Option World
  | w, [] => some w
  | w, ss :: rest =>
    match Exec.run (machine image two py calls o order fuel en filter prim) ⟨w, [], []⟩ ss with
    | (x, true) =>
      match Exec.execute (machine image two py calls o order fuel en filter prim) n x with
      | (y, .returned) => runAll n y.world rest
      | _ => none
    | _ => none

end Verif.VarScript
