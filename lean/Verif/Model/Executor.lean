import Verif.Model.Env
/-!
Model of the executor queue (executor.py:84-186, prompt.py:229-235) as a machine over abstract statements and
tasks, and of a small concrete statement language (SET literal, SET expression, SELECT, SELECT INTO) on top of it.
-/
namespace Verif.Exec

/-- How a call of `tasker.run` ends: normally; with the tasker re-queued by `executor.add_runner(self)`
(query.py:164-170, streaming); with an exception. -/
inductive Outcome where
  | done
  | again
  | fail
  deriving DecidableEq, Repr

/-- What the queue machine needs to know: `σ` is everything the statements act on (databases, variables,
configuration and the internal progress of streaming taskers). -/
structure Machine (σ Stmt Task : Type) where
  /-- executor.py:158-168: compiling a statement and calling `tasker.start`, which returns the runners to queue;
  `none` is an exception (the effects before it persist in the returned world). -/
  start : Stmt → σ → σ × Option (List Task)
  /-- `tasker.run(executor, …)` -/
  run : Task → σ → σ × Outcome

/-- The executor: world, `self.runners`, and (ghost) the calls of `tasker.run` so far, in order. -/
structure State (σ Task : Type) where
  world : σ
  runners : List Task
  log : List (Task × Outcome)

variable {σ Stmt Task : Type}

/-- executor.py:142-168 `run(name, sqls)`: starts the statements one after the other; `runners.extend` after each;
an exception leaves the runners queued so far.  The flag tells whether it returned normally. (`raw sql` rewriting
and variable substitution are part of `start`.) -/
def run (m : Machine σ Stmt Task) (x : State σ Task) : List Stmt → State σ Task × Bool
  | [] => (x, true)
  | s :: ss =>
    match m.start s x.world with
    | (w, some ts) => run m { x with world := w, runners := x.runners ++ ts } ss
    | (w, none) => ({ x with world := w }, false)

/-- Where an execution of the queue stands. -/
inductive Status where
  | running
  | returned
  | raised
  deriving DecidableEq, Repr

/-- executor.py:172-177: one iteration of `while self.runners:`. -/
def step (m : Machine σ Stmt Task) (x : State σ Task) : State σ Task × Status :=
  match x.runners with
  | [] => (x, .returned)
  | t :: q =>
    match m.run t x.world with
    | (w, .done) => (⟨w, q, x.log ++ [(t, .done)]⟩, .running)
    | (w, .again) => (⟨w, q ++ [t], x.log ++ [(t, .again)]⟩, .running)
    | (w, .fail) => (⟨w, q, x.log ++ [(t, .fail)]⟩, .raised)

/-- executor.py:170-177 `execute()`, as the relation "starting in `x` it ends in `y` with this status" (a streaming
query may never end). -/
inductive Executes (m : Machine σ Stmt Task) : State σ Task → State σ Task → Status → Prop where
  | returned {x y} : step m x = (y, .returned) → Executes m x y .returned
  | raised {x y} : step m x = (y, .raised) → Executes m x y .raised
  | next {x y z s} : step m x = (y, .running) → Executes m y z s → Executes m x z s

/-- executor.py:170-177, computable for queues without streaming: `n` bounds the number of iterations. -/
def execute (m : Machine σ Stmt Task) : Nat → State σ Task → State σ Task × Status
  | 0, x => (x, .running)
  | n + 1, x =>
    match step m x with
    | (y, .running) => execute m n y
    | r => r

/-- prompt.py:229-235: the interactive loop clears the queue after every execution. -/
def promptClear (x : State σ Task) : State σ Task := { x with runners := [] }

/-! ### A concrete statement language -/

/-- Expressions of the example language. -/
inductive Ex where
  | lit (v : Option Int)
  | var (name : Env.Key)

/-- Statements of the example language. -/
inductive Sql where
  /-- `SET @name = literal` (set.py:10-30) -/
  | setLit (name : Env.Key) (v : Option Int)
  /-- `SELECT e` printed -/
  | select (e : Ex)
  /-- `SELECT e INTO @name`; also what `SET @name = e` becomes when `e` is not a literal (set.py:26) -/
  | selectInto (e : Ex) (name : Env.Key)

/-- Queued runners of the example language. -/
inductive SqlTask where
  | query (e : Ex)
  | into (e : Ex) (name : Env.Key)

/-- World of the example language: the environment chain's own dictionary and the printed values. -/
structure SqlWorld where
  vars : Dict Env.Key (Option Int)
  out : List (Option Int)

/-- compiler.py:1765, env_variable_calculater.py:22-31: a variable in a query is read when the query runs (NULL if
undefined). -/
def Ex.eval (vars : Dict Env.Key (Option Int)) : Ex → Option Int
  | .lit v => v
  | .var n => (Env.getValue [vars] n).getD none

/-- The example language as a machine.  set.py:10-30 (`SET` assigns in `start` and queues nothing), into.py:11-19
(`INTO` defines missing variables as NULL in `start`), into.py:21-66 and query.py:153-187 (`run`). -/
def sqlMachine : Machine SqlWorld Sql SqlTask where
  start
    | .setLit n v, w => ({ w with vars := w.vars.set n v }, some [])
    | .select e, w => (w, some [.query e])
    | .selectInto e n, w =>
      ({ w with vars := if (w.vars.get? n).isSome then w.vars else w.vars.set n none }, some [.into e n])
  run
    | .query e, w => ({ w with out := w.out ++ [e.eval w.vars] }, .done)
    | .into e n, w => ({ w with vars := w.vars.set n (e.eval w.vars) }, .done)

/-- Specification: what running the script statement by statement prints. -/
def inOrder : SqlWorld → List Sql → SqlWorld
  | w, [] => w
  | w, .setLit n v :: ss => inOrder { w with vars := w.vars.set n v } ss
  | w, .select e :: ss => inOrder { w with out := w.out ++ [e.eval w.vars] } ss
  | w, .selectInto e n :: ss => inOrder { w with vars := w.vars.set n (e.eval w.vars) } ss

end Verif.Exec
