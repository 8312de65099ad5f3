import Verif.Model.Tasks
import Verif.Model.SecondPass
/-!
Model of `@streaming` statements (`SET @streaming = 1`): taskers/query.py:153-187 `run`, 189-210 `run_yield`, 423-450 `run_tasker` and
executor.py:170-177, 187-204 for one statement alone in the queue, and query.py:135 (no second pass).

`syncany`'s own task is an arbitrary program (`Model.Tasks`): `pause` is where its generator yields.  While `@streaming` holds, each
such yield is passed on (query.py:209-210, 430-431): the task goes back to the queue (168-169), and in between the `finally` of
`run` (184-187) deletes the temporary collections, but those the database calls streaming (executor.py:199; a parameter here).  Not
modelled: other statements in the queue at the same time (`Model.Executor`), `@streaming` changing its value while the statement runs.
-/
namespace Verif.Streaming
open Verif.Tasks Verif.TempMem

variable {ν R : Type} [DecidableEq ν]

/-- How one step of a task ends: its generator has yielded, ended or raised. -/
inductive Step (ν R : Type) where
  | stopped
  | raised
  | paused (k : Prog ν R)

/-- query.py:206 `tasker_generator.send(None)`: the task up to its next yield. -/
def stepProg (temp : ν → Bool) (t : Nat) : Prog ν R → St ν R → St ν R × Step ν R
  | .done, s => (s.emit (.stop t), .stopped)
  | .raise, s => (s.emit (.raise t), .raised)
  | .pause k, s => (s, .paused k)
  | .read n k, s => stepProg temp t (k (s.store n)) (s.emit (.read t n (s.store n)))
  | .write n rows k, s =>
    stepProg temp t k ({ s with store := setStore s.store n (s.store n ++ rows) }.emit (.write t n rows))
  | .delete n k, s => stepProg temp t k ({ s with store := setStore s.store n [] }.emit (.delete t n))
  | .reduce n k, s => stepProg temp t k { s with mgr := compileCore temp (some n) (some n) s.mgr }

/-- The generator of `run_tasker` (query.py:423-450) with the one of `run_yield` inside it: the task, its final reduce, what is left
of its program, and the generators of the dependencies that have not ended (190-193). -/
inductive Gen (ν R : Type) where
  | mk (core : Core ν R) (final : Option (Core ν R)) (left : Prog ν R) (deps : List (Gen ν R))

/-- The final reduce. -/
def Gen.final : Gen ν R → Option (Core ν R) | .mk _ f _ _ => f

mutual
/-- query.py:157-158, 190-193: the generators of a task and its dependencies, not yet started. -/
def gen : Task ν R → Gen ν R
  | .mk c f ds => .mk c f c.prog (gens ds)
/-- Of a list of tasks. -/
def gens : List (Task ν R) → List (Gen ν R)
  | [] => []
  | d :: ds => gen d :: gens ds
end

/-- What a `send(None)` to such a generator gives. -/
inductive Sent (ν R : Type) where
  | stopped
  | raised
  | paused (g : Gen ν R)

mutual
/-- query.py:423-450 around 189-210, one `send(None)`: one round of the loop.  Each dependency makes one step, then the task itself
makes one step, whether or not the dependencies have ended; when it has ended, so has the loop (207-208), and the dependencies that
have not are dropped. -/
def send (temp : ν → Bool) : Gen ν R → St ν R → St ν R × Sent ν R
  | .mk c f p ds, s =>
    match sendDeps temp ds s with
    | (s, none) => (checkFree temp c (s.emit (.raise c.tid)), .raised)
    | (s, some ds) =>
      match stepProg temp c.tid p s with
      | (s, .stopped) => (checkFree temp c s, .stopped)
      | (s, .raised) => (checkFree temp c s, .raised)
      | (s, .paused p) => (s, .paused (.mk c f p ds))
/-- query.py:195-202: a step of each dependency; one that has ended is reduced (200-201) and removed (202).  `none`: one raised. -/
def sendDeps (temp : ν → Bool) : List (Gen ν R) → St ν R → St ν R × Option (List (Gen ν R))
  | [], s => (s, some [])
  | d :: ds, s =>
    match send temp d s with
    | (s, .raised) => (s, none)
    | (s, .paused d') =>
      match sendDeps temp ds s with
      | (s, some ds') => (s, some (d' :: ds'))
      | (s, none) => (s, none)
    | (s, .stopped) =>
      match runFinal temp d.final s with
      | (s, false) => (s, none)
      | (s, true) => sendDeps temp ds s
end

/-- query.py:184-187 and executor.py:187-204 when the task has just been put back in the queue (query.py:168-169, so `self.runners` is
not empty): every collection in the bookkeeping is deleted unless the database calls it streaming. -/
def clearPaused (isStreaming : ν → Bool) (s : St ν R) : St ν R :=
  { s with
    store := fun n => if (s.mgr n).isSome && !isStreaming n then [] else s.store n }

/-- executor.py:170-177 with query.py:153-187 for one statement alone in the queue: it is sent to, and put back in the queue, until it
has ended; then comes its final reduce. -/
inductive Drives (temp isStreaming : ν → Bool) : Gen ν R → St ν R → St ν R × Bool → Prop where
  | stop {g : Gen ν R} {s s' : St ν R} (h : send temp g s = (s', .stopped)) :
      Drives temp isStreaming g s (clear (runFinal temp g.final s').1, (runFinal temp g.final s').2)
  | fail {g : Gen ν R} {s s' : St ν R} (h : send temp g s = (s', .raised)) : Drives temp isStreaming g s (clear s', false)
  | again {g g' : Gen ν R} {s s' : St ν R} {r : St ν R × Bool} (h : send temp g s = (s', .paused g'))
      (hr : Drives temp isStreaming g' (clearPaused isStreaming s') r) : Drives temp isStreaming g s r

/-- One `@streaming` statement: executor.py:158-168 `compile` and 170-177 `execute`. -/
def Streams (temp isStreaming : ν → Bool) (t : Task ν R) (store : ν → List R) (r : St ν R × Bool) : Prop :=
  Drives temp isStreaming (gen t) { store := store, mgr := start temp t fun _ => none, log := [] } r

/-- What stands in a column of an aggregate: its value, or the state of the calculater. -/
inductive Cell (σ R : Type) where
  | value (r : R)
  | state (s : Option σ)

/-- query.py:135-138, 342-360 and compiler.py:1196-1208: the column of one call of an aggregate over the rows of a group (read in one
batch).  `final_value` is only called by the second pass (345-348), and that is left out while `@streaming` (135).  `none`: an
exception. -/
def cell {ε α σ R : Type} (A : Agg.Calc α σ R) (hasFinal : List Char → Bool) (streaming : Bool) (c : AggCall.Call ε) (rows : List α) :
    Option (Cell σ R) :=
  (A.run none rows).map fun s =>
    if SecondPass.requireReduce hasFinal 0 (some ⟨[.call c], []⟩) && !streaming then .value (A.final s) else .state s

end Verif.Streaming
