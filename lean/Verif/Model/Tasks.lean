import Verif.Model.TempMem
/-!
Model of the life of one query (taskers/query.py): `start` (101-140), `run` (142-187), `run_yield` (189-213),
`run_reduce` (340-371), `compile_tasker` (388-394), `run_tasker` (423-450), `check_free_temporary_memory_collection`
(465-482), `get_temporary_memory_collections` (459-463) and executor.py:187-204 `clear_temporary_memory_collection`,
for statements that are not `@streaming`.

`syncany`'s own task (`CoreTasker.run_yield`, not part of the repository) is an arbitrary program: it reads, writes and
deletes collections of the memory database, depending on what it read, yields, and ends or raises.
-/
namespace Verif.Tasks

open Verif.TempMem

variable {ν R : Type} [DecidableEq ν]

/-- What one `syncany` task does, as far as it can be observed: a tree because what it does next depends on what it read.
`raise` may stand anywhere: this is the crash point. -/
inductive Prog (ν R : Type) where
  /-- `StopIteration` -/
  | done
  /-- any exception -/
  | raise
  /-- the generator yields -/
  | pause (k : Prog ν R)
  /-- a query of collection `n` -/
  | read (n : ν) (k : List R → Prog ν R)
  /-- rows inserted in `n` (`use I`) -/
  | write (n : ν) (rows : List R) (k : Prog ν R)
  /-- the rows of `n` deleted (`use DI`, `use UDI`) -/
  | delete (n : ν) (k : Prog ν R)
  /-- query.py:30-46 the hook starts an intermediate `run_reduce`, which reads and rewrites collection `n` (340-371 with
  `final_reduce=False`; the reading and writing follow as `read`, `delete`, `write`) -/
  | reduce (n : ν) (k : Prog ν R)

/-- A compiled task: loader, join loaders, outputer (query.py:386-396). -/
structure Core (ν R : Type) where
  tid : Nat
  loader : Option ν
  joins : List ν
  outputer : Option ν
  prog : Prog ν R

/-- A `QueryTasker`: its task, the task of the final `run_reduce` if there is a `reduce_config`, its dependencies. -/
inductive Task (ν R : Type) where
  | mk (core : Core ν R) (final : Option (Core ν R)) (deps : List (Task ν R))

/-- The task. -/
def Task.core : Task ν R → Core ν R | .mk c _ _ => c
/-- The final reduce. -/
def Task.final : Task ν R → Option (Core ν R) | .mk _ f _ => f
/-- `dependency_taskers`. -/
def Task.deps : Task ν R → List (Task ν R) | .mk _ _ ds => ds

/-- What is observed, with the task that did it. -/
inductive Ev (ν R : Type) where
  | read (t : Nat) (n : ν) (rows : List R)
  | write (t : Nat) (n : ν) (rows : List R)
  | delete (t : Nat) (n : ν)
  | stop (t : Nat)
  | raise (t : Nat)

/-- The memory database, the bookkeeping shared by the whole query (query.py:97, 119), the events so far. -/
structure St (ν R : Type) where
  store : ν → List R
  mgr : Mgr ν
  log : List (Ev ν R)

/-- Python `d[k] = v` on the memory database. -/
def setStore (f : ν → List R) (n : ν) (v : List R) : ν → List R := fun k => if k = n then v else f k

/-- An event is observed. -/
def St.emit (s : St ν R) (e : Ev ν R) : St ν R := { s with log := s.log ++ [e] }

/-- query.py:388-394: a task is compiled; only temporary collections are counted. -/
def compileCore (temp : ν → Bool) (loader outputer : Option ν) (m : Mgr ν) : Mgr ν :=
  let m := match loader with
    | some n => if temp n then useCollection m n else m
    | none => m
  match outputer with
  | some n => if temp n then addCollection m n else m
  | none => m

/-- query.py:465-482 `check_free_temporary_memory_collection`. Not modelled: the streaming exception of 476-477 and a
failure of the deletion itself (481). -/
def checkFree (temp : ν → Bool) (c : Core ν R) (s : St ν R) : St ν R :=
  match c.loader with
  | none => s
  | some n =>
    if temp n = false then s
    else if c.outputer = some n then s
    else
      let u := unuseCollection s.mgr n
      if u.2 then { s with store := setStore s.store n [], mgr := (freeCollection u.1 n).1 }
      else { s with mgr := u.1 }

/-- query.py:189-213, the part of the loop that drives the task itself: not streaming, it never yields to the outside
(211-212), so pauses only give the next round of the loop, where no dependency is left. `true`: it stopped. -/
def runProg (temp : ν → Bool) (t : Nat) : Prog ν R → St ν R → St ν R × Bool
  | .done, s => (s.emit (.stop t), true)
  | .raise, s => (s.emit (.raise t), false)
  | .pause k, s => runProg temp t k s
  | .read n k, s => runProg temp t (k (s.store n)) (s.emit (.read t n (s.store n)))
  | .write n rows k, s =>
    runProg temp t k ({ s with store := setStore s.store n (s.store n ++ rows) }.emit (.write t n rows))
  | .delete n k, s => runProg temp t k ({ s with store := setStore s.store n [] }.emit (.delete t n))
  | .reduce n k, s => runProg temp t k { s with mgr := compileCore temp (some n) (some n) s.mgr }

/-- query.py:423-450 `run_tasker` for a task without dependencies left. -/
def runCore (temp : ν → Bool) (c : Core ν R) (s : St ν R) : St ν R × Bool :=
  let r := runProg temp c.tid c.prog s
  (checkFree temp c r.1, r.2)

/-- query.py:174-175, 200-201 and 340-371 `run_reduce(…, True)` if there is a `reduce_config`: the task is compiled and run. -/
def runFinal (temp : ν → Bool) : Option (Core ν R) → St ν R → St ν R × Bool
  | none, s => (s, true)
  | some c, s => runCore temp c { s with mgr := compileCore temp c.loader c.outputer s.mgr }

mutual
/-- query.py:423-450 `run_tasker` around 189-213 `run_yield`: the dependencies first; if one raises, so does this one. -/
def runTask (temp : ν → Bool) : Task ν R → St ν R → St ν R × Bool
  | .mk c _ ds, s =>
    match runDeps temp ds s with
    | (s, true) => runCore temp c s
    | (s, false) => (checkFree temp c (s.emit (.raise c.tid)), false)
/-- query.py:195-202: each dependency runs, then its final reduce. -/
def runDeps (temp : ν → Bool) : List (Task ν R) → St ν R → St ν R × Bool
  | [], s => (s, true)
  | .mk c f ds :: rest, s =>
    match runTask temp (.mk c f ds) s with
    | (s, false) => (s, false)
    | (s, true) =>
      match runFinal temp f s with
      | (s, false) => (s, false)
      | (s, true) => runDeps temp rest s
end

mutual
/-- query.py:102-140 `start`: the dependencies are compiled, then the task. -/
def start (temp : ν → Bool) : Task ν R → Mgr ν → Mgr ν
  | .mk c _ ds, m => compileCore temp c.loader c.outputer (startDeps temp ds m)
/-- query.py:112-121. -/
def startDeps (temp : ν → Bool) : List (Task ν R) → Mgr ν → Mgr ν
  | [], m => m
  | d :: ds, m => startDeps temp ds (start temp d m)
end

/-- query.py:184-187, 459-463 and executor.py:187-204: every collection still in the bookkeeping is deleted. -/
def clear (s : St ν R) : St ν R :=
  { s with store := fun n => if (s.mgr n).isSome then [] else s.store n }

/-- query.py:153-187 `run`, with its `finally`. -/
def runTop (temp : ν → Bool) (t : Task ν R) (s : St ν R) : St ν R × Bool :=
  let r := match runTask temp t s with
    | (s, true) => runFinal temp t.final s
    | (s, false) => (s, false)
  (clear r.1, r.2)

/-- One statement: executor.py:158-168 `compile` (which starts the tasker) and 170-177 `execute`. -/
def execQuery (temp : ν → Bool) (t : Task ν R) (store : ν → List R) : St ν R × Bool :=
  runTop temp t { store := store, mgr := start temp t fun _ => none, log := [] }

/-! ### The tasks the compiler makes -/

/-- Collections: temporary (`__subquery_<uuid>_…`, `__unionquery_<uuid>`; compiler.py:261, 352, query.py:297) numbered by
the order of their creation, and the user's own tables. `uuid1` is assumed not to repeat. -/
inductive Name where
  | tmp (k : Nat)
  | user (k : Nat)
  deriving DecidableEq

/-- query.py:389, 393: the prefixes that make a collection temporary. -/
def isTmp : Name → Bool
  | .tmp _ => true
  | .user _ => false

/-- Shape of a query: a `SELECT` from a table or (`fromSub`) from the first of its subqueries, joining and mentioning in
conditions tables `tables` and the other subqueries, `grouped` when a final reduce is needed (query.py:124-138); or a
`UNION` of its branches (compiler.py:340-383); or a query with a `WITH` clause (compiler.py:228-229, 237-251), whose names
are `names`.  Not modelled: `WITH RECURSIVE` (245-250). -/
inductive Query where
  | select (fromSub grouped : Bool) (tables : List Nat) (subs : List Query)
  | union (branches : List Query)
  | withQuery (names : List Nat) (ctes : List Query) (body : Query)

/-- compiler.py:251, 422: dependencies are listed in the order they are compiled. -/
def Task.addDeps (t : Task ν R) (ds : List (Task ν R)) : Task ν R :=
  match t with
  | .mk c f ds' => .mk c f (ds ++ ds')

mutual
/-- compiler.py:413-430, 1047-1051, 2012-2015, 352-381 and query.py:101-140, 304-338: the tasks of a query writing to `out`;
`k`: the next unused number, also used for task numbers. The programs are given by `P`. -/
def build (P : Nat → Prog Name R) : Query → Name → Nat → Task Name R × Nat
  | .select fromSub grouped tables subs, out, k =>
    let d := buildSubs P subs (k + 3)
    let loader := if fromSub then (d.1.head?.map Prod.snd) else tables.head?.map Name.user
    let joins := (if fromSub then tables else tables.tail).map Name.user ++ (if fromSub then d.1.tail else d.1).map Prod.snd
    let deps := d.1.map Prod.fst
    if grouped then
      (.mk { tid := k, loader := loader, joins := joins, outputer := some (.tmp k), prog := P k }
        (some { tid := k + 1, loader := some (.tmp k), joins := [], outputer := some out, prog := P (k + 1) }) deps, d.2)
    else (.mk { tid := k, loader := loader, joins := joins, outputer := some out, prog := P k } none deps, d.2)
  | .union branches, out, k =>
    let d := buildBranches P branches (.tmp k) (k + 3)
    (.mk { tid := k, loader := some (.tmp k), joins := [], outputer := some out, prog := P k } none d.1, d.2)
  | .withQuery names ctes body, out, k =>
    let d := buildCtes P ctes names k
    let b := build P body out d.2
    (b.1.addDeps d.1, b.2)
/-- compiler.py:253-270 `compile_subquery` for each: a collection of its own. -/
def buildSubs (P : Nat → Prog Name R) : List Query → Nat → List (Task Name R × Name) × Nat
  | [], k => ([], k)
  | q :: qs, k =>
    let a := build P q (.tmp k) (k + 1)
    let b := buildSubs P qs a.2
    ((a.1, .tmp k) :: b.1, b.2)
/-- compiler.py:354-380: the branches of a union write to the same collection. -/
def buildBranches (P : Nat → Prog Name R) : List Query → Name → Nat → List (Task Name R) × Nat
  | [], _, k => ([], k)
  | q :: qs, out, k =>
    let a := build P q out k
    let b := buildBranches P qs out a.2
    (a.1 :: b.1, b.2)
/-- compiler.py:237-251 `compile_with`: each named query writes to the collection of its own name (242), not one of the
temporary prefixes. -/
def buildCtes (P : Nat → Prog Name R) : List Query → List Nat → Nat → List (Task Name R) × Nat
  | [], _, k => ([], k)
  | q :: qs, names, k =>
    let a := build P q (.user (names.headD 0)) k
    let b := buildCtes P qs names.tail a.2
    (a.1 :: b.1, b.2)
end

end Verif.Tasks
