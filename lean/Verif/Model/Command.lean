import Verif.Model.Config
import Verif.Model.Env
import Verif.Model.Str
/-!
Model of the commands: SET (taskers/set.py), USE (taskers/use.py), EXECUTE (taskers/execute.py), EXPLAIN (taskers/explain.py), SHOW
(taskers/show.py), and of their dispatch (compiler.py:135-177).

Queries are opaque (`Model.Select` and others); a statement is what the compiler makes of a text after variable substitution
(executor.py:142-156), which depends on the variables at that moment (`Lang.compile`).  Executors and sessions come in pairs
(execute.py:20-23), so one address stands for an executor's variables and for its session's own configuration; address 0 is the
global one, a context lists an executor's address and those of its ancestors.  The cache of merged configurations is the subject of
`Model.Config`, streaming that of `Model.Executor`; both are left out here.  Printing is left out.
-/
namespace Verif.Command
open Verif.Val Verif.Json Verif.Env
open Verif.Config (Cfg setKey)

/-- compiler.py:135-177: the statements. -/
inductive Stmt (Q : Type) where
  /-- SELECT, UNION, INSERT (138-141) -/
  | query (q : Q)
  /-- SELECT … INTO x (142-144) -/
  | into (q : Q) (x : Key)
  /-- DELETE (136-137) -/
  | delete (q : Q)
  /-- SET and the text after it (149-156, 171-176) -/
  | set (text : Str)
  /-- USE (166-170) -/
  | use (text : Str)
  /-- SHOW (164-165) -/
  | show (text : Str)
  /-- EXECUTE (157-163); the name without quotes -/
  | execute (file : Str)
  /-- EXPLAIN (146-148) -/
  | explain (s : Stmt Q)

/-- What is in the queue.  A `file` task is an `ExecuteTasker` with its own executor: its context and its queue. -/
inductive Job (Q : Type) where
  | query (q : Q)
  | into (q : Q) (x : Key)
  | shell (cmd : Str)
  | file (ctx : List Nat) (ts : List (Job Q))

/-- What has been run, in order. -/
inductive Event (Q : Type) where
  | query (ctx : List Nat) (q : Q)
  | into (ctx : List Nat) (q : Q) (x : Key)
  | shell (cmd : Str)
  deriving DecidableEq

/-- What the statements change: configuration, results and what is printed. -/
structure World (Q V S : Type) where
  env : Heap V
  /-- `session_config.config` (0: `global_config.config`) -/
  own : Nat → Cfg
  store : S
  log : List (Event Q)

/-- The parameters: Python's numbers, the library's defaults and JSON, the texts and what they mean. -/
structure Lang (T Q V S : Type) where
  py : Py
  ofVal : Val → V
  D : Cfg
  loads : J → Option J
  /-- executor.py:142-156, compiler.py:113-133; `none` is an exception -/
  compile : List (Dict Key V) → T → Option (Stmt Q)
  /-- set.py:26: `select … into …` compiles to this query -/
  selectOf : Str → Option Q
  /-- `FileParser(filename).load()` (parser.py:126-142); `none` is an exception -/
  files : Str → Option (List T)
  jsons : Str → Option Q
  /-- `__import__` succeeds -/
  importable : Str → Bool
  /-- `os.path.exists` -/
  pathExists : Str → Bool
  /-- `QueryTasker.run`, `false` for an exception -/
  query : Q → List (Dict Key V) → S → S × Bool
  /-- the value `IntoTasker.run` stores (`Model.Into`), `none` for an exception -/
  value : Q → List (Dict Key V) → S → S × Option V

variable {T Q V S : Type}

/-! ### SET -/

/-- compiler.py:151-155, 174-175: the text is cut at the first `=`. -/
def cutSet (text : Str) : Str × Str := (strip (text.takeWhile (· ≠ '=')), strip ((text.dropWhile (· ≠ '=')).drop 1))

/-- set.py:15: the sections of the configuration. -/
def sections : List Str :=
  ["databases".toList, "imports".toList, "sources".toList, "defines".toList, "variables".toList, "options".toList, "caches".toList]

/-- What a SET addresses; the flag is `is_global`. -/
inductive Target where
  | config (key : Str) (glob : Bool)
  | variable (key : Str) (glob : Bool)
  deriving DecidableEq, Repr

/-- set.py:10-22. -/
def target (key0 : Str) : Target :=
  let glob := lower (key0.take 6) = "global".toList
  let key := if glob then strip (key0.drop 6) else key0
  let name := (key.takeWhile (· ≠ '.')).drop 1
  if name ∈ sections then .config (key.drop 1) glob
  else if name = "virtual_views".toList then .config ("databases.".toList ++ key.drop 1) glob
  else if key.take 7 = "@config".toList then .config (strip (key.drop 8)) glob
  else .variable key glob

/-- `str(key).split(".")` (config.py:39). -/
def pathOf (key : Str) : List Str := Str.splitGo ['.'] [] key

/-- The value handed to `GlobalConfig.set`; NULL is `None`. -/
def toJ : Val → Option J
  | .null => none
  | .bool b => some (.bool b)
  | .int i => some (.int i)
  | .flt q => some (.flt q)
  | .str s => some (.str s)

/-- config.py:37-115 on the session (or global configuration) of this address. -/
def setConfig (L : Lang T Q V S) (w : World Q V S) (a : Nat) (key : Str) (v : Val) : World Q V S :=
  { w with own := fun b => if b = a then setKey L.loads (w.own a) (pathOf key) (toJ v) else w.own b }

/-- into.py:11-15: an unknown variable is NULL from here on. -/
def define (L : Lang T Q V S) (ctx : List Nat) (w : World Q V S) (x : Key) : World Q V S :=
  match ctx with
  | [] => w
  | a :: _ => if ((w.env.dict a).get? x).isSome then w else { w with env := w.env.write a x (L.ofVal .null) }

/-- set.py:9-31 `start`; `none` is an exception, which leaves the effects before it. -/
def startSet (L : Lang T Q V S) (ctx : List Nat) (w : World Q V S) (text : Str) : World Q V S × Option (List (Job Q)) :=
  let kv := cutSet text
  let own := ctx.head?.getD 0
  match target kv.1, L.py.setParse kv.2 with
  | .config _ _, none => (w, none)
  | .config key true, some v => (setConfig L w 0 key v, none)                 -- 33-36: `session_config.merge` does not exist
  | .config key false, some v => (setConfig L w own key v, some [])
  | .variable key true, some v => ({ w with env := w.env.write 0 key (L.ofVal v) }, some [])
  | .variable key false, some v => ({ w with env := w.env.write own key (L.ofVal v) }, some [])
  | .variable key _, none =>
    if key.take 1 = ['@'] ∧ kv.2 ≠ [] then
      match L.selectOf kv.2 with
      | some q => (define L ctx w key, some [.into q key])
      | none => (w, none)
    else (w, none)

/-! ### USE -/

/-- use.py:12-26. -/
def startUse (L : Lang T Q V S) (ctx : List Nat) (w : World Q V S) (text : Str) : World Q V S × Option (List (Job Q)) :=
  match (Str.splitGo " as ".toList [] text).map strip with
  | [] => (w, none)
  | m :: more =>
    if m = [] then (w, some [])
    else if L.importable m = false then (w, none)
    else
      let sect := if L.pathExists m then "sources.".toList else "imports.".toList
      let name := match more with
        | [] => (pathOf m).getLast?.getD []
        | a :: _ => a
      (setConfig L w (ctx.head?.getD 0) (sect ++ name) (.str m), some [])

/-! ### EXECUTE -/

/-- Python `s.endswith(t)`. -/
def endsWith (s t : Str) : Bool := t.isSuffixOf s

/-- execute.py:20-23, executor.py:92-102, config.py:292-298: a new executor and session. -/
def child (L : Lang T Q V S) (ctx : List Nat) (w : World Q V S) : World Q V S × List Nat :=
  ({ w with env := (newContext w.env ctx).1, own := fun b => if b = w.env.next then L.D else w.own b }, (newContext w.env ctx).2)

/-- Files of statements. -/
def isSqlFile (f : Str) : Bool := endsWith f ".sql".toList || endsWith f ".sqlx".toList || endsWith f ".prql".toList

mutual
/-- executor.py:158-168 and the taskers' `start`.  The first argument is the depth of nested EXECUTEs Python's stack allows. -/
def start (L : Lang T Q V S) : Nat → List Nat → World Q V S → Stmt Q → World Q V S × Option (List (Job Q))
  | _, _, w, .query q => (w, some [.query q])
  | _, _, w, .delete q => (w, some [.query q])                              -- delete.py:26-32
  | _, ctx, w, .into q x => (define L ctx w x, some [.into q x])
  | _, ctx, w, .set text => startSet L ctx w text
  | _, ctx, w, .use text => startUse L ctx w text
  | _, _, w, .show _ => (w, some [])                                        -- show.py:12-17
  | _, _, w, .explain (.query q) => (w, some [.query q])                    -- explain.py:16-30
  | _, _, w, .explain _ => (w, none)                                        -- `self.config["name"]`: only queries have one
  | 0, _, w, .execute _ => (w, none)                                        -- RecursionError
  | n + 1, ctx, w, .execute f =>                                            -- execute.py:16-54
    if isSqlFile f then
      let wc := child L ctx w
      match L.files f with
      | none => (wc.1, none)
      | some ss =>
        match startAll L n wc.2 wc.1 ss with
        | (w', some ts) => (w', some [.file wc.2 ts])
        | (w', none) => (w', none)
    else if endsWith f ".json".toList then
      let wc := child L ctx w
      match L.jsons f with
      | none => (wc.1, none)
      | some q => (wc.1, some [.file wc.2 [.query q]])
    else (w, some [.shell f])
  termination_by n _ _ _ => (n, 0)
/-- executor.py:142-168 `run`; the queue when every statement started, `none` when one raised (what was queued before it stays in
the queue of this executor: `Model.Executor`). -/
def startAll (L : Lang T Q V S) : Nat → List Nat → World Q V S → List T → World Q V S × Option (List (Job Q))
  | _, _, w, [] => (w, some [])
  | n, ctx, w, t :: ss =>
    match L.compile (w.env.chain ctx) t with
    | none => (w, none)
    | some s =>
      match start L n ctx w s with
      | (w', none) => (w', none)
      | (w', some ts) =>
        match startAll L n ctx w' ss with
        | (w'', some ts') => (w'', some (ts ++ ts'))
        | (w'', none) => (w'', none)
  termination_by n _ _ ss => (n, ss.length + 1)
end

mutual
/-- The taskers' `run`; the flag is `false` for an exception. -/
def runTask (L : Lang T Q V S) (ctx : List Nat) (w : World Q V S) : Job Q → World Q V S × Bool
  | .query q =>
    let r := L.query q (w.env.chain ctx) w.store
    ({ w with store := r.1, log := w.log ++ [.query ctx q] }, r.2)
  | .into q x =>                                                            -- into.py:21-66 with one variable
    let r := L.value q (w.env.chain ctx) w.store
    let w' : World Q V S := { w with store := r.1, log := w.log ++ [.into ctx q x] }
    match r.2 with
    | none => (w', false)
    | some v => ({ w' with env := w'.env.write (ctx.head?.getD 0) x v }, true)
  | .shell c => ({ w with log := w.log ++ [.shell c] }, true)               -- execute.py:59-64
  | .file c ts => runTasks L c w ts                                         -- execute.py:65-66
/-- executor.py:170-177: until the queue is empty or an exception. -/
def runTasks (L : Lang T Q V S) (ctx : List Nat) (w : World Q V S) : List (Job Q) → World Q V S × Bool
  | [] => (w, true)
  | t :: ts =>
    match runTask L ctx w t with
    | (w', true) => runTasks L ctx w' ts
    | (w', false) => (w', false)
end

end Verif.Command
