import Verif.Model.Config
/-!
Model of how the tasks of a query get the settings of their session: every query extends `context://session/config`
(compiler.py:182, 211); executor.py:24-38 `ContextConfigReader` reads that as `SessionConfig.get_tasker_extend_config` of the current
executor (config.py:321-326), and `context://session/config/name` as one section.  It is read when the statement is submitted
(executor.py:168, `tasker.start`).
-/
namespace Verif.QueryConfig
open Verif.Val Verif.Json Verif.Config

/-- config.py:289-290 `TASKER_EXTEND_KEYS`. -/
def extendKeys : List Str :=
  ["extends".toList, "databases".toList, "caches".toList, "imports".toList, "sources".toList, "defines".toList, "variables".toList,
   "options".toList, "states".toList]

/-- config.py:324-325: the sections that are passed. -/
def restrict (c : Cfg) : Cfg := extendKeys.filterMap fun k => (look k c).map fun v => (k, v)

/-- The sessions of `Model/Config`, each also with the sections it passed last (config.py:298). -/
structure State where
  cfg : Config.State
  ext : Nat → Option Cfg

/-- config.py:321-326 `get_tasker_extend_config`. -/
def getExt (D : Cfg) (s : State) (n : Nat) : Cfg × State :=
  match s.ext n with
  | some e => (e, s)
  | none =>
    let e := restrict (getCfg D s.cfg n).1
    (e, ⟨(getCfg D s.cfg n).2, setAt s.ext n (some e)⟩)

/-- executor.py:29-38: the answer of the reader to `context://` followed by the names; `none`: no executor. -/
def read (D : Cfg) (s : State) (session : Option Nat) (path : List Str) : Cfg × State :=
  match session with
  | none => ([], s)
  | some n =>
    match path with
    | a :: b :: rest =>
      if a = "session".toList ∧ b = "config".toList then
        match rest with
        | [] => getExt D s n
        | k :: _ =>
          let g := getCfg D s.cfg n
          ((((look k g.1).or (look k D)).map fun v => (k, v)).toList, ⟨g.2, s.ext⟩)
      else ([], s)
    | _ => ([], s)

/-- What happens: a SET, a reading of the configuration (SHOW and others), the submission of a query. -/
inductive Op where
  | set (n : Nat) (path : List Str) (v : Option J)
  | get (n : Nat)
  | query (n : Nat)

/-- One of them: a query's settings, and the state afterwards.  config.py:310-313 `set` drops both. -/
def step (D : Cfg) (loads : J → Option J) (s : State) : Op → Option Cfg × State
  | .set n path v => (none, ⟨setCfg loads s.cfg n path v, setAt s.ext n none⟩)
  | .get n => (none, ⟨(getCfg D s.cfg n).2, s.ext⟩)
  | .query n => let r := read D s (some n) ["session".toList, "config".toList]; (some r.1, r.2)

/-- The settings of the queries of a history, in order. -/
def queries (D : Cfg) (loads : J → Option J) : State → List Op → List Cfg
  | _, [] => []
  | s, op :: ops => (step D loads s op).1.toList ++ queries D loads (step D loads s op).2 ops

/-- The state after a history. -/
def run (D : Cfg) (loads : J → Option J) (s : State) (ops : List Op) : State := ops.foldl (fun s op => (step D loads s op).2) s

/-- Nothing read yet. -/
def start (D : Cfg) : State := ⟨Config.start D, fun _ => none⟩

end Verif.QueryConfig
