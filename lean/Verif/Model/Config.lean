import Verif.Model.Json
/-!
Model of the configurations (syncanysql/config.py): merging, sessions and their cache, SET on configuration keys.

A configuration is a dictionary of sections.  Sections are typed by what they hold: a plain value, a dictionary, a list of named
entries (databases, caches), a list.  `CoreTasker.DEFAULT_CONFIG` belongs to the syncany library and is a parameter.  Copies are
deep in Python where the code copies; sharing between a configuration and the argument of `merge_config` is not modelled.
-/
namespace Verif.Config
open Verif.Val Verif.Json

/-! ### Dictionaries (in insertion order) -/

variable {α : Type}

/-- `d.get(k)`. -/
def look (k : Str) : List (Str × α) → Option α
  | [] => none
  | (k', v) :: d => if k' = k then some v else look k d

/-- `d[k] = v`. -/
def ins (k : Str) (v : α) : List (Str × α) → List (Str × α)
  | [] => [(k, v)]
  | (k', v') :: d => if k' = k then (k', v) :: d else (k', v') :: ins k v d

/-- `d.pop(k, None)`. -/
def del (k : Str) (d : List (Str × α)) : List (Str × α) := d.filter fun x => x.1 ≠ k

/-- `d.update(e)`. -/
def update (d e : List (Str × α)) : List (Str × α) := e.foldl (fun d kv => ins kv.1 kv.2 d) d

/-! ### Sections -/

/-- A database or cache: its name and its other properties. -/
structure Db where
  name : Str
  props : List (Str × J)

/-- The values of the top-level keys. -/
inductive Sect where
  | plain (v : J)
  | dict (d : List (Str × J))
  | named (l : List Db)
  | list (l : List J)

/-- A configuration (config.py:17-24). -/
abbrev Cfg := List (Str × Sect)

/-- The keys with dictionaries (config.py:42-66). -/
def dictKeys : List Str :=
  ["arguments".toList, "imports".toList, "defines".toList, "variables".toList, "sources".toList, "logger".toList, "options".toList]
/-- The keys with lists of named dictionaries (config.py:42-66). -/
def namedKeys : List Str := ["databases".toList, "caches".toList]
/-- The key of the pipelines. -/
def pipelinesKey : Str := "pipelines".toList
/-- The keys with lists (config.py:42-66). -/
def listKeys : List Str := ["states".toList, "executes".toList]

/-! ### merge_config -/

/-- Updating the last entry of the name (`vs` of config.py:242 keeps the last). -/
def updateLast (d : Db) : List Db → List Db
  | [] => []
  | e :: l => if l.any (fun x => x.name = d.name) then e :: updateLast d l
    else if e.name = d.name then { e with props := update e.props d.props } :: l
    else e :: l

/-- config.py:242-247: entries known by name are updated, others appended (`vs` holds the names known before). -/
def mergeNamed (e : List Db) (l : List Db) : List Db :=
  let r := l.foldl (fun (acc : List Db × List Db) d =>
    if e.any (fun x => x.name = d.name) then (updateLast d acc.1, acc.2) else (acc.1, acc.2 ++ [d])) (e, [])
  r.1 ++ r.2

/-- config.py:249-256: what counts as a list of pipelines. -/
def pipelinesOf : Sect → List J
  | .list [] => []
  | .list (.str s :: l) => [.arr (.str s :: l)]
  | .list l => l
  | .plain .null => []
  | .plain v => [v]
  | .dict d => [.obj d]
  | .named _ => []

/-- config.py:258-262 `v if isinstance(v, list) else [v]`. -/
def listOf : Sect → List J
  | .list l => l
  | .plain v => [v]
  | .dict d => [.obj d]
  | .named l => l.map fun d => .obj ((("name".toList), .str d.name) :: d.props)

/-- config.py:226-264: one key of `merge_config`.  (A missing `pipelines` is a `KeyError` in Python; the default configuration has
one.) -/
def merge1 (c : Cfg) (k : Str) (v : Sect) : Cfg :=
  if k ∈ dictKeys then
    match v, look k c with
    | .dict d, none => ins k (.dict d) c
    | .dict d, some (.dict e) => ins k (.dict (update e d)) c
    | _, _ => c
  else if k ∈ namedKeys then
    match v, look k c with
    | .named d, none => ins k (.named d) c
    | .named d, some (.named e) => ins k (.named (mergeNamed e d)) c
    | _, _ => c
  else if k = pipelinesKey then
    ins k (.list ((match look k c with | some s => pipelinesOf s | none => []) ++ pipelinesOf v)) c
  else if k ∈ listKeys then
    match look k c with
    | some (.list (x :: l)) => ins k (.list ((x :: l) ++ listOf v)) c
    | _ => ins k (.list (listOf v)) c
  else ins k v c

/-- config.py:225-264 `merge_config`. -/
def merge (c d : Cfg) : Cfg := d.foldl (fun c kv => merge1 c kv.1 kv.2) c

/-! ### set -/

/-- config.py:48-56: the first database of the name, appended when there is none. -/
def ensureDb (n : Str) (l : List Db) : List Db := if l.any (fun d => d.name = n) then l else l ++ [⟨n, []⟩]

/-- A change of the first database of the name. -/
def onDb (n : Str) (f : Db → Option Db) : List Db → List Db
  | [] => []
  | d :: l => if d.name = n then (match f d with | some d' => d' :: l | none => l) else d :: onDb n f l

/-- The databases section. -/
def dbsOf (c : Cfg) : List Db := match look "databases".toList c with | some (.named l) => l | _ => []

/-- The dictionary under a key. -/
def dictOf (k : Str) (c : Cfg) : List (Str × J) := match look k c with | some (.dict d) => d | _ => []

/-- config.py:37-115 `GlobalConfig.set`; `none` is SQL NULL, `loads` is `json.loads` (`none` for an exception, also for values
that are not texts).  Virtual views, and `caches`, which `set` treats as a dictionary and `merge_config` as a list, are left out. -/
def setKey (loads : J → Option J) (c : Cfg) (path : List Str) (v : Option J) : Cfg :=
  match path with
  | [] => c
  | [k] => match v with
    | none => del k c
    | some v => ins k (.plain v) c
  | k :: n :: rest =>
    if k = "databases".toList then
      let l := ensureDb n (dbsOf c)
      match rest, v with
      | [], none => ins k (.named (onDb n (fun _ => none) l)) c
      | [], some v => ins k (.named (onDb n (fun _ => some (match loads v with
          | some (.obj d) => ⟨n, del "name".toList d⟩
          | _ => ⟨n, []⟩)) l)) c
      | p :: _, none => ins k (.named (onDb n (fun d => some { d with props := del p d.props }) l)) c
      | p :: _, some v => ins k (.named (onDb n (fun d => some (match loads v with
          | some x => { d with props := ins p x d.props }
          | none => d)) l)) c
    else if k = "imports".toList ∨ k = "sources".toList then
      match v with
      | none => ins k (.dict (del n (dictOf k c))) c
      | some v => ins k (.dict (ins n v (dictOf k c))) c
    else if k = "defines".toList ∨ k = "variables".toList ∨ k = "options".toList then
      match v with
      | none => ins k (.dict (del n (dictOf k c))) c
      | some v => ins k (.dict (ins n ((loads v).getD v) (dictOf k c))) c
    else c

/-! ### Sessions -/

/-- Level 0 is the global configuration, level `n + 1` a session whose parent is level `n` (config.py:284-298, 315-316).  Each has
its own settings and, sessions, a cache. -/
structure State where
  own : Nat → Cfg
  cache : Nat → Option Cfg

/-- The function changed at one place. -/
def setAt {β : Type} (f : Nat → β) (n : Nat) (b : β) : Nat → β := fun m => if m = n then b else f m

/-- config.py:34-35, 300-308 `get`: the value and the state afterwards. -/
def getCfg (D : Cfg) (s : State) : Nat → Cfg × State
  | 0 => (s.own 0, s)
  | n + 1 => match s.cache (n + 1) with
    | some c => (c, s)
    | none =>
      let (p, s') := getCfg D s n
      let c := merge (merge D p) (s'.own (n + 1))
      (c, { s' with cache := setAt s'.cache (n + 1) (some c) })

/-- config.py:37, 310-313 `set`: the session's own cache is dropped. -/
def setCfg (loads : J → Option J) (s : State) (n : Nat) (path : List Str) (v : Option J) : State :=
  { own := setAt s.own n (setKey loads (s.own n) path v), cache := setAt s.cache n none }

/-- What happens to the sessions: a SET, and reading a value. -/
inductive Op where
  | set (n : Nat) (path : List Str) (v : Option J)
  | get (n : Nat)

/-- One of them. -/
def step (D : Cfg) (loads : J → Option J) (s : State) : Op → State
  | .set n path v => setCfg loads s n path v
  | .get n => (getCfg D s n).2

/-- All of them, in order. -/
def run (D : Cfg) (loads : J → Option J) (s : State) (ops : List Op) : State := ops.foldl (step D loads) s

/-- config.py:292-298 `SessionConfig.__init__` (and 28-29): every level starts with a copy of the defaults. -/
def start (D : Cfg) : State := ⟨fun _ => D, fun _ => none⟩

end Verif.Config
