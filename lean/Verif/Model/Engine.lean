/-!
Model of the embedding API (__init__.py:28-263 `ExecuterContext`, `ScriptEngine`, module functions): the life of an engine, the
in-memory tables, the current context.  Variables are in `Model.Env`, statements in `Model.Executor`.

The memory database belongs to the library syncany; assumed of it: an insert appends rows to a table, a query returns them in
order, a delete removes them all.  One thread, one engine (the default instance is one, too).  Rows are opaque; that
`get_memory_datas` returns the stored row objects themselves is not modelled.
-/
namespace Verif.Engine

/-- Names. -/
abbrev Name := List Char

/-- The exceptions of the API. -/
inductive Err where
  /-- AttributeError -/
  | attribute
  /-- whatever an init file raises -/
  | initFile
  deriving DecidableEq, Repr

/-- __init__.py:99-104.  `config`: `self.config is not None`; `ready`: `self.manager is not None` (and `self.executor`: both are set by
`setup` before the init files run, and reset by `close`); `inits`: how often the init files were run; `mem`: the memory tables.
`cur`: `ExecuterContext._thread_local.current_executer_context`, `none` when it was never assigned.  `stopped`: calls of
`Executor.terminate` that reached the engine's or a context's executor. -/
structure St (D : Type) where
  config : Bool := true
  ready : Bool := false
  inits : Nat := 0
  mem : Name → List D := fun _ => []
  cur : Option (Option Nat) := none
  stopped : Nat := 0

/-- The argument of `push_memory_datas`: a list of rows or one row. -/
inductive Arg (D : Type) where
  | one (d : D)
  | many (ds : List D)

/-- __init__.py:186: `datas if isinstance(datas, list) else [datas]`. -/
def Arg.rows {D : Type} : Arg D → List D
  | .one d => [d]
  | .many ds => ds

/-- Calls. -/
inductive Call (D : Type) where
  | get (n : Name)
  | pop (n : Name)
  | push (n : Name) (a : Arg D)
  /-- the methods of a context -/
  | ctxGet (n : Name)
  | ctxPop (n : Name)
  | ctxPush (n : Name) (a : Arg D)
  /-- `syncanysql.push_memory_datas` -/
  | modPush (n : Name) (a : Arg D)
  /-- `engine.context()`, `engine.execute()`, `engine.get_variable()`, …: everything that starts with `setup` -/
  | use
  /-- `with` a context: begin and end -/
  | enter (c : Nat)
  | exit
  | terminal
  | close

/-- Results. -/
inductive Res (D : Type) where
  | rows (ds : List D)
  | done
  | raised (e : Err)
  deriving DecidableEq

/-- __init__.py:106-119 `setup`; `initOk`: the init files run without exception. -/
def setup {D : Type} (initOk : Bool) (s : St D) : St D × Option Err :=
  if s.ready then (s, none)
  else if s.config = false then (s, some .attribute)
  else ({ s with ready := true, inits := s.inits + 1 }, if initOk then none else some .initFile)

/-- __init__.py:167-172 `get_memory_datas`. -/
def getMem {D : Type} (s : St D) (n : Name) : St D × Res D :=
  if s.ready = false then (s, .rows []) else (s, .rows (s.mem n))

/-- __init__.py:174-182 `pop_memory_datas`. -/
def popMem {D : Type} (s : St D) (n : Name) : St D × Res D :=
  if s.ready = false then (s, .rows [])
  else ({ s with mem := fun m => if m = n then [] else s.mem m }, .rows (s.mem n))

/-- __init__.py:184-187 `push_memory_datas` (`get_database` calls `setup`, 151-153). -/
def pushMem {D : Type} (initOk : Bool) (s : St D) (n : Name) (a : Arg D) : St D × Res D :=
  match setup initOk s with
  | (s', some e) => (s', .raised e)
  | (s', none) => ({ s' with mem := fun m => if m = n then s'.mem m ++ a.rows else s'.mem m }, .done)

/-- __init__.py:189-196 `terminal`; `ExecuterContext` has no method `terminate`. -/
def terminal {D : Type} (s : St D) : St D × Res D :=
  match s.cur with
  | none => (s, .raised .attribute)
  | some none => if s.ready = false then (s, .done) else ({ s with stopped := s.stopped + 1 }, .done)
  | some (some _) => (s, .raised .attribute)

/-- One call. -/
def step {D : Type} (initOk : Bool) (s : St D) : Call D → St D × Res D
  | .get n => getMem s n
  | .pop n => popMem s n
  | .push n a => pushMem initOk s n a
  | .ctxGet n => getMem s n                                   -- 64-65
  | .ctxPop n => popMem s n                                   -- 67-68
  | .ctxPush _ _ => (s, .raised .attribute)                   -- 70-71: `engine.push_datas` does not exist
  | .modPush _ _ => (s, .raised .attribute)                   -- 251-252: likewise
  | .use =>                                                   -- 120-149
    match setup initOk s with
    | (s', some e) => (s', .raised e)
    | (s', none) => (s', .done)
  | .enter c => ({ s with cur := some (some c) }, .done)      -- 78-80
  | .exit => ({ s with cur := some none }, .done)             -- 82-83
  | .terminal => terminal s
  | .close => ({ s with config := false, ready := false }, .done) -- 198-207

/-- The results of a sequence of calls, and the last state. -/
def run {D : Type} (initOk : Bool) : St D → List (Call D) → St D × List (Res D)
  | s, [] => (s, [])
  | s, c :: cs =>
    let r := step initOk s c
    let rest := run initOk r.1 cs
    (rest.1, r.2 :: rest.2)

/-! ### Numbering of tasks -/

/-- executor.py:213-217 `distribute_tasker_index`: an executor with a parent asks its parent, so that the root of the tree counts.
`parent` gives the parent of an executor, `root` finds the root within `fuel` steps; `idx` are the counters (0 at first: 87). -/
def root (parent : Nat → Option Nat) : Nat → Nat → Nat
  | 0, e => e
  | fuel + 1, e => match parent e with
    | none => e
    | some p => root parent fuel p

/-- The number handed out, and the counters afterwards. -/
def distribute (rootOf : Nat → Nat) (idx : Nat → Nat) (e : Nat) : (Nat → Nat) × Nat :=
  (fun r => if r = rootOf e then idx r + 1 else idx r, idx (rootOf e) + 1)

/-! ### The command line (main.py:19-93) -/

/-- `os.path.splitext(p)[1]` on POSIX (library): from the last dot of the last component, which must not be among its leading dots. -/
def splitext (p : List Char) : List Char :=
  let base := (p.reverse.takeWhile (· ≠ '/')).reverse
  let body := base.dropWhile (· = '.')
  if '.' ∈ body then '.' :: (body.reverse.takeWhile (· ≠ '.')).reverse else []

/-- What the program does. -/
inductive Action where
  /-- prints the usage, exit code 2 -/
  | usage
  /-- runs the file -/
  | file (path : List Char)
  /-- runs the text -/
  | pipe (text : List Char)
  /-- nothing to do -/
  | nothing
  /-- compiles the text, then fails before running it: exit code 1 -/
  | pipeFails (text : List Char)
  | prompt
  deriving DecidableEq

/-- main.py:27: the extensions. -/
def isSqlExt (e : List Char) : Bool := e = ".sql".toList || e = ".sqlx".toList || e = ".prql".toList

/-- Python `str.strip()` with `isSp` as the blanks. -/
def strip (isSp : Char → Bool) (s : List Char) : List Char :=
  ((s.dropWhile isSp).reverse.dropWhile isSp).reverse

/-- `"` or `'`. -/
def isQuote (c : Char) : Bool := c = '"' || c = '\''

/-- main.py:57: one character is removed at both ends when both are quotes. -/
def unquote (s : List Char) : List Char :=
  match s, s.getLast? with
  | c :: _, some d => if isQuote c && isQuote d then (s.drop 1).take (s.length - 2) else s
  | _, _ => s

/-- main.py:19-85; `args` are the arguments after the program name, `tty`: standard input is a terminal, `lower`: `str.lower`.  In line 60
`sys.argv[1]` is evaluated whether or not there is an argument. -/
def main (lower : List Char → List Char) (isSp : Char → Bool) (tty : Bool) (args : List (List Char)) (stdin : List Char) : Action :=
  let ext : Option (List Char) := args.head?.map fun a => lower (splitext a)
  let sql := match ext with | some e => isSqlExt e | none => false
  if tty && (match ext with | some e => decide (e ≠ []) | none => false) && !sql then .usage
  else if !tty && !sql then
    let content := strip isSp stdin
    if content = [] then .nothing
    else match args with
      | [] => .pipeFails (unquote content)
      | _ :: _ => .pipe (unquote content)
  else match args with
    | a :: _ => .file a
    | [] => .prompt

end Verif.Engine
