import Verif.Model.Env
import Verif.Model.Column
/-!
Model of the global variables of the process (executor.py:47-62 `EnvVariables.build_global`, prompt.py:259-262 `%cd`) and of the
execution options every statement is compiled with (executor.py:158-167).
-/
namespace Verif.Globals
open Verif.Env

/-- The values occurring here: texts, `True`/`False`, `None` and integers. -/
inductive GVal where
  | text (s : List Char)
  | bool (b : Bool)
  | int (n : Int)
  | null
  deriving DecidableEq, Repr

/-- What `build_global` looks at: `os.environ` (in its order), `expanduser('~')`, `session_config.get_home()`, `os.getcwd()`,
`sys.platform` and `sys.argv`. -/
structure Process where
  environ : List (Key × List Char)
  home : List Char
  syncanyHome : List Char
  cwd : List Char
  platform : List Char
  argv : List (List Char)

/-- executor.py:55-58, 59-61: the value of one argument, from the pieces of `arg[2:].split("=")`.  `s[1:-1]` is `s` without its first and
last character (empty when there is only one). -/
def argValue (pieces : List (List Char)) : GVal :=
  match pieces with
  | _ :: v :: _ =>
    match v with
    | c :: r => if c = '"' || c = '\'' then .text r.dropLast else .text (c :: r)
    | [] => .text []
  | _ => .bool true

/-- executor.py:55-61: one turn of the loop over `sys.argv`. -/
def argStep (g : Dict Key GVal) (arg : List Char) : Dict Key GVal :=
  if arg.take 2 ≠ ['-', '-'] then g
  else
    let info := Column.pieces '=' (arg.drop 2)
    g.set (info.headD []) (argValue info)

/-- executor.py:49-50: `update({key.lower(): value …})`. -/
def environStep (lower : Key → Key) (g : Dict Key GVal) (kv : Key × List Char) : Dict Key GVal := g.set (lower kv.1) (.text kv.2)

/-- executor.py:47-62 `build_global`.  (`lower` is Python's `str.lower`.) -/
def buildGlobal (lower : Key → Key) (p : Process) : Dict Key GVal :=
  let g := p.environ.foldl (environStep lower) []
  let g := g.set "home".toList (.text p.home)
  let g := g.set "syncany_home".toList (.text p.syncanyHome)
  let g := g.set "cwd".toList (.text p.cwd)
  let g := g.set "platform".toList (.text p.platform)
  p.argv.foldl argStep g

/-- prompt.py:259-262 `%cd dir`: `global_env_variables["cwd"] = os.getcwd()`. -/
def changeDir (g : Dict Key GVal) (cwd : List Char) : Dict Key GVal := g.set "cwd".toList (.text cwd)

/-- executor.py:161-166: the options of a statement and their defaults (`@primary_order` is always `False`). -/
def options : List (Key × GVal) :=
  [("@verbose".toList, .bool false), ("@timeout".toList, .int 0), ("@limit".toList, .int 0), ("@batch".toList, .int 0),
   ("@streaming".toList, .bool false), ("@recovery".toList, .bool false), ("@join_batch".toList, .int 10000),
   ("@insert_batch".toList, .int 0), ("@use_input".toList, .null), ("@use_output".toList, .null), ("@use_output_type".toList, .null)]

/-- executor.py:158-166: the `arguments` a statement is compiled with, given the environment chain of the executor. -/
def arguments (chain : List (Dict Key GVal)) : Dict Key GVal :=
  options.map (fun o => (o.1, getDefault chain o.1 o.2)) ++ [("@primary_order".toList, .bool false)]

end Verif.Globals
