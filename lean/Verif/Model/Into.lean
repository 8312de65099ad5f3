import Verif.Model.Env
/-! Model of `SELECT ... INTO` (taskers/into.py:11-66). -/
namespace Verif.Into
open Verif.Env

variable {V : Type}

/-- A result row: column name to value. -/
abbrev Row (V : Type) := Dict Key V

/-- What a variable can hold after `SELECT INTO`. -/
inductive Stored (V : Type) where
  /-- a single value (`V` includes NULL) -/
  | scalar (v : V)
  /-- a list of values -/
  | column (vs : List V)
  /-- a mapping -/
  | row (r : Row V)
  /-- a list of mappings -/
  | rows (rs : List (Row V))
  deriving DecidableEq, Repr

/-- `{key: data.get(key) for key in schema_keys}` (the schema keys are dictionary keys, so distinct). -/
def project (null : V) (keys : List Key) (r : Row V) : Row V := keys.map fun k => (k, (r.get? k).getD null)

/-- into.py:35-48: the value computed from the result rows.  `keys` is `schema_keys` (`[]` when the schema is not a
dictionary, e.g. `SELECT *`); `single` tells whether there is exactly one variable. -/
def shape (null : V) (keys : List Key) (single : Bool) (datas : List (Row V)) : Stored V :=
  match keys with
  | [] =>
    match datas with
    | [r] =>
      match single, r with
      | true, [(_, v)] => .scalar v
      | _, _ => .row r
    | _ => .rows datas
  | [k] =>
    match datas with
    | [r] => .scalar ((r.get? k).getD null)
    | _ => .column (datas.filterMap fun r => r.get? k)
  | _ =>
    match datas with
    | [r] => .row (project null keys r)
    | _ => .rows (datas.map (project null keys))

/-- into.py:11-15 `start`: variables not in the context's own dictionary are defined as NULL. -/
def start (null : V) (vars : List Key) (env : Dict Key (Stored V)) : Dict Key (Stored V) :=
  vars.foldl (fun env v => if (env.get? v).isSome then env else env.set v (.scalar null)) env

/-- into.py:56-65: assignment of the `i`-th of several variables. -/
def assignNth (null : V) (keys : List Key) (value : Stored V) (env : Dict Key (Stored V)) (v : Key) (i : Nat) :
    Option (Dict Key (Stored V)) :=
  if keys = [] then none
  else match keys[i]? with
    | none => some (if (env.get? v).isSome then env.set v (.scalar null) else env)
    | some k =>
      match value with
      | .row r => (r.get? k).map fun x => env.set v (.scalar x)
      | .rows rs => (rs.mapM fun (r : Row V) => r.get? k).map fun xs => env.set v (.column xs)
      | .column [] => some (env.set v (.column []))
      | _ => none

/-- into.py:56-65: the loop over several variables. -/
def assignAll (null : V) (keys : List Key) (value : Stored V) : List Key → Nat → Dict Key (Stored V) →
    Option (Dict Key (Stored V))
  | [], _, env => some env
  | v :: vars, i, env =>
    match assignNth null keys value env v i with
    | none => none
    | some env' => assignAll null keys value vars (i + 1) env'

/-- into.py:50-65: the assignments.  `none` is an exception (`len(None)`, or indexing a scalar).  The first branch
is `value is None`. -/
def assign [DecidableEq V] (null : V) (keys : List Key) (vars : List Key) (value : Stored V)
    (env : Dict Key (Stored V)) : Option (Dict Key (Stored V)) :=
  match vars with
  | [v] =>
    if value = .scalar null then
      some (if (env.get? v).isSome then env.set v (.scalar null) else env)
    else some (env.set v value)
  | _ => assignAll null keys value vars 0 env

/-- into.py:11-66: `start` then `run` of one `SELECT ... INTO`, with result rows `datas`. -/
def selectInto [DecidableEq V] (null : V) (keys vars : List Key) (datas : List (Row V))
    (env : Dict Key (Stored V)) : Option (Dict Key (Stored V)) :=
  assign null keys vars (shape null keys (vars.length = 1) datas) (start null vars env)

end Verif.Into
