import Verif.Model.Scalar
/-!
Model of calls of SQL functions: `syncanysql/calculaters/mysql_calculater.py` (the whole file), the name of a called function
(compiler.py:1540-1617) and the mathematical functions of number_funcs.py.

The decorator `typing_filter` of the library is taken to return the function it is given (`MysqlCalculater.__init__` looks at its
number of arguments and its variables).  The conversion of a result to the declared type is left to the library.
-/
namespace Verif.Call
open Verif.Val

/-- A Python function: `params` positional parameters, of which the last have defaults, `rest`: it has a `*args`, `locals` further
local variables; `none`: the body raises. -/
structure Fn (V : Type) where
  params : Nat
  defaults : List V := []
  rest : Bool := false
  locals : Nat := 0
  body : List V → Option V

/-- A Python call `f(*args)`; `none`: an exception (of the call or of the body). -/
def Fn.apply {V : Type} (f : Fn V) (args : List V) : Option V :=
  if f.params < args.length ∧ f.rest = false then none
  else if args.length + f.defaults.length < f.params then none
  else f.body (args ++ f.defaults.drop (f.defaults.length - (f.params - args.length)))

/-- What a call does to the query. -/
inductive Outcome (V : Type) where
  | value (v : V)
  | raised

/-- mysql_calculater.py:26-41: functions with no variables but their parameters, at most four, are called by `calculate0` …
`calculate4`. -/
def Fn.fast {V : Type} (f : Fn V) : Bool := !f.rest && decide (f.locals = 0) && decide (f.params ≤ 4)

/-- mysql_calculater.py:44-102 `calculate`, `calculate0` … `calculate4`: an exception of the function gives NULL.  The parameters of
`calculateN` have the default None; too many arguments are an error before the function is called. -/
def calculate {V : Type} (null : V) (f : Fn V) (args : List V) : Outcome V :=
  if f.fast then
    if f.params < args.length then .raised
    else .value ((f.apply (args ++ List.replicate (f.params - args.length) null)).getD null)
  else .value ((f.apply args).getD null)

/-! ## The table of functions -/

/-- The functions by name (mysql_calculater.py:27-56). -/
abbrev Table (V : Type) := List (Str × Fn V)

/-- mysql_calculater.py:16-20 `find_func`: `funcs.get(name)`. -/
def find {V : Type} : Table V → Str → Option (Fn V)
  | [], _ => none
  | (k, f) :: t, name => if k = name then some f else find t name

/-- mysql_calculater.py:116-122 `register_mysql_func`: `funcs[name] = func`. -/
def register {V : Type} (name : Str) (f : Fn V) : Table V → Table V
  | [] => [(name, f)]
  | (k, g) :: t => if k = name then (k, f) :: t else (k, g) :: register name f t

/-- What a call of a function that sqlglot does not know is compiled to (compiler.py:1541-1608). -/
inductive Target where
  | special (name : Str)        -- 1542, 1572, 1582: get_value, call_define, jit
  | mysql (name : Str)
  | library (name : Str)

/-- compiler.py:1541-1608. -/
def target {V : Type} (t : Table V) (written : Str) : Target :=
  let name := written.map Char.toLower
  if name ∈ ["get_value".toList, "call_define".toList, "jit".toList] then .special name
  else if name ∉ ["add".toList, "sub".toList, "mul".toList, "div".toList, "mod".toList] ∧ (find t name).isSome then .mysql name
  else .library name

/-- A call of a function of the table as a whole; `library` is what the library does with other names. -/
def run {V : Type} (null : V) (library : Str → List V → Outcome V) (t : Table V) (written : Str) (args : List V) : Outcome V :=
  match target t written with
  | .mysql name => match find t name with
    | some f => calculate null f args
    | none => library name args
  | .special name => library name args
  | .library name => library name args

/-! ## Mathematical functions -/

variable (py : Py)

/-- number_funcs.py:130-137 `mysql_sqrt`, 140-146 `mysql_exp`, 153-159 `mysql_ln`, 239-290 `mysql_sin` … `mysql_atan`: all are of this
form; `f` is the function of Python's `math` (`none`: ValueError, OverflowError).  The first attempt, `f(x)` on the value itself, gives
the same as the second on numbers and truth values and fails on texts. -/
def math1 (f : Num → Option Rat) : Fn Val where
  params := 1
  body := fun
    | [x] => if x = .null then some .null else (py.ensureNumber x).bind fun n => (f n).map .flt
    | _ => none

/-- number_funcs.py:221-236 `mysql_pow`, `mysql_power`. -/
def math2 (f : Num → Num → Option Rat) : Fn Val where
  params := 2
  body := fun
    | [x, y] => if x = .null ∨ y = .null then some .null else
      (py.ensureNumber x).bind fun n => (py.ensureNumber y).bind fun m => (f n m).map .flt
    | _ => none

/-- number_funcs.py:162-168 `mysql_log(x, base=10)`: the base is not converted, and `math.log(x, None)` raises. -/
def logFn (f : Num → Num → Option Rat) : Fn Val where
  params := 2
  defaults := [.int 10]
  body := fun
    | [x, b] => if x = .null then some .null else
      (py.ensureNumber x).bind fun n => match b with
        | .int i => (f n (.int i)).map .flt
        | .flt q => (f n (.flt q)).map .flt
        | .bool b => (f n (.int (if b then 1 else 0))).map .flt
        | _ => none
    | _ => none

/-- number_funcs.py:201-208 `mysql_round(x, y=2)`; `other` is what Python does for digits that are no natural number. -/
def roundFn (other : Val → Val → Option Val) : Fn Val where
  params := 2
  defaults := [.int 2]
  body := fun
    | [x, y] => if x = .null ∨ y = .null then some .null else
      match y with
      | .int (.ofNat d) => some (py.round x (some d))
      | y => other x y
    | _ => none

end Verif.Call
