import Verif.Model.Call
import Verif.Model.Str
/-!
Model of the table of SQL functions (calculaters/mysql_funcs/__init__.py:5-18: the `mysql_…` functions of number_funcs.py,
string_funcs.py and regexp_funcs.py by name) and of a call of one of them inside a statement (mysql_calculater.py:22-102 for the
functions of the table; an operator `+`, `-`, `*`, `/`, `%`, `LIKE` is the call of `add`, `sub`, `mul`, `div`, `mod`, `like`:
compiler.py:1799-1807).

Only the functions below are in the table of the model; the others, and calls that end the query (too many arguments), are what
`other` says.  The numbers of parameters, defaults and variables are those of the Python functions.
-/
namespace Verif.Call
open Verif.Val

/-- A function of one, two or three parameters and no further variables. -/
def fn1 (f : Val → Option Val) : Fn Val where
  params := 1
  body := fun | [x] => f x | _ => none
/-- Two parameters. -/
def fn2 (f : Val → Val → Option Val) : Fn Val where
  params := 2
  body := fun | [x, y] => f x y | _ => none
/-- Three parameters. -/
def fn3 (f : Val → Val → Val → Option Val) : Fn Val where
  params := 3
  body := fun | [x, y, z] => f x y z | _ => none

variable (py : Py) (same : Char → Char → Bool)

/-- regexp_funcs.py:111-118 `mysql_like(s, r, match_type=None)`.  Other values of `match_type` than None are not modelled: they give
NULL here. -/
def likeFn : Fn Val where
  params := 3
  defaults := [.null]
  body := fun | [s, r, .null] => Str.likeRaw same s r | _ => none

/-- `funcs` (`__init__.py:12-18`), the functions modelled in `Model.Scalar` and `Model.Str`. -/
def sqlTable : Table Val :=
  [("add".toList, fn2 (py.arRaw .add)),                          -- number_funcs.py:10-38
   ("sub".toList, fn2 (py.arRaw .sub)),
   ("mul".toList, fn2 (py.arRaw .mul)),
   ("div".toList, fn2 (py.arRaw .div)),
   ("mod".toList, fn2 (py.arRaw .mod)),
   ("abs".toList, fn1 fun x => some (py.abs x)),                 -- 121-128
   ("ceil".toList, fn1 fun x => some (py.ceil x)),               -- 170-177
   ("ceiling".toList, fn1 fun x => some (py.ceil x)),            -- 179-186
   ("floor".toList, fn1 fun x => some (py.floor x)),             -- 188-195
   ("sign".toList, fn1 fun x => some (py.sign x)),               -- 210-218
   ("length".toList, fn1 Str.lengthRaw),                         -- string_funcs.py:69-73
   ("char_length".toList, fn1 (Str.charLengthRaw py)),           -- 75-79
   ("character_length".toList, fn1 (Str.charLengthRaw py)),      -- 81-85
   ("concat".toList, { params := 0, rest := true, body := Str.concatRaw py }), -- 87-89
   ("left".toList, fn2 (Str.leftRaw py)),                        -- 118-122
   ("right".toList, fn2 (Str.rightRaw py)),                      -- 124-128
   ("trim".toList, fn1 (Str.trimRaw py)),                        -- 130-134
   ("replace".toList, fn3 (Str.replaceRaw py)),                  -- 158-162
   ("substring".toList, { fn3 (Str.substringRaw py) with defaults := [.null] }), -- 164-171
   ("substr".toList, { fn3 (Str.substringRaw py) with defaults := [.null] }),    -- 173-180
   ("repeat".toList, fn2 (Str.repeatRaw py)),                    -- 191-195
   ("reverse".toList, fn1 (Str.reverseRaw py)),                  -- 197-201
   ("startswith".toList, fn2 fun a b => some (Str.startswith py a b)), -- 210-215
   ("endswith".toList, fn2 fun a b => some (Str.endswith py a b)),     -- 217-222
   ("contains".toList, fn2 fun a b => some (Str.mysqlContains py a b)), -- 224-232
   ("like".toList, likeFn same)]

/-- The value of a call inside a statement. -/
def sqlCalls (other : Str → List Val → Val) (f : Str) (args : List Val) : Val :=
  match find (sqlTable py same) f with
  | none => other f args
  | some fn => match calculate .null fn args with
    | .value v => v
    | .raised => other f args

end Verif.Call
