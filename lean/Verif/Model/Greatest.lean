import Verif.Model.Scalar
/-! Model of GREATEST and LEAST (calculaters/mysql_funcs/number_funcs.py:293-306). -/
namespace Verif.Greatest
open Verif.Val

/-- Python `max(first, *others)` (`op` is `>`) and `min(first, *others)` (`op` is `<`): an item replaces the one kept when `item op
kept`; `none`: `TypeError`. -/
def pick (op : Cmp) : Val → List Val → Option Val
  | kept, [] => some kept
  | kept, v :: l =>
    match pyOp op v kept with
    | none => none
    | some true => pick op v l
    | some false => pick op kept l

/-- Python `max(*args)`, `min(*args)`.  A single argument is taken as a collection: a text is one of characters, anything else
raises, and so does the empty text; no argument raises. -/
def extreme (op : Cmp) : List Val → Option Val
  | [] => none
  | [.str (c :: s)] => pick op (.str [c]) (s.map fun c => .str [c])
  | [_] => none
  | a :: b :: l => pick op a (b :: l)

/-- number_funcs.py:293-306 `mysql_greatest` (`op` is `>`) and `mysql_least` (`op` is `<`): after an exception once more with the
arguments as numbers; an exception then becomes NULL (mysql_calculater.py:45-53). -/
def Py.extremeOf (py : Py) (op : Cmp) (args : List Val) : Val :=
  caught ((extreme op args).or ((args.mapM py.ensureNumber).bind fun ns => extreme op (ns.map Num.toVal)))

/-- `GREATEST` (number_funcs.py). -/
def Py.greatest (py : Py) : List Val → Val := Py.extremeOf py .gt
/-- `LEAST` (number_funcs.py). -/
def Py.least (py : Py) : List Val → Val := Py.extremeOf py .lt

end Verif.Greatest
