import Verif.Model.Scalar
/-!
Model of the aggregate calculaters (calculaters/aggregate_calculater.py).

A calculater's state is Python `None` (`none`) or a value; `aggregate` and `reduce` may raise (outer `none`).
-/
namespace Verif.Agg
open Verif.Val

/-- An aggregate calculater: `aggregate`, `reduce` and `final_value` (aggregate_calculater.py:19-63). -/
structure Calc (α σ R : Type) where
  step : Option σ → α → Option (Option σ)
  reduce : Option σ → Option σ → Option (Option σ)
  final : Option σ → R

/-- The state after feeding the rows of a group one by one, starting from `None`; `none`: some call raised. -/
def Calc.run {α σ R : Type} (A : Calc α σ R) : Option σ → List α → Option (Option σ)
  | s, [] => some s
  | s, v :: l => match A.step s v with
    | none => none
    | some s' => A.run s' l

/-- aggregate_calculater.py:35-40 `AggregateCalculater.reduce` with the operator `op` in place of `+` (also the
`reduce` methods at 109-114, 158-163, 180-185, 208-214, 234-239, 256-261, 292-297, 318-323, 339-344, 360-365,
389-394, which have the same shape). -/
def reduceWith {σ : Type} (op : σ → σ → Option σ) : Option σ → Option σ → Option (Option σ)
  | s, none => some s
  | none, some d => some (some d)
  | some s, some d => (op s d).map some

/-- aggregate_calculater.py:66-81 `AggregateCountCalculater` (the state is always an integer, so the conversion
branches 73-78 other than `None` do not occur). -/
def count : Calc Val Int Val where
  step s v := match v with
    | .null => some (some (s.getD 0))
    | _ => some (some (match s with | none => 1 | some n => n + 1))
  reduce := reduceWith fun a b => some (a + b)
  final s := match s with | none => .null | some n => .int n

/-- Python `+` of numbers. -/
def numAdd : Num → Num → Num
  | .int a, .int b => .int (a + b)
  | a, b => .flt (a.toRat + b.toRat)

/-- aggregate_calculater.py:125-141 `AggregateSumCalculater`.  `ensure_number` is the identity on numbers; a
boolean counts as its integer. -/
def sum (py : Py) : Calc Val Num Val where
  step s v := match s, py.ensureNumber v with
    | some a, some n => some (some (numAdd a n))
    | some a, none => some (some a)
    | none, some n => some (some n)
    | none, none => if v = .null then some (some (.int 0)) else none
  reduce := reduceWith fun a b => some (numAdd a b)
  final s := match s with | none => .null | some n => n.toVal

/-- Python `max(a, b)`: `a` unless `b > a`; `none` is the `TypeError`. -/
def pyMax (a b : Val) : Option Val := (pyOp .gt b a).map fun r => if r then b else a

/-- Python `min(a, b)`: `a` unless `b < a`. -/
def pyMin (a b : Val) : Option Val := (pyOp .lt b a).map fun r => if r then b else a

/-- Python `str(v)` of a scalar. -/
def Py.pyStr (py : Py) : Val → Str
  | .null => ['N', 'o', 'n', 'e']
  | .bool b => if b then ['T', 'r', 'u', 'e'] else ['F', 'a', 'l', 's', 'e']
  | .int i => intText i
  | .flt q => py.floatText q
  | .str s => s

/-- Python `type(a)(v)` where `a` and `v` are not comparable (one is a text, the other a number);
`none` is the `ValueError`. -/
def convTo (py : Py) : Val → Val → Option Val
  | .bool _, v => some (.bool (truthy v))
  | .int _, .str s => (py.int s).map .int
  | .flt _, .str s => (py.float s).map .flt
  | .str _, v => some (.str (Py.pyStr py v))
  | _, _ => none

/-- aggregate_calculater.py:144-156, 166-178: `AggregateMaxCalculater.aggregate` for `m = max`,
`AggregateMinCalculater.aggregate` for `m = min`. -/
def extremeStep (py : Py) (m : Val → Val → Option Val) (s : Option Val) (v : Val) : Option (Option Val) :=
  match s with
  | none => if v = .null then some none else some (some v)
  | some a => match m a v with
    | some r => some (some r)
    | none =>
      if v = .null then some (some a)
      else match convTo py a v with
        | none => some (some a)
        | some w => some (some ((m a w).getD a))

/-- aggregate_calculater.py:144-163 `AggregateMaxCalculater`. -/
def max (py : Py) : Calc Val Val Val where
  step := extremeStep py pyMax
  reduce := reduceWith pyMax
  final s := s.getD .null

/-- aggregate_calculater.py:166-185 `AggregateMinCalculater`. -/
def min (py : Py) : Calc Val Val Val where
  step := extremeStep py pyMin
  reduce := reduceWith pyMin
  final s := s.getD .null

/-- aggregate_calculater.py:188-222 `AggregateAvgCalculater`; the state is (count_value, sum_value).  The state
dictionary is updated in place: `count_value` is incremented (191) before the value is looked at, and stays so when
the value cannot be added. -/
def avg (py : Py) : Calc Val (Nat × Num) Rat where
  step s v := match s, py.ensureNumber v with
    | some (c, t), some n => some (some (c + 1, numAdd t n))
    | some (c, t), none => some (some (c + 1, t))
    | none, some n => some (some (1, n))
    | none, none => if v = .null then some none else none
  reduce := reduceWith fun a b => some (a.1 + b.1, numAdd a.2 b.2)
  final s := match s with | none => 0 | some (c, t) => t.toRat / c

/-- Python equality (and hash) classes of non-NULL scalars: numbers by value (booleans are 0 and 1), texts. -/
inductive Key where
  | num (q : Rat)
  | str (s : Str)
  deriving DecidableEq

/-- The class of a value; `none` for NULL. -/
def keyOf : Val → Option Key
  | .null => none
  | .str s => some (.str s)
  | v => (numeric v).map .num

/-- Python `set.add`: an equal element already present is kept. -/
def setAdd (s : List Val) (v : Val) : List Val := if s.any (fun w => keyOf w = keyOf v) then s else s ++ [v]

/-- aggregate_calculater.py:83-122 `AggregateDistinctCountCalculater` on scalars (they are hashable, so the
list/str fallbacks 90-96, 99-106 do not occur). -/
def distinctCount : Calc Val (List Val) Val where
  step s v := match v with
    | .null => some s
    | v => some (some (match s with | none => [v] | some l => setAdd l v))
  reduce := reduceWith fun a b => some (b.foldl setAdd a)
  final s := match s with | none => .int 0 | some l => .int l.length

/-- aggregate_calculater.py:272-305 `AggregateGroupUniqArrayCalculater` on scalars (the order of `list(set)` is
the insertion order here; Python's is arbitrary). -/
def groupUniqArray : Calc Val (List Val) (List Val) where
  step := distinctCount.step
  reduce := distinctCount.reduce
  final s := s.getD []

/-- Python `",".join(l)`. -/
def joinComma : List Str → Str
  | [] => []
  | [a] => a
  | a :: l => a ++ ',' :: joinComma l

/-- aggregate_calculater.py:225-244 `AggregateGroupConcatCalculater`. -/
def groupConcat (py : Py) : Calc Val (List Str) Str where
  step s v := match v with
    | .null => some s
    | v => some (some (s.getD [] ++ [Py.pyStr py v]))
  reduce := reduceWith fun a b => some (a ++ b)
  final s := joinComma (s.getD [])

/-- aggregate_calculater.py:247-269 `AggregateGroupArrayCalculater` -/
def groupArray : Calc Val (List Val) (List Val) where
  step s v := match v with
    | .null => some s
    | v => some (some (s.getD [] ++ [v]))
  reduce := reduceWith fun a b => some (a ++ b)
  final s := s.getD []

/-- A value `isinstance(v, int)`, as an integer. -/
def asInt : Val → Option Int
  | .bool b => some (if b then 1 else 0)
  | .int i => some i
  | _ => none

/-- aggregate_calculater.py:308-368 `AggregateGroupBitAndCalculater`, `…Or…`, `…Xor…`: the first non-NULL value is
stored as it is, so a state that is not an integer makes the next operation raise. -/
def bitAgg (py : Py) (op : Int → Int → Int) : Calc Val Val Val where
  step s v := match v with
    | .null => some s
    | v => match s with
      | none => some (some v)
      | some a => match asInt a, py.bitArg v with
        | some i, some j => some (some (.int (op i j)))
        | _, _ => none
  reduce := reduceWith fun a b => match asInt a, asInt b with
    | some i, some j => some (.int (op i j))
    | _, _ => none
  final s := s.getD .null

/-- Python `d[k] = v` on an insertion-ordered dictionary. -/
def dictSet (d : List (Str × Val)) (k : Str) (v : Val) : List (Str × Val) :=
  if d.any (fun e => e.1 = k) then d.map fun e => if e.1 = k then (k, v) else e else d ++ [(k, v)]

/-- aggregate_calculater.py:405-442 `AggregateJsonObjectaggCalculater`; a row is NULL (`none`) or the list of the
arguments.  `format_value` is `str` on scalars. -/
def jsonObjectagg (py : Py) : Calc (Option (List Val)) (List (Str × Val)) (Option (List (Str × Val))) where
  step s d := match d with
    | none => some s
    | some l => match l with
      | [] => some (some (s.getD []))
      | [k] => some (some (dictSet (s.getD []) (Py.pyStr py k) .null))
      | k :: v :: _ => some (some (dictSet (s.getD []) (Py.pyStr py k) v))
  reduce s d := match s, d with
    | s, none => some s
    | none, some d => some (some d)
    | some _, some _ => some none  -- 434: `return state_value.update(data_value)`, and `dict.update` returns None
  final s := s

/-- aggregate_calculater.py:371-402 `AggregateJsonArrayaggCalculater`, before the JSON text of the list is produced
(401): no values at all give NULL (399-400). -/
def jsonArrayagg : Calc Val (List Val) (Option (List Val)) where
  step s v := match v with
    | .null => some s
    | v => some (some (match s with | none => [v] | some l => l ++ [v]))
  reduce := reduceWith fun a b => some (a ++ b)
  final s := s

end Verif.Agg
