import Verif.Model.Value
import Mathlib.Data.Int.Bitwise
/-!
Model of the comparison, logical and arithmetic functions (calculaters/mysql_funcs/logical_funcs.py,
number_funcs.py) and of the error-catching wrapper (calculaters/mysql_calculater.py:45-53).

A raw Python function returns `none` when it raises.
-/
namespace Verif.Val

/-- mysql_calculater.py:45-53: any exception becomes NULL. -/
def caught (r : Option Val) : Val := r.getD .null

/-- The Python class of a value (`a.__class__`), up to equality. -/
def cls : Val → Nat
  | .null => 0
  | .bool _ => 1
  | .int _ => 2
  | .flt _ => 3
  | .str _ => 4

/-- The numeric value of a value that is an instance of `(int, float, Decimal)`; `bool` is an `int`. -/
def numeric : Val → Option Rat
  | .bool b => some (if b then 1 else 0)
  | .int i => some i
  | .flt q => some q
  | _ => none

/-- Order of numbers. -/
def ratCmp (a b : Rat) : Ordering := if a < b then .lt else if b < a then .gt else .eq

/-- Order of texts: code point by code point. -/
def strCmp : Str → Str → Ordering
  | [], [] => .eq
  | [], _ :: _ => .lt
  | _ :: _, [] => .gt
  | a :: as, b :: bs => if a.toNat < b.toNat then .lt else if b.toNat < a.toNat then .gt else strCmp as bs

/-- Comparison operators. -/
inductive Cmp where
  | eq | neq | gt | gte | lt | lte
  deriving DecidableEq, Repr

/-- Whether the operator holds for operands in this order. -/
def Cmp.holds : Cmp → Ordering → Bool
  | .eq, o => o = .eq
  | .neq, o => o ≠ .eq
  | .gt, o => o = .gt
  | .gte, o => o ≠ .lt
  | .lt, o => o = .lt
  | .lte, o => o ≠ .gt

/-- How Python compares two values; `none`: not comparable (`<` raises `TypeError`, `==` is false). -/
def pyCmp (a b : Val) : Option Ordering :=
  match a, b with
  | .str s, .str t => some (strCmp s t)
  | a, b =>
    match numeric a, numeric b with
    | some x, some y => some (ratCmp x y)
    | _, _ => none

/-- Python `a op b`; `none` is the `TypeError`. -/
def pyOp (op : Cmp) (a b : Val) : Option Bool :=
  match pyCmp a b with
  | some o => some (op.holds o)
  | none => match op with
    | .eq => some false
    | .neq => some true
    | _ => none

/-- A truth value as the integer 1 or 0. -/
def ofBool (b : Bool) : Val := .int (if b then 1 else 0)

/-- Value of a number. -/
def Num.toRat : Num → Rat
  | .int i => i
  | .flt q => q

/-- logical_funcs.py:9-186 `mysql_eq`, `mysql_neq`, `mysql_gt`, `mysql_gte`, `mysql_lt`, `mysql_lte`: the six
functions have the same text up to the operator (the ordering ones retry after a `TypeError` on equal classes,
which cannot happen for scalar values). -/
def Py.cmpRaw (py : Py) (op : Cmp) (a b : Val) : Option Val :=
  if cls a = cls b then
    if a = .null then some .null else (pyOp op a b).map ofBool
  else if a = .null ∨ b = .null then some .null
  else match numeric a with
    | some x =>
      match numeric b with
      | some y => some (ofBool (op.holds (ratCmp x y)))
      | none =>
        match py.ensureNumber a, py.ensureNumber b with
        | some m, some n => some (ofBool (op.holds (ratCmp m.toRat n.toRat)))
        | _, _ => (pyOp op a b).map ofBool
    | none =>
      match py.ensureStr a, py.ensureStr b with
      | some s, some t => some (ofBool (op.holds (strCmp s t)))
      | _, _ => none

/-- A comparison as SQL sees it. -/
def Py.cmp (py : Py) (op : Cmp) (a b : Val) : Val := caught (py.cmpRaw op a b)

/-- Python truthiness. -/
def truthy : Val → Bool
  | .null => false
  | .bool b => b
  | .int i => i ≠ 0
  | .flt q => q ≠ 0
  | .str s => s ≠ []

/-- logical_funcs.py:189-199 `mysql_in`, the loop; `hs` is `hs_none`.  Inside, `mysql_eq` is called directly (an
exception would propagate). -/
def Py.inLoop (py : Py) (a : Val) : List Val → Bool → Option Val
  | [], hs => some (if hs then .null else .int 0)
  | v :: vs, hs =>
    if v = .null then py.inLoop a vs true
    else match py.cmpRaw .eq a v with
      | none => none
      | some r => if truthy r then some (.int 1) else py.inLoop a vs hs

/-- logical_funcs.py:189-199 `mysql_in`. -/
def Py.mysqlIn (py : Py) (a : Val) (b : List Val) : Val :=
  caught (if a = .null then some .null else py.inLoop a b false)

/-- logical_funcs.py:202-205 `mysql_not`. -/
def mysqlNot (a : Val) : Val := if a = .null then .null else ofBool (!truthy a)

/-- logical_funcs.py:208-213 `mysql_is(a, None)`: with NULL on the right both class tests reduce to identity. -/
def mysqlIsNull (a : Val) : Val := ofBool (decide (a = .null))

/-- logical_funcs.py:216-221 `mysql_is_not(a, None)`. -/
def mysqlIsNotNull (a : Val) : Val := ofBool (decide (a ≠ .null))

/-! ### Arithmetic -/

/-- A number as a value. -/
def Num.toVal : Num → Val
  | .int i => .int i
  | .flt q => .flt q

/-- Arithmetic operators of number_funcs.py:11-38. -/
inductive Ar where
  | add | sub | mul | div | mod
  deriving DecidableEq, Repr

/-- Python `x % y` on rationals: `x - y * floor(x / y)`. -/
def ratMod (x y : Rat) : Rat := x - y * (x / y).floor

/-- Python `x op y` on numbers; `none` is `ZeroDivisionError`.  `int op int` stays `int` except for `/`; `%` on
`int` is the floored remainder. -/
def Ar.apply : Ar → Num → Num → Option Num
  | .add, .int a, .int b => some (.int (a + b))
  | .sub, .int a, .int b => some (.int (a - b))
  | .mul, .int a, .int b => some (.int (a * b))
  | .mod, .int a, .int b => if b = 0 then none else some (.int (a.fmod b))
  | .add, a, b => some (.flt (a.toRat + b.toRat))
  | .sub, a, b => some (.flt (a.toRat - b.toRat))
  | .mul, a, b => some (.flt (a.toRat * b.toRat))
  | .div, a, b => if b.toRat = 0 then none else some (.flt (a.toRat / b.toRat))
  | .mod, a, b => if b.toRat = 0 then none else some (.flt (ratMod a.toRat b.toRat))

/-- number_funcs.py:11-38 `mysql_add`, `mysql_sub`, `mysql_mul`, `mysql_div`, `mysql_mod`. -/
def Py.arRaw (py : Py) (op : Ar) (x y : Val) : Option Val :=
  if x = .null ∨ y = .null then some .null
  else match py.ensureNumber x, py.ensureNumber y with
    | some m, some n => (op.apply m n).map Num.toVal
    | _, _ => none

/-- An arithmetic operation as SQL sees it. -/
def Py.ar (py : Py) (op : Ar) (x y : Val) : Val := caught (py.arRaw op x y)

/-- Bit operators of number_funcs.py:41-119. -/
inductive Bit where
  | and | or | xor | shl | shr
  deriving DecidableEq, Repr

/-- Python `x op y` on integers; `none`: negative shift count (`ValueError`). -/
def Bit.apply : Bit → Int → Int → Option Int
  | .and, a, b => some (Int.land a b)
  | .or, a, b => some (Int.lor a b)
  | .xor, a, b => some (Int.xor a b)
  | .shl, a, b => if b < 0 then none else some (a * 2 ^ b.toNat)
  | .shr, a, b => if b < 0 then none else some (a.fdiv (2 ^ b.toNat))

/-- The operand of a bit operator: integers and booleans as they are, others by `ensure_int`. -/
def Py.bitArg (py : Py) (x : Val) : Option Int :=
  match py.ensureInt x with
  | some (.int i) => some i
  | _ => none

/-- number_funcs.py:41-119 (`mysql_bitwiseand`, … , `mysql_bit_xor`): tries `x op y`, then with `ensure_int` on
both; for integers and booleans `ensure_int` is the identity, for others the first attempt raises. -/
def Py.bit (py : Py) (op : Bit) (x y : Val) : Val :=
  caught (if x = .null ∨ y = .null then some .null
    else match py.bitArg x, py.bitArg y with
      | some a, some b => (op.apply a b).map .int
      | _, _ => none)

/-- number_funcs.py:59-65 `mysql_bitwisenot`. -/
def Py.bitNot (py : Py) (x : Val) : Val :=
  caught (if x = .null then some .null else (py.bitArg x).map fun a => .int (-a - 1))

/-- The number a unary function works on (number_funcs.py: tries the Python function on `x`, then on
`ensure_number(x)`): booleans and numbers as they are, texts converted. -/
def Py.unary (py : Py) (f : Num → Val) (x : Val) : Val :=
  caught (if x = .null then some .null else (py.ensureNumber x).map f)

/-- number_funcs.py:121-128 `mysql_abs`. -/
def Py.abs (py : Py) : Val → Val := py.unary fun
  | .int i => .int i.natAbs
  | .flt q => .flt (if q < 0 then -q else q)

/-- number_funcs.py:188-195 `mysql_floor`. -/
def Py.floor (py : Py) : Val → Val := py.unary fun
  | .int i => .int i
  | .flt q => .int q.floor

/-- number_funcs.py:170-186 `mysql_ceil`, `mysql_ceiling`. -/
def Py.ceil (py : Py) : Val → Val := py.unary fun
  | .int i => .int i
  | .flt q => .int q.ceil

/-- number_funcs.py:210-218 `mysql_sign`. -/
def Py.sign (py : Py) : Val → Val := py.unary fun n =>
  .int (if n.toRat = 0 then 0 else if n.toRat < 0 then -1 else 1)

/-- Rounding half to even of a rational (Python `round`). -/
def roundHalfEven (q : Rat) : Int :=
  let f := q.floor
  let r := q - f
  if r < 1 / 2 then f else if 1 / 2 < r then f + 1 else if f % 2 = 0 then f else f + 1

/-- Python `round(x, y)` for `y ≥ 0`: exact rational arithmetic (floats round the exact binary value; idealised). -/
def roundTo (n : Num) (y : Nat) : Num :=
  match n with
  | .int i => .int i
  | .flt q => .flt (roundHalfEven (q * 10 ^ y) / 10 ^ y)

/-- number_funcs.py:200-207 `mysql_round(x, y=2)` for a non-negative number of digits; without the second argument
`y` is 2. -/
def Py.round (py : Py) (x : Val) (y : Option Nat) : Val := py.unary (fun n => (roundTo n (y.getD 2)).toVal) x

end Verif.Val
