import Verif.Basic
/-!
Python scalar values, their conversions (utils.py) and the literal parsers (utils.py:15-31, taskers/set.py:46-66).

Simplifications: `float` and `Decimal` are exact rationals (rounding is not modelled); dates are not values here;
texts are lists of characters; Unicode digits are not treated as digits.
-/
namespace Verif.Val

/-- Text. -/
abbrev Str := List Char

/-- A Python scalar: `None`, `bool`, `int`, `float`/`Decimal`, `str`. -/
inductive Val where
  | null
  | bool (b : Bool)
  | int (i : Int)
  | flt (q : Rat)
  | str (s : Str)
  deriving DecidableEq

/-- What is left abstract of Python: how `int()` and `float()` treat texts other than an optional sign followed by
digits (and a fraction), e.g. surrounding blanks, `_` separators, exponents, `inf`; and `str(float)`. -/
structure Py where
  intOther : Str → Option Int
  floatOther : Str → Option Rat
  floatText : Rat → Str

/-- `string.digits` / ASCII `str.isdigit`. -/
def isDigit (c : Char) : Bool := '0' ≤ c ∧ c ≤ '9'

/-- Value of a digit. -/
def digitVal (c : Char) : Nat := c.toNat - '0'.toNat

/-- Value of a text of digits. -/
def digitsVal (s : Str) : Nat := s.foldl (fun n c => 10 * n + digitVal c) 0

/-- A non-empty text of digits (`str.isdigit`). -/
def allDigits (s : Str) : Bool := s ≠ [] ∧ s.all isDigit

/-- Sign and rest of a number text. -/
def splitSign : Str → Int × Str
  | '-' :: s => (-1, s)
  | '+' :: s => (1, s)
  | s => (1, s)

/-- `[sign] digits`. -/
def simpleInt (s : Str) : Option Int :=
  let (g, r) := splitSign s
  if allDigits r then some (g * digitsVal r) else none

/-- Python `int(text)`; `none` is the `ValueError`. -/
def Py.int (py : Py) (s : Str) : Option Int := (simpleInt s).or (py.intOther s)

/-- Value of `a.b`. -/
def decVal (a b : Str) : Rat := mkRat (digitsVal (a ++ b)) (10 ^ b.length)

/-- `[sign] digits`, `[sign] digits . digits`. -/
def simpleFloat (s : Str) : Option Rat :=
  let (g, r) := splitSign s
  if allDigits r then some (g * digitsVal r)
  else
    let a := r.takeWhile isDigit
    match r.dropWhile isDigit with
    | '.' :: b => if allDigits a ∧ allDigits b then some (g * decVal a b) else none
    | _ => none

/-- Python `float(text)`; `none` is the `ValueError`. -/
def Py.float (py : Py) (s : Str) : Option Rat := (simpleFloat s).or (py.floatOther s)

/-! ### utils.py:35-47 `parse_number` -/

/-- The scanning loop: `i` is the loop variable; the state is `(index, dot_index)`, `none` for `-1`. -/
def scanNumber (isFloat : Bool) : Str → Nat → Option Nat → Option Nat → Option Nat × Option Nat
  | [], _, index, dot => (index, dot)
  | c :: cs, i, index, dot =>
    if isDigit c then scanNumber isFloat cs (i + 1) (some i) dot
    else if index.isSome ∧ isFloat ∧ dot.isNone ∧ c = '.' then scanNumber isFloat cs (i + 1) index (some i)
    else (index, dot)

/-- Numbers, as Python results. -/
inductive Num where
  | int (i : Int)
  | flt (q : Rat)
  deriving DecidableEq

/-- utils.py:33-45 `parse_number(x, is_float)`. -/
def Py.parseNumber (py : Py) (x : Str) (isFloat : Bool) : Option Num :=
  match scanNumber isFloat x 0 none none with
  | (none, _) => if isFloat then (py.float x).map .flt else (py.int x).map .int
  | (some index, dot) =>
    if (dot.getD 0) > 0 then (py.float (x.take (index + 1))).map .flt else (py.int (x.take (index + 1))).map .int

/-- Truncation toward zero, Python `int(float)`. -/
def trunc (q : Rat) : Int := q.num.tdiv q.den

/-- utils.py:49-69 `ensure_int` (`none` is an exception).  `isinstance(True, int)` holds, so booleans are returned
unchanged. -/
def Py.ensureInt (py : Py) : Val → Option Num
  | .null => none
  | .bool b => some (.int (if b then 1 else 0))
  | .int i => some (.int i)
  | .flt q => some (.int (trunc q))
  | .str [] => some (.int 0)
  | .str s => ((py.int s).map .int).or (py.parseNumber s false)

/-- utils.py:71-91 `ensure_float`. -/
def Py.ensureFloat (py : Py) : Val → Option Num
  | .null => none
  | .bool b => some (.int (if b then 1 else 0))
  | .int i => if i = 0 then some (.int 0) else some (.flt i)
  | .flt q => some (.flt q)
  | .str [] => some (.int 0)
  | .str s => ((py.float s).map .flt).or (py.parseNumber s true)

/-- utils.py:93-118 `ensure_number`. -/
def Py.ensureNumber (py : Py) : Val → Option Num
  | .null => none
  | .bool b => some (.int (if b then 1 else 0))
  | .int i => some (.int i)
  | .flt q => some (.flt q)
  | .str [] => some (.int 0)
  | .str s =>
    if '.' ∈ s then ((py.float s).map .flt).or (py.ensureFloat (.str s))
    else ((py.int s).map .int).or (py.ensureInt (.str s))

/-! ### Texts of numbers -/

/-- The digit character of `n < 10`. -/
def digitChar (n : Nat) : Char := Char.ofNat ('0'.toNat + n)

/-- `str(n)` of a natural number. -/
def natText (n : Nat) : Str :=
  if n < 10 then [digitChar n] else natText (n / 10) ++ [digitChar (n % 10)]
decreasing_by omega

/-- `str(i)` of an integer. -/
def intText (i : Int) : Str := if i < 0 then '-' :: natText i.natAbs else natText i.natAbs

/-- utils.py:120-137 `ensure_str`. -/
def Py.ensureStr (py : Py) : Val → Option Str
  | .null => none
  | .str s => some s
  | .bool b => some [if b then '1' else '0']
  | .int i => some (if i = 0 then ['0'] else intText i)
  | .flt q => some (if q = 0 then ['0'] else py.floatText q)

/-! ### Literals -/

/-- Blank characters removed by `str.strip` (ASCII only). -/
def isBlank (c : Char) : Bool := c = ' ' ∨ c = '\t' ∨ c = '\n' ∨ c = '\r' ∨ c = '\x0b' ∨ c = '\x0c'

/-- Python `s.strip()`. -/
def strip (s : Str) : Str := ((s.dropWhile isBlank).reverse.dropWhile isBlank).reverse

/-- Python `s[a:len(s)-b]` for `a, b ≥ 0`, `b > 0`: `s[a:-b]`. -/
def sliceMid (s : Str) (a b : Nat) : Str := (s.take (s.length - b)).drop a

/-- Python `s.lower()`, per character (ASCII). -/
def lower (s : Str) : Str := s.map Char.toLower

/-- `value.split(".")` has exactly two parts. -/
def splitDot (s : Str) : Option (Str × Str) :=
  match s.dropWhile (· ≠ '.') with
  | '.' :: b => if '.' ∈ b then none else some (s.takeWhile (· ≠ '.'), b)
  | _ => none

/-- `value.isdigit() or (value[0] == "-" and value[1:].isdigit())` -/
def isIntLit (s : Str) : Bool :=
  allDigits s || (match s with | '-' :: r => allDigits r | _ => false)

/-- set.py:62-63 and utils.py:28-29: the second alternative `value[0][0] == "-" and value[0][1:].isdigit()` looks at
the one-character text `value[0]`, so it is always false. -/
def isDecLit (s : Str) : Bool :=
  match splitDot s with
  | some (a, b) => (allDigits a || (match s with | c :: _ => c = '-' && allDigits [] | [] => false)) && allDigits b
  | none => false

/-- set.py:46-66 `SetCommandTasker.parse_value` of a text; `none` is the `ValueError` (and the `IndexError` of
`value[0]` on the empty text). -/
def Py.setParse (py : Py) (v : Str) : Option Val :=
  match v with
  | [] => none
  | c :: _ =>
    if c = '"' ∨ c = '\'' then
      if v.take 3 = ['\'', '\'', '\''] ∨ v.take 3 = ['"', '"', '"'] then some (.str (strip (sliceMid v 3 3)))
      else some (.str (strip (sliceMid v 1 1)))
    else if lower v = ['t', 'r', 'u', 'e'] then some (.bool true)
    else if lower v = ['f', 'a', 'l', 's', 'e'] then some (.bool false)
    else if lower v = ['n', 'u', 'l', 'l'] then some .null
    else if isIntLit v then (py.int v).map .int
    else if isDecLit v then (py.float v).map .flt
    else none

/-- A quote character. -/
def isQuote (c : Char) : Bool := c = '\'' || c = '"'

/-- utils.py:15-31 `parse_value`. -/
def Py.parseValue (py : Py) (v0 : Str) : Option Val :=
  let v := strip v0
  match v with
  | [] => some (.str [])
  | c :: _ =>
    if v.length ≥ 2 ∧ isQuote c ∧ isQuote (v.getLast?.getD ' ') then some (.str (sliceMid v 1 1))
    else if isIntLit v then (py.int v).map .int
    else if lower v = ['t', 'r', 'u', 'e'] then some (.bool true)
    else if lower v = ['f', 'a', 'l', 's', 'e'] then some (.bool false)
    else if lower v = ['n', 'u', 'l', 'l'] then some .null
    else if isDecLit v then (py.float v).map .flt
    else some (.str v)

end Verif.Val
