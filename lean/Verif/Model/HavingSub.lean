import Verif.Model.SubOperand
/-!
Model of what `Expr.compileHaving` leaves out of HAVING (compiler.py:1813-1931 `compile_having_condition`): LIKE (1915-1921), subqueries
that do not depend on the row as right operands (1876-1882) and EXISTS and NOT IN of subqueries (1922-1931).  HAVING sees the columns of
the result (C58).

Assumed of the library: `["@re::match", p, v]` is Python's `re.match(p, v)`, a match being true for `#if` and none being NULL; rows
of subqueries as in `Model.SubOperand`.  Values of LIKE that are not texts make `re.match` raise and are not modelled.
-/
namespace Verif.HavingSub
open Verif.Val Verif.Expr Verif.Where Verif.SubOperand

/-- HAVING: `like a p` is `a LIKE 'p'`, `notIn` is `a NOT IN (SELECT …)`. -/
inductive H where
  | e (x : E)
  | and (a b : H)
  | or (a b : H)
  | paren (a : H)
  | cmpSub (op : Cmp) (a : E) (s : SubOperand.Sub)
  | inSub (a : E) (s : SubOperand.Sub)
  | notIn (a : E) (s : SubOperand.Sub)
  | exist (s : SubOperand.Sub)
  | like (a : E) (p : Str)

/-- `replace("%", ".*")`. -/
def dots : Str → Str
  | [] => []
  | c :: r => if c = '%' then '.' :: '*' :: dots r else c :: dots r

/-- `replace(".*.*", "%")`. -/
def squeeze : Str → Str
  | '.' :: '*' :: '.' :: '*' :: r => '%' :: squeeze r
  | c :: r => c :: squeeze r
  | [] => []

/-- compiler.py:1920-1921: nothing is escaped. -/
def pattern (p : Str) : Str := if p = ['%', '%'] then ['.', '*'] else squeeze (dots p)

/-- compiler.py:2659-2680. -/
def typedE : E → Bool
  | .col c => typed c
  | _ => false

/-- compiler.py:1813-1931; `none`: TypeError (1054-1055, `SubOperand.refused`) or not modelled. -/
def compileH : H → Option T
  | .e x => compileHaving x
  | .and a b => (compileH a).bind fun x => (compileH b).map fun y => .iff x y (.const (.int 0))
  | .or a b => (compileH a).bind fun x => (compileH b).map fun y => .iff x (.const (.int 1)) y
  | .paren a => compileH a
  | .cmpSub op a s => if typedE a then none else some (.cmp op (compile a) (first s))          -- 1882
  | .inSub a s => if typedE a then none else some (.inn (compile a) (consts s.values))         -- 1880-1881, 1912-1914
  | .notIn a s => some (.not (.inn (compile a) (consts s.values)))                             -- 1850-1857, 1922-1931, 1789-1796
  | .exist s => some (.const (.int (if s.rows.isEmpty then 0 else 1)))
  | .like a p => some (.iff (.call "re::match".toList (.cons (.const (.str (pattern p))) (.cons (compile a) .nil)))
      (.const (.int 1)) (.const (.int 0)))                                                     -- 1915-1921

/-! ### `re.match`, for expressions of characters, `.` and `*` -/

/-- A character, or `.`. -/
inductive Atom where
  | lit (c : Char)
  | any
  deriving DecidableEq

/-- Characters with a meaning that is not modelled. -/
def special (c : Char) : Bool := ['\\', '^', '$', '+', '?', '{', '}', '[', ']', '|', '(', ')'].contains c

/-- The expression: atoms, repeated or not. -/
def parseRe : Str → Option (List (Atom × Bool))
  | [] => some []
  | c :: r =>
    if special c || c = '*' then none
    else match r with
      | '*' :: r' => (parseRe r').map ((if c = '.' then .any else .lit c, true) :: ·)
      | r => (parseRe r).map ((if c = '.' then .any else .lit c, false) :: ·)

/-- `.` matches everything but a newline. -/
def hits : Atom → Char → Bool
  | .lit c, d => c == d
  | .any, d => d ≠ '\n'

/-- The expression matches some beginning of the text. -/
def matchHead : List (Atom × Bool) → Str → Bool
  | [], _ => true
  | (a, false) :: ts, s => match s with
    | [] => false
    | d :: s => hits a d && matchHead ts s
  | (a, true) :: ts, s => matchHead ts s || match s with
    | [] => false
    | d :: s => hits a d && matchHead ((a, true) :: ts) s
  termination_by ts s => ts.length + s.length

/-- The function table has Python's `re.match`. -/
def HasMatch (calls : Str → List Val → Val) : Prop := ∀ p s r, parseRe p = some r →
  calls "re::match".toList [.str p, .str s] = if matchHead r s then .bool true else .null

end Verif.HavingSub
