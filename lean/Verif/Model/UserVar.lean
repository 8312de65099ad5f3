import Verif.Model.Env
import Verif.Model.Scalar
/-!
Model of user variables in queries: `@v` and `@v := expr` in a select list (compiler.py:46-54, 455-476, 1757-1765, 1998-2001,
2701-2751, 2878-2882; env_variable_calculater.py:8-42) and in a WHERE (compiler.py:869-888).

The environment is the list of the dictionaries of the executor that runs the query and of its ancestors, as in `Model.Env`.
Function calls, operators and `IN` are `call`, whose meaning is a parameter; `BETWEEN` too, its three operands are evaluated into
a dictionary first (compiler.py:1722-1727).  Not modelled: aggregates, subqueries, `CASE` with an operand (its constants are read
like those of an `IN` in a WHERE), renamed names (`self.mapping`).
-/
namespace Verif.UserVar
open Verif.Val

mutual
/-- Source expression. -/
inductive X where
  | lit (v : Val)
  | col (c : Str)
  | var (n : Str)
  | assign (n : Str) (e : X)
  | neg (a : X)
  | call (f : Str) (l : XL)
  | ite (c t f : X)
  | and (a b : X)
  | or (a b : X)
  | ifnull (a b : X)
/-- Lists of expressions. -/
inductive XL where
  | nil
  | cons (e : X) (l : XL)
end

mutual
/-- Compiled expression. -/
inductive T where
  | const (v : Val)
  | col (c : Str)
  | get (key : Env.Key)
  | set (key : Env.Key) (t : T)
  | isNull (t : T)
  | iff (c t f : T)
  | call (f : Str) (l : TL)
/-- Lists of compiled expressions. -/
inductive TL where
  | nil
  | cons (t : T) (l : TL)
end

/-- The environment of an executor: its own dictionary, then those of its ancestors. -/
abbrev Env := List (Dict Env.Key Val)

/-- compiler.py:2878-2885 `is_const`: a literal, a variable that is not assigned to, or the negation of one. -/
def isConst : X → Bool
  | .neg (.neg _) => false
  | .neg a => isConst a
  | .var _ => true
  | .lit _ => true
  | _ => false

/-- env_variable_calculater.py:22-31 `get_value`; compiler.py:2737-2742 reads the same way. -/
def getVar (env : Env) (key : Env.Key) : Val := (Env.getValue env key).getD .null

/-- env_variable_calculater.py:33-38 `set_value`: writes the dictionary of the current executor itself. -/
def setVar (env : Env) (key : Env.Key) (v : Val) : Env :=
  match env with
  | [] => []
  | d :: ds => d.set key v :: ds

/-- compiler.py:2707-2711: `-value` of a number. -/
def negVal : Val → Val
  | .int i => .int (-i)
  | .flt q => .flt (-q)
  | v => v

/-- compiler.py:2701-2751 `parse_const`: the value known when the statement is compiled.  `now` is the environment at that
time.  The sign is applied to number literals only. -/
def constVal (now : Env) : X → Val
  | .neg (.lit v) => negVal v
  | .neg (.var n) => getVar now ('@' :: n)
  | .lit v => v
  | .var n => getVar now ('@' :: n)
  | _ => .null

/-- compiler.py:1998-2001 `compile_const` of `parse_const`: the getter if the constant has one, else the value. -/
def compileConst : X → T
  | .neg (.lit v) => .const (negVal v)
  | .neg (.var n) => .get ('@' :: n)
  | .lit v => .const v
  | .var n => .get ('@' :: n)
  | _ => .const .null

mutual
/-- compiler.py:1531-1811 `compile_calculate`. -/
def compile : X → T
  | .lit v => .const v                                                  -- 1744-1745
  | .col c => .col c                                                    -- 1728-1731
  | .var n => .get ('@' :: n)                                           -- 1744-1745
  | .assign n e => .set ('@' :: n) (compile e)                          -- 1761-1764
  | .neg a => .call "neg".toList (.cons (compile a) .nil)               -- 1537-1539
  | .call f l => .call f (compileL l)                                   -- 1576-1640, 1697-1711, 1783-1811
  | .ite c t f => .iff (compile c) (compile t) (compile f)              -- 1640-1648
  | .and a b => .iff (compile a) (compile b) (.const (.int 0))          -- 1767-1773
  | .or a b => .iff (compile a) (.const (.int 1)) (compile b)           -- 1774-1780
  | .ifnull a b => .iff (.isNull (compile a)) (compile b) (compile a)   -- 1649-1666
/-- Lists of expressions. -/
def compileL : XL → TL
  | .nil => .nil
  | .cons e l => .cons (compile e) (compileL l)
end

/-- compiler.py:455-476, 510-525: a column of the select list; a constant is compiled by `compile_const`. -/
def compileItem (e : X) : T := if isConst e then compileConst e else compile e

variable (calls : Str → List Val → Val)

mutual
/-- Evaluation of a compiled expression on a row: the value and the environment after it.  Assumed of the syncany library: the
arguments of a call are evaluated from left to right, each time the expression occurs, and `#if` evaluates its condition and then
the chosen branch only. -/
def eval (row : Str → Val) : T → Env → Val × Env
  | .const v, s => (v, s)
  | .col c, s => (row c, s)
  | .get k, s => (getVar s k, s)
  | .set k t, s =>
    match eval row t s with
    | (v, s') => (v, setVar s' k v)
  | .isNull t, s =>
    match eval row t s with
    | (v, s') => (.bool (decide (v = .null)), s')
  | .iff c t f, s =>
    match eval row c s with
    | (v, s') => if truthy v then eval row t s' else eval row f s'
  | .call f l, s =>
    match evalL row l s with
    | (vs, s') => (calls f vs, s')
/-- Lists of expressions, from left to right. -/
def evalL (row : Str → Val) : TL → Env → List Val × Env
  | .nil, s => ([], s)
  | .cons t l, s =>
    match eval row t s with
    | (v, s') =>
      match evalL row l s' with
      | (vs, s'') => (v :: vs, s'')
end

/-- One output row: the columns of the schema in their order. -/
def evalRow (row : Str → Val) : List (Str × T) → Env → List (Str × Val) × Env
  | [], s => ([], s)
  | (n, t) :: cs, s =>
    match eval calls row t s with
    | (v, s') =>
      match evalRow row cs s' with
      | (vs, s'') => ((n, v) :: vs, s'')

/-- The rows of the table, one after the other. -/
def evalRows (cs : List (Str × T)) : List (Str → Val) → Env → List (List (Str × Val)) × Env
  | [], s => ([], s)
  | r :: rs, s =>
    match evalRow calls r cs s with
    | (o, s') =>
      match evalRows cs rs s' with
      | (os, s'') => (o :: os, s'')

/-- `SELECT e₁ AS n₁, … FROM t` (names all different) on the rows of `t`: the rows printed and the environment after it. -/
def select (items : List (Str × X)) (rows : List (Str → Val)) (env : Env) : List (List (Str × Val)) × Env :=
  evalRows calls (items.map fun i => (i.1, compileItem i.2)) rows env

/-! ### Variables in a WHERE -/

/-- The values of the list as expressions (`compile_where_condition_column` of an expression without columns is
`compile_calculate`, 1000-1005). -/
def compileVals (l : List X) : List T := l.map compile

/-- What stands in the query sent to the data source. -/
inductive Q where
  /-- `["#const", [..]]` -/
  | consts (vs : List Val)
  /-- `["#make", [..]]` -/
  | make (ts : List T)

/-- compiler.py:870-877: the list of `col IN (…)`, compiled in the environment `now`. -/
def whereIn (now : Env) (l : List X) : Q :=
  if l.all isConst then .consts (l.map (constVal now)) else .make (compileVals l)

/-- Evaluation of values one after the other. -/
def evalVals (row : Str → Val) : List T → Env → List Val × Env
  | [], s => ([], s)
  | t :: ts, s =>
    match eval calls row t s with
    | (v, s') =>
      match evalVals row ts s' with
      | (vs, s'') => (v :: vs, s'')

/-- The values looked for when the query runs in the environment `env` (there is no row: the expressions have no columns). -/
def Q.values (env : Env) : Q → List Val
  | .consts vs => vs
  | .make ts => (evalVals calls (fun _ => .null) ts env).1

/-- compiler.py:886-888: the value of `col op e`, `e` without columns. -/
def whereValue (env : Env) (e : X) : Val := (eval calls (fun _ => .null) (compile e) env).1

end Verif.UserVar
