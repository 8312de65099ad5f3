import Verif.Model.Scalar
/-!
Model of the compilation of SQL expressions (compiler.py:1531-1811 `compile_calculate`, 1813-1931
`compile_having_condition`) and of the evaluation of the compiled expressions.

Source expressions are the sqlglot trees of the constructs listed below.  Not modelled: subqueries, `get_value`,
`call_define`, `jit`, casts, intervals, assignments to variables; every other function call (`LIKE` is the call of `like`, see `Model.Functions`)
is `call`, whose meaning is a parameter.
-/
namespace Verif.Expr
open Verif.Val

/-- What may stand right of `IS`. -/
inductive IsWhat where
  | null | true | false
  deriving DecidableEq

mutual
/-- Source expression. -/
inductive E where
  | lit (v : Val)
  | col (c : Str)
  | cmp (op : Cmp) (a b : E)
  | and (a b : E)
  | or (a b : E)
  | not (a : E)
  | is (a : E) (w : IsWhat)
  | inl (a : E) (l : EL)
  | between (a lo hi : E)
  | paren (a : E)
  | ite (c t f : E)
  | ifnull (a b : E)
  | coalesce (a : E) (l : EL)
  | caseC (ws : WL)
  | caseV (a : E) (ws : WL)
  | call (f : Str) (l : EL)
/-- Lists of expressions. -/
inductive EL where
  | nil
  | cons (e : E) (l : EL)
/-- The `WHEN c THEN t` parts of a `CASE`, then its `ELSE`. -/
inductive WL where
  | noElse
  | els (e : E)
  | when (c t : E) (ws : WL)
end

mutual
/-- Compiled expression: `["#const", v]`, `"$.c"`, `["@mysql::eq", a, b]`, …, `["#if", c, t, f]`. -/
inductive T where
  | const (v : Val)
  | col (c : Str)
  | cmp (op : Cmp) (a b : T)
  | not (a : T)
  | is (a b : T)
  | isNot (a b : T)
  | inn (a : T) (l : TL)
  | isNull (a : T)
  | iff (c t f : T)
  | between (k lo hi : T)
  | caseD (a : T) (d : DL)
  | call (f : Str) (l : TL)
/-- `["#make", [..]]`. -/
inductive TL where
  | nil
  | cons (t : T) (l : TL)
/-- The dictionary of a `#case`, ending with its `#end`. -/
inductive DL where
  | fin (t : T)
  | cons (k : Val) (t : T) (d : DL)
end

/-- `is_const`: here, a literal. -/
def isConst : E → Bool
  | .lit _ => true
  | _ => false

/-- compiler.py:1668: `all(is_const(when))`. -/
def allConst : WL → Bool
  | .noElse => true
  | .els _ => true
  | .when c _ ws => isConst c && allConst ws

/-- `cases[key] = column` on the dictionary (an existing key keeps its place and gets the new column). -/
def DL.put (k : Val) (t : T) : DL → DL
  | .fin e => .cons k t (.fin e)
  | .cons k' t' d => if k = k' then .cons k t d else .cons k' t' (d.put k t)

/-- The constant compared with by `IS`. -/
def IsWhat.val : IsWhat → Val
  | .null => .null
  | .true => .bool Bool.true
  | .false => .bool Bool.false

mutual
/-- compiler.py:1531-1811 `compile_calculate`. -/
def compile : E → T
  | .lit v => .const v                                         -- 1713-1714
  | .col c => .col c                                           -- 1697-1700
  | .cmp op a b => .cmp op (compile a) (compile b)             -- 1780-1785
  | .and a b => .iff (compile a) (compile b) (.const (.int 0)) -- 1735-1741
  | .or a b => .iff (compile a) (.const (.int 1)) (compile b)  -- 1742-1748
  | .not (.is a w) => .isNot (compile a) (.const w.val)        -- 1716-1723
  | .not a => .not (compile a)                                 -- 1724-1725
  | .is a w => .is (compile a) (.const w.val)                  -- 1780-1785
  | .inl a l => .inn (compile a) (compileL l)                  -- 1751-1757
  | .between a lo hi => .between (compile a) (compile lo) (compile hi) -- 1691-1696
  | .paren a => compile a                                      -- 1689-1690
  | .ite c t f => .iff (compile c) (compile t) (compile f)     -- 1618-1626
  | .ifnull a b => .iff (.isNull (compile a)) (compile b) (compile a) -- 1627-1643
  | .coalesce a l => .iff (.isNull (compile a)) (compileCoalesce l) (compile a)
  | .caseC ws => compileWhens none ws                          -- 1657-1673
  | .caseV a ws =>
    if allConst ws then .caseD (compile a) (compileDict (.fin (endOf ws)) ws) -- 1645-1656
    else compileWhens (some (compile a)) ws
  | .call f l => .call f (compileL l)                          -- 1674-1688
/-- Lists of expressions. -/
def compileL : EL → TL
  | .nil => .nil
  | .cons e l => .cons (compile e) (compileL l)
/-- compiler.py:1652-1662 `parse_coalesce`. -/
def compileCoalesce : EL → T
  | .nil => .const .null
  | .cons e .nil => compile e
  | .cons e (.cons e' l) => .iff (.isNull (compile e)) (compileCoalesce (.cons e' l)) (compile e)
/-- compiler.py:1687-1695 `build_if`; without `ELSE` the default is `["#const", 0]` (1684). -/
def compileWhens (v : Option T) : WL → T
  | .noElse => .const (.int 0)
  | .els e => compile e
  | .when c t ws =>
    .iff (match v with | none => compile c | some a => .cmp .eq a (compile c)) (compile t) (compileWhens v ws)
/-- The `#end` of the dictionary (1654-1655). -/
def endOf : WL → T
  | .noElse => .const .null
  | .els e => compile e
  | .when _ _ ws => endOf ws
/-- The loop of 1650-1653. -/
def compileDict (d : DL) : WL → DL
  | .noElse => d
  | .els _ => d
  | .when c t ws => compileDict (d.put (match c with | .lit v => v | _ => .null) (compile t)) ws
end

/-- compiler.py:1813-1931 `compile_having_condition`, for `AND`, `OR`, parentheses, comparisons, `IN`, `IS`, `NOT` and
`BETWEEN`; `none`: not modelled.  `BETWEEN` reaches the last branch (1922-1931), which only looks at the left operand. -/
def compileHaving : E → Option T
  | .and a b => (compileHaving a).bind fun x => (compileHaving b).map fun y => .iff x y (.const (.int 0))
  | .or a b => (compileHaving a).bind fun x => (compileHaving b).map fun y => .iff x (.const (.int 1)) y
  | .paren a => compileHaving a
  | .cmp op a b => some (.cmp op (compile a) (compile b))
  | .inl a l => some (.inn (compile a) (compileL l))
  | .not a => some (.not (compile a))
  | .is a w => some (.is (compile a) (.const w.val))
  | .between a _ _ => some (.call "between".toList (.cons (compile a) .nil))
  | _ => none

/-! ### Evaluation -/

/-- logical_funcs.py:208-213 `mysql_is`.  Where both have one class the code compares identity; here the right operand
is `None`, `True` or `False`, for which identity is equality. -/
def mysqlIs (py : Py) (a b : Val) : Val :=
  if cls a = cls b ∨ a = .null ∨ b = .null then ofBool (decide (a = b)) else py.cmp .eq a b

/-- logical_funcs.py:216-221 `mysql_is_not`. -/
def mysqlIsNot (py : Py) (a b : Val) : Val :=
  if cls a = cls b ∨ a = .null ∨ b = .null then ofBool (decide (a ≠ b)) else py.cmp .neq a b

/-- Python `a == b` on hashable scalars (dictionary lookup). -/
def pyEq (a b : Val) : Bool := a = b || pyOp .eq a b = some true

mutual
/-- Evaluation of a compiled expression on a row.  `calls` interprets function calls.  Assumed of the syncany library:
`#if` tests Python truthiness and evaluates one branch, `@is_null` tests for `None`, `#case` looks the value up in the
dictionary and otherwise gives `#end`. -/
def eval (py : Py) (calls : Str → List Val → Val) (row : Str → Val) : T → Val
  | .const v => v
  | .col c => row c
  | .cmp op a b => py.cmp op (eval py calls row a) (eval py calls row b)
  | .not a => mysqlNot (eval py calls row a)
  | .is a b => mysqlIs py (eval py calls row a) (eval py calls row b)
  | .isNot a b => mysqlIsNot py (eval py calls row a) (eval py calls row b)
  | .inn a l => py.mysqlIn (eval py calls row a) (evalL py calls row l)
  | .isNull a => ofBool (decide (eval py calls row a = .null))
  | .iff c t f => if truthy (eval py calls row c) then eval py calls row t else eval py calls row f
  | .between k lo hi =>
    if truthy (py.cmp .gte (eval py calls row k) (eval py calls row lo)) then
      py.cmp .lte (eval py calls row k) (eval py calls row hi)
    else .int 0
  | .caseD a d => evalD py calls row (eval py calls row a) d
  | .call f l => calls f (evalL py calls row l)
/-- Lists of expressions. -/
def evalL (py : Py) (calls : Str → List Val → Val) (row : Str → Val) : TL → List Val
  | .nil => []
  | .cons t l => eval py calls row t :: evalL py calls row l
/-- The dictionary of `#case`. -/
def evalD (py : Py) (calls : Str → List Val → Val) (row : Str → Val) (v : Val) : DL → Val
  | .fin t => eval py calls row t
  | .cons k t d => if pyEq v k then eval py calls row t else evalD py calls row v d
end

end Verif.Expr
