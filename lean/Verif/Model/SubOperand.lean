import Verif.Model.Where
/-!
Model of uncorrelated subqueries in WHERE: `c op (SELECT …)`, `c IN (SELECT …)`, `EXISTS (SELECT …)` (compiler.py:810-960
`compile_where_condition`, 962-986 `compile_where_condition_column`, 1014-1059 `compile_query_condition`, 1787-1801 of
`compile_calculate`; logical_funcs.py:223-229 `mysql_exists`).  The subquery has been run before the query is (C66), so that its rows
are known; correlated subqueries are in `Model.Correlated`.

Assumed of the library: `["&.--.name::c", ":$.c"]` is NULL when the subquery has no rows, the value of the column when it has one row,
and the list of the values when it has more; `@convert_array` gives a list of all of them.  Subqueries inside other expressions
(`a + (SELECT …)`) are not modelled.
-/
namespace Verif.SubOperand
open Verif.Val Verif.Expr Verif.Where

/-- A compiled subquery: the columns of its `schema` (`none`: it is not a dictionary: `SELECT *`, or a UNION of such), those of the `schema`s of its
dependencies, the name of the only column of its result, and the rows of the result. -/
structure Sub where
  schema : Option (List Str)
  deps : List (Option (List Str)) := []
  column : Str
  rows : List (Str → Val)

/-- compiler.py:1015-1028 `parse_subquery_select_column_name`: the first column of the schema, or of those of the dependencies put together
(`dict.update` keeps the order); `none`: `*`. -/
def Sub.columnName (s : Sub) : Option Str :=
  match s.schema with
  | some ks => ks.head?
  | none => (s.deps.filterMap id).flatten.head?

/-- The values of the column; without a column it is whole rows that are compared, which equal no value (NULL here). -/
def Sub.values (s : Sub) : List Val := s.rows.map fun r => match s.columnName with | some c => r c | none => .null

/-- Values that are known when the query runs. -/
def consts : List Val → TL
  | [] => .nil
  | v :: l => .cons (.const v) (consts l)

/-- compiler.py:884: `["@convert_array", value, ":$.:0"]`: the first value, NULL if there is none.  It is not a `#const` (that matters
for `parse_condition_typing_filter`). -/
def first (s : Sub) : T := .iff (.const (.int 1)) (.const (s.values.headD .null)) (.const .null)

/-- compiler.py:1053-1059: the subquery as an operand: NULL, a value, or a list (`#list` stands for it). -/
def operand (s : Sub) : T :=
  match s.values with
  | _ :: _ :: _ => .call "#list".toList (consts s.values)
  | _ => first s

/-- Conditions with subqueries. -/
inductive S where
  | e (x : E)
  | and (a b : S)
  | or (a b : S)
  | not (a : S)
  | paren (a : S)
  | cmpSub (op : Cmp) (a : E) (s : Sub)
  | subCmp (op : Cmp) (s : Sub) (a : E)
  | inSub (a : E) (s : Sub)
  | exist (s : Sub)

/-- compiler.py:1740-1751, 1767-1801 of `compile_calculate`; 970-978: the subqueries have been compiled before. -/
def compileS : S → T
  | .e x => compile x
  | .and a b => .iff (compileS a) (compileS b) (.const (.int 0))
  | .or a b => .iff (compileS a) (.const (.int 1)) (compileS b)
  | .not a => match a with
    | .e x => compile (.not x)
    | a => .not (compileS a)
  | .paren a => compileS a
  | .cmpSub op a s => .cmp op (compile a) (operand s)
  | .subCmp op s a => .cmp op (operand s) (compile a)
  | .inSub a s => .inn (compile a) (consts s.values)                       -- 1789-1796
  | .exist s => .const (.int (if s.rows.isEmpty then 0 else 1))            -- 1031-1033, 1798-1801, `mysql_exists`

/-- As `Where.Split`. -/
structure Split where
  res : Option S
  tree : S
  querys : Querys

/-- compiler.py:847-888 for an operand that is a subquery: the column of the primary table on the other side. -/
def pushes (prim : Str → Bool) : E → Option Str
  | .col c => if prim c then some c else none
  | _ => none

/-- compiler.py:810-960 `compile_where_condition`. -/
def split (prim : Str → Bool) (qs : Querys) : S → Split
  | .e x =>
    let r := Where.split prim qs x
    ⟨r.res.map .e, .e r.tree, r.querys⟩
  | .and a b =>
    let l := split prim qs a
    let r := split prim l.querys b
    { res := match l.res, r.res with
        | none, none => none
        | none, some y => some y
        | some x, none => some x
        | some _, some _ => some (.and l.tree r.tree)
      tree := .and l.tree r.tree
      querys := r.querys }
  | .cmpSub op a s => match pushes prim a with
    | some c => ⟨none, .e (.lit (.int 1)), build c (.cmp op) (.one (first s)) qs⟩
    | none => ⟨some (.cmpSub op a s), .cmpSub op a s, qs⟩
  | .subCmp op s a => match pushes prim a with                             -- 862-866: the operator stays as it is
    | some c => ⟨none, .e (.lit (.int 1)), build c (.cmp op) (.one (first s)) qs⟩
    | none => ⟨some (.subCmp op s a), .subCmp op s a, qs⟩
  | .inSub a s => match pushes prim a with
    | some c => ⟨none, .e (.lit (.int 1)), build c .inn (.many (consts s.values)) qs⟩
    | none => ⟨some (.inSub a s), .inSub a s, qs⟩
  | .paren a =>
    let x := split prim qs a
    ⟨x.res, .paren x.tree, x.querys⟩
  | s => ⟨some s, s, qs⟩

/-- compiler.py:2659-2680: the column has a typing filter (`a[int]`, or a CAST of `a`). -/
def typed (c : Str) : Bool := decide (baseName c ≠ c)

/-- compiler.py:879-880, 1054-1055, 1074-1075: next to a column of the primary table that has one, the subquery is given the *list* of
the filters, and `column_name + "|" + typing_filters` raises TypeError. -/
def refused (prim : Str → Bool) : S → Bool
  | .and a b => refused prim a || refused prim b
  | .paren a => refused prim a
  | .cmpSub _ a _ => ((pushes prim a).map typed).getD false
  | .subCmp _ _ a => ((pushes prim a).map typed).getD false
  | .inSub a _ => ((pushes prim a).map typed).getD false
  | .e _ => false
  | .or _ _ => false
  | .not _ => false
  | .exist _ => false

/-- compiler.py:519-524, of a clause that is not `refused`. -/
def compileWhere (prim : Str → Bool) (s : S) : Querys × Option T :=
  let r := split prim [] s
  (retype r.querys, r.res.map compileS)

/-- compiler.py:519-524; `none`: TypeError. -/
def acceptWhere (prim : Str → Bool) (s : S) : Option (Querys × Option T) :=
  if refused prim s then none else some (compileWhere prim s)

end Verif.SubOperand
