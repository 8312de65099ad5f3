import Verif.Model.Expr
/-!
Model of the division of a WHERE clause into conditions pushed to the data source and a residual filter
(compiler.py:810-960 `compile_where_condition`), of the typing of the pushed conditions (compiler.py:2780-2820
`parse_condition_typing_filter`) and of `DELETE` (compiler.py:179-207 `compile_delete`).

Columns are given by their name with typing filters (`typing_name`, e.g. `a` or `a|int`); `prim c` says that the column
belongs to the primary table.  Subqueries as operands are in `Model.SubOperand`.  Not modelled: `LIKE`, and the lookup of a bare column in the list of
select aliases (compiler.py:965-967).
-/
namespace Verif.Where
open Verif.Val Verif.Expr

mutual
/-- compiler.py:824-845 `has_column_expression`. -/
def hasCol : E → Bool
  | .lit _ => false
  | .col _ => true
  | .cmp _ a b => hasCol a || hasCol b
  | .and a b => hasCol a || hasCol b
  | .or a b => hasCol a || hasCol b
  | .not a => hasCol a
  | .is a _ => hasCol a
  | .inl a l => hasCol a || hasColL l
  | .between a lo hi => hasCol a || hasCol lo || hasCol hi
  | .paren a => hasCol a
  | .ite c t f => hasCol c || hasCol t || hasCol f
  | .ifnull a b => hasCol a || hasCol b
  | .coalesce a l => hasCol a || hasColL l
  | .caseC ws => hasColW ws
  | .caseV a ws => hasCol a || hasColW ws
  | .call _ l => hasColL l
/-- In a list. -/
def hasColL : EL → Bool
  | .nil => false
  | .cons e l => hasCol e || hasColL l
/-- In the branches of CASE. -/
def hasColW : WL → Bool
  | .noElse => false
  | .els e => hasCol e
  | .when c t ws => hasCol c || hasCol t || hasColW ws
end

/-- The keys of a condition dictionary: `==`, `!=`, `>`, `>=`, `<`, `<=`, `in`. -/
inductive QOp where
  | cmp (op : Cmp)
  | inn
  deriving DecidableEq

/-- The value of a condition: one compiled expression, or the list right of `IN`. -/
inductive QVal where
  | one (t : T)
  | many (l : TL)

/-- `{"==": .., ">": ..}`. -/
abbrev Dict := List (QOp × QVal)
/-- The conditions on one column: a dictionary or a list of dictionaries (a dictionary is here the list of itself). -/
abbrev Dicts := List Dict
/-- `config["querys"]`. -/
abbrev Querys := List (Str × Dicts)

/-- `condition_exp not in condition_query`. -/
def Dict.lacks (d : Dict) (op : QOp) : Bool := d.all fun x => x.1 ≠ op

/-- compiler.py:896-907: the condition goes to the first dictionary without this operator, or to a new one. -/
def addCond (op : QOp) (v : QVal) : Dicts → Dicts
  | [] => [[(op, v)]]
  | d :: ds => if Dict.lacks d op then (d ++ [(op, v)]) :: ds else d :: addCond op v ds

/-- compiler.py:891-907 `build_query_condition`. -/
def build (key : Str) (op : QOp) (v : QVal) : Querys → Querys
  | [] => [(key, addCond op v [[]])]
  | (k, ds) :: qs => if k = key then (k, addCond op v ds) :: qs else (k, ds) :: build key op v qs

/-- compiler.py:847-889 `parse_condition` for two operands: the column and the compiled value; `none` leaves the
condition to the filter.  A column on the right is exchanged with the operand on the left. -/
def parseCondition (prim : Str → Bool) (a b : E) : Option (Str × T) :=
  match a with
  | .col c => if prim c then (if hasCol b then none else some (c, compile b)) else none
  | a =>
    match b with
    | .col c => if prim c then (if hasCol a then none else some (c, compile a)) else none
    | _ => none

/-- compiler.py:847-873 `parse_condition` for `IN` with a list: the list is compiled without looking for columns in it. -/
def parseIn (prim : Str → Bool) (a : E) (l : EL) : Option (Str × TL) :=
  match a with
  | .col c => if prim c then some (c, compileL l) else none
  | _ => none

/-- Result of `compile_where_condition`: the residual expression, the expression as left behind (the node of a pushed
condition has `syncany_valuer = ["#const", 1]`, so that it compiles to 1), and `config["querys"]`. -/
structure Split where
  res : Option E
  tree : E
  querys : Querys

/-- compiler.py:810-960 `compile_where_condition`. -/
def split (prim : Str → Bool) (qs : Querys) : E → Split
  | .and a b =>                                                 -- 811-820
    let l := split prim qs a
    let r := split prim l.querys b
    let tree := E.and l.tree r.tree
    { res := match l.res, r.res with
        | none, none => none
        | none, some y => some y
        | some x, none => some x
        | some _, some _ => some tree
      tree := tree
      querys := r.querys }
  | .cmp op a b =>                                              -- 909-950
    match parseCondition prim a b with
    | some (c, t) => ⟨none, .lit (.int 1), build c (.cmp op) (.one t) qs⟩
    | none => ⟨some (.cmp op a b), .cmp op a b, qs⟩
  | .inl a l =>                                                 -- 951-957
    match parseIn prim a l with
    | some (c, t) => ⟨none, .lit (.int 1), build c .inn (.many t) qs⟩
    | none => ⟨some (.inl a l), .inl a l, qs⟩
  | .paren a =>                                                 -- 958-959
    let x := split prim qs a
    ⟨x.res, .paren x.tree, x.querys⟩
  | e => ⟨some e, e, qs⟩                                        -- 821-822, 960

/-- The type a constant asks for (2810-2815): `int`, `float`, `bool`. -/
def constType : QOp × QVal → Option Str
  | (.cmp _, .one (.const (.int _))) => some "int".toList
  | (.cmp _, .one (.const (.flt _))) => some "float".toList
  | (.cmp _, .one (.const (.bool _))) => some "bool".toList
  | _ => none

/-- compiler.py:2789-2817: the type all constants agree on; `none` when there is none or they differ. -/
def inferType : Option Str → List (QOp × QVal) → Option Str
  | t, [] => t
  | t, x :: xs =>
    match constType x with
    | none => inferType t xs
    | some y =>
      match t with
      | none => inferType (some y) xs
      | some z => if z = y then inferType t xs else none

/-- `config["querys"][key] = v`. -/
def putKey (key : Str) (v : Dicts) : Querys → Querys
  | [] => [(key, v)]
  | (k, ds) :: qs => if k = key then (k, v) :: qs else (k, ds) :: putKey key v qs

/-- The loop body of compiler.py:2781-2820: a column without typing filter whose constants agree on a type is renamed. -/
def retypeOne (qs : Querys) (key : Str) : Querys :=
  if '|' ∈ key then qs
  else match qs.find? (fun x => x.1 = key) with
    | none => qs
    | some (_, ds) =>
      match inferType none ds.flatten with
      | none => qs
      | some t => (putKey (key ++ '|' :: t) ds qs).filter fun x => x.1 ≠ key

/-- compiler.py:2780-2820 `parse_condition_typing_filter` (constants; `@now` and subqueries are not modelled). -/
def retype (qs : Querys) : Querys := (qs.map (·.1)).foldl retypeOne qs

/-- compiler.py:519-524: what is pushed to the data source, and the filter. -/
def compileWhere (prim : Str → Bool) (e : E) : Querys × Option T :=
  let s := split prim [] e
  (retype s.querys, s.res.map compile)

/-- compiler.py:179-207 `compile_delete`: `none` is the compile error for a residual filter; no WHERE: no conditions. -/
def compileDelete (prim : Str → Bool) : Option E → Option Querys
  | none => some []
  | some e => match split prim [] e with
    | ⟨none, _, qs⟩ => some (retype qs)
    | ⟨some _, _, _⟩ => none

/-! ### Execution -/

/-- The column a key names: the text before the first `|`. -/
def baseName (k : Str) : Str := k.takeWhile (· ≠ '|')

/-- A data source: how it compares a column with a value and with a list. -/
structure Src where
  cmp : Cmp → Val → Val → Bool
  inn : Val → List Val → Bool

/-- Assumed of the data sources and the library: the value of a condition is evaluated once, before any row is loaded (every
column is NULL then), and compared with the column of each row. -/
def holds (py : Py) (calls : Str → List Val → Val) (src : Src) (x : Val) : QOp × QVal → Bool
  | (.cmp op, .one t) => src.cmp op x (eval py calls (fun _ => .null) t)
  | (.cmp op, .many _) => src.cmp op x .null
  | (.inn, .many l) => src.inn x (evalL py calls (fun _ => .null) l)
  | (.inn, .one t) => src.inn x [eval py calls (fun _ => .null) t]

/-- A row satisfies all pushed conditions. -/
def matchRow (py : Py) (calls : Str → List Val → Val) (src : Src) (row : Str → Val) (qs : Querys) : Bool :=
  qs.all fun x => x.2.flatten.all (holds py calls src (row (baseName x.1)))

/-- The rows a SELECT keeps: those the source returns that pass the filter. -/
def selected (py : Py) (calls : Str → List Val → Val) (src : Src) (row : Str → Val) (w : Querys × Option T) : Bool :=
  matchRow py calls src row w.1 && match w.2 with
    | none => true
    | some t => truthy (eval py calls row t)

end Verif.Where
