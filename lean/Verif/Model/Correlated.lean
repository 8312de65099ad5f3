import Verif.Model.Join
/-!
Model of correlated subqueries (compiler.py `parse_subquery`, `compile_query_condition`; query_tasker_calculater.py).

The conditions of the subquery's WHERE are split into equalities of a column with a column of the outer query (keys), other
conditions that mention the outer query (interceptors) and the rest, which stays.  The subquery, run once for many outer rows,
selects the key columns and the columns the interceptors need as well; its rows are then matched with each outer row.

A row is a function from column references (of the joined tables of a query).  Values are a parameter `V`.  Typing filters,
DISTINCT, HAVING and ORDER BY of the subquery (`Model.CorrSub`) and subqueries inside it are not modelled, nor that a subquery that is
run in two passes loads nothing (`Model.SecondPass`).
-/
namespace Verif.Correlated
open Verif.Join (Name Ref X)

variable {V : Type}

/-- A row of (the joined tables of) a query. -/
abbrev Env (V : Type) := Ref → V

/-- The WHERE of the subquery: AND, `=`, other conditions (OR, NOT, comparisons, functions ...). -/
inductive Cond (V : Type) where
  | and (a b : Cond V)
  | eq (x y : X V)
  | other (x : X V)

/-- compiler.py:2435-2436, 2372-2373: unqualified, or qualified by a table of the subquery. -/
def isCurrent (cur : List Name) (r : Ref) : Bool :=
  match r.table with
  | none => true
  | some t => decide (t ∈ cur)

/-- compiler.py:2437: qualified by a table of the outer query (the tables of the subquery are not asked). -/
def isParent (parents : List Name) (r : Ref) : Bool :=
  match r.table with
  | none => false
  | some t => decide (t ∈ parents)

/-- A condition that is not an AND. -/
inductive Leaf (V : Type) where
  | eq (x y : X V)
  | other (x : X V)

/-- The columns of a condition. -/
def leafFields : Leaf V → List Ref
  | .eq x y => Join.fields x ++ Join.fields y
  | .other x => Join.fields x

/-- What the WHERE is split into: `join_parent_columns`, the conditions that stay, `interceptor_expressions`. -/
structure Split (V : Type) where
  keys : List (Ref × Ref)
  kept : List (Leaf V)
  inter : List (Leaf V)

/-- compiler.py:2428-2447: the column of the subquery and the column of the outer query of an equality. -/
def keyPair (cur parents : List Name) (x y : X V) : Option (Ref × Ref) :=
  match x, y with
  | .col l, .col r =>
    if isCurrent cur l && isParent parents r then some (l, r)
    else if isCurrent cur r && isParent parents l then some (r, l)
    else none
  | _, _ => none

/-- compiler.py:2466-2472: a condition that is not a key: it is an interceptor when it mentions a column of the outer query
(compiler.py:2375-2394 `parse_parent_calculate_condition`). -/
def splitLeaf (cur parents : List Name) (s : Split V) (c : Leaf V) : Split V :=
  if (leafFields c).any fun r => !(isCurrent cur r) && isParent parents r then { s with inter := s.inter ++ [c] }
  else { s with kept := s.kept ++ [c] }

/-- compiler.py:2426-2474 `parse_where_condition`.  `none`: the same equality again (compiler.py:2453 looks up the key `1` in a
dictionary: KeyError). -/
def split (cur parents : List Name) : Split V → Cond V → Option (Split V)
  | s, .and a b =>
    match split cur parents s a with
    | some s' => split cur parents s' b
    | none => none
  | s, .eq x y =>
    match keyPair cur parents x y with
    | some k => if k ∈ s.keys then none else some { s with keys := s.keys ++ [k] }
    | none => some (splitLeaf cur parents s (.eq x y))
  | s, .other x => some (splitLeaf cur parents s (.other x))

/-- The WHERE as a whole. -/
def splitWhere (cur parents : List Name) (c : Cond V) : Option (Split V) := split cur parents ⟨[], [], []⟩ c

/-! ### The conditions as run -/

/-- compiler.py:2396-2424 `parse_calculate_condition`: the columns the interceptors need, each once (by its text). -/
def selectCols (cur : List Name) (inter : List (Leaf V)) : List Ref :=
  ((inter.flatMap leafFields).filter (isCurrent cur)).eraseDups

/-- An interceptor after its columns were replaced by the aliases of the selected columns (compiler.py:2412). -/
inductive Z (V : Type) where
  | sel (i : Nat)
  | outer (r : Ref)
  | const (v : V)
  | un (f : V → V) (x : Z V)
  | bin (f : V → V → V) (x y : Z V)
  | between (f : V → V → V → V) (x lo hi : Z V)
  | app (f : List V → V) (xs : List (Nat ⊕ Ref))

/-- The columns as arguments of the calculation. -/
def toZ (cur : List Name) (cols : List Ref) : X V → Z V
  | .col r => if isCurrent cur r then .sel (cols.idxOf r) else .outer r
  | .const v => .const v
  | .un f x => .un f (toZ cur cols x)
  | .bin f x y => .bin f (toZ cur cols x) (toZ cur cols y)
  | .between f x lo hi => .between f (toZ cur cols x) (toZ cur cols lo) (toZ cur cols hi)
  | .app f rs => .app f (rs.map fun r => if isCurrent cur r then .inl (cols.idxOf r) else .inr r)

/-- The value of an interceptor on the selected columns of a row and the outer row (`$` and `$$`, compiler.py:1037-1038, 806, 2411).  The
operands of BETWEEN are compiled without the scope they stand in (1723-1727), so that columns of the outer query are looked for in the loaded
row; there is none of the name (a selected column of the subquery may have it: not modelled), which reads as NULL. -/
def evalZ (null : V) (row : List V) (outer : Env V) : Z V → V
  | .sel i => row.getD i null
  | .outer r => outer r
  | .const v => v
  | .un f x => f (evalZ null row outer x)
  | .bin f x y => f (evalZ null row outer x) (evalZ null row outer y)
  | .between f x lo hi => f (evalZ null row (fun _ => null) x) (evalZ null row (fun _ => null) lo) (evalZ null row (fun _ => null) hi)
  | .app f xs => f (xs.map fun x => match x with | .inl i => row.getD i null | .inr r => outer r)

/-- The value of an expression of the subquery on one of its rows. -/
def evalX (row : Env V) : X V → V
  | .col r => row r
  | .const v => v
  | .un f x => f (evalX row x)
  | .bin f x y => f (evalX row x) (evalX row y)
  | .between f x lo hi => f (evalX row x) (evalX row lo) (evalX row hi)
  | .app f rs => f (rs.map row)

/-- What the surroundings supply: NULL, `=` of a condition, the loader's comparison of keys, and the truth of a value. -/
structure Ops (V : Type) where
  null : V
  eq : V → V → Bool
  same : V → V → Bool
  truthy : V → Bool

/-- A condition that stayed, on a row of the subquery. -/
def keptHolds (o : Ops V) (row : Env V) : Leaf V → Bool
  | .eq x y => o.eq (evalX row x) (evalX row y)
  | .other x => o.truthy (evalX row x)

/-- compiler.py:1094-1095: a column of a joined table of the outer query; `parents` begins with the primary table (2360-2363). -/
def isJoined (cur parents : List Name) (r : Ref) : Bool := !(isCurrent cur r) && decide (r.table ≠ parents.head?)

/-- An interceptor when the columns of the subquery are `row` and those of the outer query `outer`. -/
def interOn (o : Ops V) (cur : List Name) (cols : List Ref) (row : List V) (outer : Env V) : Leaf V → Bool
  | .eq x y => o.eq (evalZ o.null row outer (toZ cur cols x)) (evalZ o.null row outer (toZ cur cols y))
  | .other x => o.truthy (evalZ o.null row outer (toZ cur cols x))

/-- compiler.py:1035-1043, 1082-1110: an interceptor on a loaded row and an outer row.  With a column of a joined table the joins are loaded
around it as for a column of the select list (1109-1110): the keys of the join are looked for in the loaded row instead of the outer one, and
the columns of the subquery in the row of the join; all are NULL (unless columns have the same names: not modelled).  A column of the outer
query alone is compiled as if it stood in the outer query (1087-1089): NULL, too. -/
def interHolds (o : Ops V) (cur parents : List Name) (cols : List Ref) (row : List V) (outer : Env V) (l : Leaf V) : Bool :=
  if (leafFields l).any (isJoined cur parents) then interOn o cur cols [] (fun _ => o.null) l
  else match l with
    | .other (.col r) => interOn o cur cols row (fun _ => o.null) (.other (.col r))
    | l => interOn o cur cols row outer l

/-- A row the subquery returns: the selected value, the key columns, the columns for the interceptors (compiler.py:2484-2495). -/
structure Out (V : Type) where
  val : V
  keys : List V
  cols : List V

/-- compiler.py:2464, query_tasker_calculater.py:39-45: `column IN @alias`, with the keys of all outer rows of the batch. -/
def inBatch (o : Ops V) (batch : List (Env V)) (row : Env V) (k : Ref × Ref) : Bool :=
  (batch.map fun e => e k.2).any fun v => o.same (row k.1) v

/-- The rows of the subquery that pass its own WHERE. -/
def passing (o : Ops V) (s : Split V) (batch : List (Env V)) (inner : List (Env V)) : List (Env V) :=
  inner.filter fun row => s.keys.all (inBatch o batch row) && s.kept.all (keptHolds o row)

/-- The columns selected besides the value. -/
def extra (cur : List Name) (s : Split V) (row : Env V) : List V × List V :=
  (s.keys.map fun k => row k.1, (selectCols cur s.inter).map row)

/-- The subquery's rows without aggregate functions; a LIMIT applies to the rows of the whole batch (compiler.py:2520-2523). -/
def loadPlain (o : Ops V) (cur : List Name) (s : Split V) (sel : X V) (limit : Option Nat) (batch inner : List (Env V)) :
    List (Out V) :=
  let rows := (passing o s batch inner).map fun row =>
    (⟨evalX row sel, (extra cur s row).1, (extra cur s row).2⟩ : Out V)
  match limit with
  | some n => rows.take n
  | none => rows

/-- With an aggregate function the key columns and the interceptors' columns are grouped by (compiler.py:2503-2513;
an empty GROUP BY list, as for a subquery whose only condition is about the outer query alone, is not modelled). -/
def loadGroups [DecidableEq V] (o : Ops V) (cur : List Name) (s : Split V) (agg : List V → V) (arg : X V)
    (batch inner : List (Env V)) : List (Out V) :=
  let rows := passing o s batch inner
  (rows.map (extra cur s)).eraseDups.map fun g =>
    ⟨agg ((rows.filter fun row => extra cur s row = g).map fun row => evalX row arg), g.1, g.2⟩

/-- compiler.py:1064-1081: the rows for one outer row: equal keys, and all interceptors. -/
def matching (o : Ops V) (cur parents : List Name) (s : Split V) (loaded : List (Out V)) (outer : Env V) : List (Out V) :=
  loaded.filter fun r =>
    ((r.keys.zip s.keys).all fun p => o.same p.1 (outer p.2.2)) &&
    s.inter.all (interHolds o cur parents (selectCols cur s.inter) r.cols outer)

/-- The values a correlated subquery gives for an outer row, loaded together with a batch of outer rows; `none`: refused. -/
def run (o : Ops V) (cur parents : List Name) (c : Cond V) (sel : X V) (limit : Option Nat) (batch inner : List (Env V))
    (outer : Env V) : Option (List V) :=
  (splitWhere cur parents c).map fun s => (matching o cur parents s (loadPlain o cur s sel limit batch inner) outer).map (·.val)

/-- The same with an aggregate function. -/
def runAgg [DecidableEq V] (o : Ops V) (cur parents : List Name) (c : Cond V) (agg : List V → V) (arg : X V)
    (batch inner : List (Env V)) (outer : Env V) : Option (List V) :=
  (splitWhere cur parents c).map fun s => (matching o cur parents s (loadGroups o cur s agg arg batch inner) outer).map (·.val)

/-- EXISTS: whether there is a value. -/
def exists_ (l : List V) : Bool := !l.isEmpty

/-- A scalar subquery: the only value, NULL when there is none. -/
def scalar (null : V) (l : List V) : V := l.headD null

end Verif.Correlated
