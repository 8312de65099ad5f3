import Verif.Basic
/-!
Model of joins (compiler.py): the chain of joined tables a column needs (`compile_join_column_tables`), the scopes of the columns
inside it (`compile_join_column`, `compile_join_column_field`), the analysis of ON (`parse_on_condition`) and the rewriting of
INNER JOIN (`optimize_rewrite_inner_join`).

Values are a parameter `V` (with `null`, the comparisons and the truth of a value).  Typing filters (`a|int`), subqueries and
jit definitions are not modelled.
-/
namespace Verif.Join

/-- Names of tables and columns. -/
abbrev Name := String

/-- A column of an expression, with the table it is qualified by (`parse_column`). -/
structure Ref where
  table : Option Name
  col : Name
  deriving DecidableEq, Repr

/-- Expressions: columns, literals, functions and operators (of one and two arguments; of more, as a function of the columns in
them), and BETWEEN, which `compile_calculate` treats on its own. -/
inductive X (V : Type) where
  | col (r : Ref)
  | const (v : V)
  | un (f : V → V) (x : X V)
  | bin (f : V → V → V) (x y : X V)
  | between (f : V → V → V → V) (x lo hi : X V)
  | app (f : List V → V) (rs : List Ref)

variable {V : Type}

/-- compiler.py:2262-2313 `parse_calculate`: the columns of an expression. -/
def fields : X V → List Ref
  | .col r => [r]
  | .const _ => []
  | .un _ x => fields x
  | .bin _ x y => fields x ++ fields y
  | .between _ x lo hi => fields x ++ fields lo ++ fields hi
  | .app _ rs => rs

/-! ## The chain of tables -/

/-- compiler.py:2022-2026: what is known of a joined table after ON has been analysed.  `keys`: `primary_keys` with
`calculate_expressions`; `joinCols`: `join_columns`; `querys`: conditions that go with the load. -/
structure Table (V : Type) where
  joinCols : List Ref
  keys : List (Name × X V)
  querys : List (Name × (V → Bool))
  having : List (X V)

/-- The other joined tables a table refers to (the set of compiler.py:729-730). -/
def refs (primary : Name) (t : Table V) : List Name :=
  (t.joinCols.filterMap fun r => match r.table with | some n => if n = primary then none else some n | none => none).eraseDups

/-- compiler.py:717-735 `compile_join_column_tables`, level by level: `acc` is `column_join_tables`.  `next` are the tables a
table refers to, `order` the order in which the set of the next level is enumerated (Python's `sorted` by `ref_count` of a set
whose own order is arbitrary).  The first argument bounds the depth of the recursion (Python raises RecursionError). -/
def chain (next : Name → List Name) (order : List Name → List Name) : Nat → List Name → List Name → Option (List Name)
  | 0, _, _ => none
  | fuel + 1, cur, acc =>
    if cur = [] then some acc
    else chain next order fuel (order (cur.flatMap next).eraseDups) (acc.filter (fun t => decide (t ∉ cur)) ++ cur)

/-! ## Scopes -/

/-- Compiled expressions: `slot d c` is the column text `"$" * d + "." + c`. -/
inductive Y (V : Type) where
  | slot (depth : Nat) (c : Name)
  | const (v : V)
  | un (f : V → V) (x : Y V)
  | bin (f : V → V → V) (x y : Y V)
  | between (f : V → V → V → V) (x lo hi : Y V)
  | app (f : List V → V) (slots : List (Nat × Name))

/-- compiler.py:804-808 `compile_join_column_field`, with `level = ci + 1`.  `none`: IndexError.  (`"$" * n` is empty for
negative `n`.) -/
def depth (primary : Name) (tables : List Name) (level : Nat) (r : Ref) : Option Nat :=
  match r.table with
  | none => some (tables.length + 1 - level)
  | some t => if t = primary then some (tables.length + 1 - level) else (tables.idxOf? t).map fun j => j + 1 - level

/-- `[f(a) for a in l]` where `f` may raise. -/
def mapAll {α β : Type} (f : α → Option β) : List α → Option (List β)
  | [] => some []
  | a :: l => do some ((← f a) :: (← mapAll f l))

/-- compiler.py:1531-1760 `compile_calculate`, as to columns: every operator and function passes the tables and the level on,
but BETWEEN (compiler.py:1721-1726) compiles its operands with no tables and the default level. -/
def compileX (primary : Name) (tables : List Name) (level : Nat) : X V → Option (Y V)
  | .col r => (depth primary tables level r).map fun d => .slot d r.col
  | .const v => some (.const v)
  | .un f x => do some (.un f (← compileX primary tables level x))
  | .bin f x y => do some (.bin f (← compileX primary tables level x) (← compileX primary tables level y))
  | .between f x lo hi => do
    some (.between f (← compileX primary [] 0 x) (← compileX primary [] 0 lo) (← compileX primary [] 0 hi))
  | .app f rs => (mapAll (fun r => (depth primary tables level r).map fun d => (d, r.col)) rs).map fun ds => .app f ds

/-- compiler.py:737-802: a column that loads tables. -/
inductive C (V : Type) where
  | leaf (y : Y V)
  | load (t : Name) (keys : List (Name × Y V)) (querys : List (Name × (V → Bool))) (having : List (Y V)) (inner : C V)

/-- compiler.py:752-796, the loop over the chain after its first `n` tables: table `i` is loaded around the column made of the
tables before it, its keys compiled at index `i` and its having expressions at `i - 1`. -/
def compileJoin (primary : Name) (info : Name → Table V) (tables : List Name) (y : Y V) : Nat → Option (C V)
  | 0 => some (.leaf y)
  | n + 1 => do
    let inner ← compileJoin primary info tables y n
    let t := tables.getD n ""
    let ks ← mapAll (fun kx => (compileX primary tables (n + 1) kx.2).map fun y => (kx.1, y)) (info t).keys
    let hs ← mapAll (compileX primary tables n) (info t).having
    some (.load t ks (info t).querys hs inner)

/-- compiler.py:672-682, 700-707: a select column. -/
def compileColumn (primary : Name) (info : Name → Table V) (tables : List Name) (x : X V) : Option (C V) := do
  compileJoin primary info tables (← compileX primary tables 0 x) tables.length

/-! ### Running it (the library): rows are functions from column names. -/

/-- A row. -/
abbrev Row (V : Type) := Name → V

/-- The value of the column text `"$" * d + "." + c`: `"$" * d` is the d-th row from the top of the scopes. -/
def slotVal (null : V) (stack : List (Row V)) (d : Nat) (c : Name) : V :=
  match d with
  | 0 => null
  | d + 1 => match stack[d]? with
    | some row => row c
    | none => null

/-- Values of compiled expressions. -/
def evalY (null : V) (stack : List (Row V)) : Y V → V
  | .slot d c => slotVal null stack d c
  | .const v => v
  | .un f x => f (evalY null stack x)
  | .bin f x y => f (evalY null stack x) (evalY null stack y)
  | .between f x lo hi => f (evalY null stack x) (evalY null stack lo) (evalY null stack hi)
  | .app f ds => f (ds.map fun d => slotVal null stack d.1 d.2)

/-- The load of a table that has at most one row for its keys (several rows make several results, which is not modelled):
`sel t p` is the row of table `t` that satisfies `p`, all NULL when there is none. -/
def evalC (null : V) (eqv : V → V → Bool) (truthy : V → Bool) (sel : Name → (Row V → Bool) → Option (Row V)) :
    List (Row V) → C V → V
  | stack, .leaf y => evalY null stack y
  | stack, .load t ks qs hs inner =>
    let m := sel t fun row => ks.all (fun ky => eqv (row ky.1) (evalY null stack ky.2)) && qs.all (fun q => q.2 (row q.1)) &&
      hs.all fun y => truthy (evalY null (row :: stack) y)
    evalC null eqv truthy sel (m.getD (fun _ => null) :: stack) inner

/-! ## ON -/

/-- The comparisons of ON. -/
inductive Op where | eq | ne | gt | ge | lt | le
  deriving DecidableEq, Repr

/-- The conjuncts of an ON condition: comparisons, IN a list of literals, and anything else (OR, LIKE, IS …). -/
inductive Cond (V : Type) where
  | cmp (op : Op) (l r : X V)
  | isin (l : X V) (vs : List V)
  | other (x : X V)

/-- The operators. -/
structure Ops (V : Type) where
  cmp : Op → V → V → V
  isin : V → List V → V
  truthy : V → Bool

/-- A conjunct as an expression. -/
def condX (o : Ops V) : Cond V → X V
  | .cmp op l r => .bin (o.cmp op) l r
  | .isin l vs => .un (fun v => o.isin v vs) l
  | .other x => x

/-- The value of an expression without columns. -/
def closed : X V → Option V
  | .col _ => none
  | .const v => some v
  | .un f x => (closed x).map f
  | .bin f x y => do some (f (← closed x) (← closed y))
  | .between f x lo hi => do some (f (← closed x) (← closed lo) (← closed hi))
  | .app f rs => if rs = [] then some (f []) else none

/-- The columns of other tables (compiler.py:2096-2097, 2162-2163, 2256-2257). -/
def foreign (own : Name) (rs : List Ref) : List Ref := rs.filter fun r => decide (r.table ≠ some own)

/-- compiler.py:2144-2154: the key column `c` of the joined table is compared with `x`.  `none`: the exception. -/
def addKey (s : Table V) (c : Name) (x : X V) (rs : List Ref) : Option (Table V) :=
  if c ∈ s.keys.map (·.1) then none
  else some { s with joinCols := s.joinCols ++ rs, keys := s.keys ++ [(c, x)] }

/-- The column name of a column of table `own`. -/
def ownCol (own : Name) : X V → Option Name
  | .col a => if a.table = some own then some a.col else none
  | _ => none

/-- compiler.py:2162-2171, 2094-2102, 2252-2258: the conjunct becomes a having expression, and the columns `rs` are recorded. -/
def addHaving (o : Ops V) (own : Name) (s : Table V) (c : Cond V) (rs : List Ref) : Option (Table V) :=
  some { s with joinCols := s.joinCols ++ foreign own rs, having := s.having ++ [condX o c] }

/-- compiler.py:2189-2204 `build_query_condition`. -/
def addQuery (s : Table V) (k : Name) (q : V → Bool) : Option (Table V) := some { s with querys := s.querys ++ [(k, q)] }

/-- compiler.py:2102-2187 `parse` when the conjunct is not an equation of a column of the joined table: the condition column is the
left side, if that is a column (of whatever table; it must be qualified, compiler.py:2139), and goes to the queries when the right
side has no columns; only the columns of the left side are recorded when it is not a column. -/
def addOther (o : Ops V) (own : Name) (s : Table V) (c : Cond V) (l r : X V) (q : V → V → Bool) : Option (Table V) :=
  match l with
  | .col a =>
    if a.table = none then none
    else match closed r with
      | some v => addQuery s a.col fun w => q w v
      | none => addHaving o own s c (fields r ++ fields l)
  | _ => addHaving o own s c (fields l)

/-- compiler.py:2139-2154: column `k` of the joined table equals `x`. -/
def addEq (o : Ops V) (s : Table V) (k : Name) (x : X V) : Option (Table V) :=
  match closed x with
  | some v => addQuery s k fun w => o.truthy (o.cmp .eq w v)
  | none => addKey s k x (fields x)

/-- compiler.py:2085-2258 `parse_on_condition` for one conjunct (AND is the loop of `parseOn`). -/
def parseCond (o : Ops V) (own : Name) (s : Table V) (c : Cond V) : Option (Table V) :=
  match c with
  | .cmp op l r =>
    if op = .eq then
      match ownCol own l with
      | some k => addEq o s k r
      | none => match ownCol own r with
        | some k => addEq o s k l
        | none => addOther o own s c l r fun w v => o.truthy (o.cmp .eq w v)
    else addOther o own s c l r fun w v => o.truthy (o.cmp op w v)
  | .isin l vs => match l with
    | .col a => if a.table = none then none else addQuery s a.col fun w => o.truthy (o.isin w vs)
    | _ => addHaving o own s c (fields l)
  | .other x => addHaving o own s c (fields x)

/-- compiler.py:2085-2089: the conjuncts, from left to right. -/
def parseOn (o : Ops V) (own : Name) : Table V → List (Cond V) → Option (Table V)
  | s, [] => some s
  | s, c :: cs => do parseOn o own (← parseCond o own s c) cs

/-- A row of the joined table matches: keys, queries and having expressions; `env` gives the columns of the other tables. -/
def evalX (env : Ref → V) : X V → V
  | .col r => env r
  | .const v => v
  | .un f x => f (evalX env x)
  | .bin f x y => f (evalX env x) (evalX env y)
  | .between f x lo hi => f (evalX env x) (evalX env lo) (evalX env hi)
  | .app f rs => f (rs.map env)

/-- The columns when the row of table `own` is `row`. -/
def withRow (env : Ref → V) (own : Name) (row : Row V) (r : Ref) : V := if r.table = some own then row r.col else env r

/-- The row of the joined table is one the keys and conditions select. -/
def matches_ (o : Ops V) (own : Name) (s : Table V) (env : Ref → V) (row : Row V) : Bool :=
  s.keys.all (fun kx => o.truthy (o.cmp .eq (row kx.1) (evalX env kx.2))) && s.querys.all (fun q => q.2 (row q.1)) &&
    s.having.all fun x => o.truthy (evalX (withRow env own row) x)

/-! ## INNER JOIN -/

/-- LEFT JOIN, INNER JOIN, and JOIN or comma. -/
inductive Kind where | left | inner | plain
  deriving DecidableEq, Repr

/-- A JOIN of the query. -/
structure Join (V : Type) where
  name : Name
  kind : Kind
  on : List (Cond V)

/-- compiler.py:3148-3201 `optimize_rewrite_parse_condition` for one conjunct of the ON of table `own` (with
`can_on_expressions_tables = None`): the tables on the other side when it counts as an ON expression. -/
def onExpr (own : Name) : Cond V → Option (List (Option Name))
  | .cmp _ l r =>
    if (ownCol own l).isSome then if fields r = [] then none else some ((fields r).map (·.table))
    else if (ownCol own r).isSome then if fields l = [] then none else some ((fields l).map (·.table))
    else none
  | _ => none

/-- The columns of a conjunct. -/
def condFields : Cond V → List Ref
  | .cmp _ l r => fields l ++ fields r
  | .isin l _ => fields l
  | .other x => fields x

/-- compiler.py:3085-3103: the columns that get IS NOT NULL. -/
def innerFields (primary : Name) (js : List (Join V)) : List Ref :=
  (js.flatMap fun j =>
    let ons := j.on.filter fun c => (onExpr j.name c).isSome
    if (ons.any fun c => ((onExpr j.name c).getD []).contains (some primary)) = true then ons.flatMap condFields else []).filter
    fun r => match r.table with | some t => decide (t ≠ primary) | none => false

/-- The environments: the rows of the tables. -/
abbrev Env (V : Type) := Name → Row V

/-- The value of a column. -/
def refVal (primary : Name) (e : Env V) (r : Ref) : V := e (r.table.getD primary) r.col

/-- The condition is true. -/
def holds (o : Ops V) (primary : Name) (e : Env V) (c : Cond V) : Bool := o.truthy (evalX (refVal primary e) (condX o c))

/-- The row of one table. -/
def upd (e : Env V) (t : Name) (row : Row V) : Env V := fun n => if n = t then row else e n

/-- The matches of a join. -/
def joined (o : Ops V) (primary : Name) (db : Name → List (Row V)) (j : Join V) (e : Env V) : List (Env V) :=
  ((db j.name).map (upd e j.name)).filter fun e' => j.on.all (holds o primary e')

/-- LEFT JOIN: an unmatched row goes on with NULLs. -/
def leftStep (null : V) (o : Ops V) (primary : Name) (db : Name → List (Row V)) (j : Join V) (e : Env V) : List (Env V) :=
  let m := joined o primary db j e
  if m = [] then [upd e j.name fun _ => null] else m

/-- The joins one after the other. -/
def leftAll (null : V) (o : Ops V) (primary : Name) (db : Name → List (Row V)) : List (Join V) → Env V → List (Env V)
  | [], e => [e]
  | j :: js, e => (leftStep null o primary db j e).flatMap (leftAll null o primary db js)

/-- The query as it is run: every join as a LEFT JOIN (compiler.py:2003-2008: `parse_joins` accepts "", LEFT and CROSS only, so
INNER has to be rewritten); with an INNER JOIN (compiler.py:2933-2936) the IS NOT NULL conditions are added to the WHERE
(compiler.py:3113-3123).  When there is no column for IS NOT NULL the query is left with its INNER JOIN, which `parse_joins`
refuses (`none`). -/
def run [DecidableEq V] (null : V) (o : Ops V) (primary : Name) (db : Name → List (Row V)) (js : List (Join V))
    (wher : Env V → Bool) (e : Env V) : Option (List (Env V)) :=
  let all := leftAll null o primary db js e
  if js.any fun j => decide (j.kind = .inner) then
    let fs := innerFields primary js
    if fs = [] then none
    else some (all.filter fun e' => wher e' && fs.all fun r => decide (refVal primary e' r ≠ null))
  else some (all.filter wher)

/-! ## FROM a, b, … -/

/-- The table of a column. -/
def colTable : X V → Option (Option Name)
  | .col a => some a.table
  | _ => none

/-- compiler.py:3171-3185: the other side may stay where it is: not a column, or a qualified column of one of the tables `can`. -/
def sideOk (can : List Name) (x : X V) : Bool :=
  match colTable x with
  | some t => match t with | some t => decide (t ∈ can) | none => false
  | none => true

/-- compiler.py:3148-3201 `optimize_rewrite_parse_condition` for one conjunct of the WHERE and table `own`, with
`can_on_expressions_tables = can` (not empty): does it go to the ON of `own` (`on_expressions`, `const_expressions`)? -/
def toOn (can : List Name) (own : Name) : Cond V → Bool
  | .cmp _ l r => ((ownCol own l).isSome && sideOk can r) || ((ownCol own r).isSome && sideOk can l)
  | _ => false

/-- compiler.py:2942-2986 `optimize_rewrite_multi_select`: each further table becomes a LEFT JOIN whose ON are the conjuncts of the
WHERE that can go there (`can`: the tables before it).  The WHERE stays. -/
def multiJoins (conds : List (Cond V)) : List Name → List Name → List (Join V)
  | _, [] => []
  | can, t :: ts => ⟨t, .left, conds.filter (toOn can t)⟩ :: multiJoins conds (can ++ [t]) ts

/-- `SELECT … FROM primary, ts WHERE conds`. -/
def runMulti [DecidableEq V] (null : V) (o : Ops V) (primary : Name) (db : Name → List (Row V)) (ts : List Name) (conds : List (Cond V))
    (e : Env V) : Option (List (Env V)) :=
  run null o primary db (multiJoins conds [primary] ts) (fun e' => conds.all (holds o primary e')) e

end Verif.Join
