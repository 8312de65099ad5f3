import Verif.Model.Where
import Verif.Model.Order
import Verif.Model.Limit
import Verif.Model.Reduce
/-!
Model of `SELECT columns FROM t WHERE … GROUP BY … HAVING … ORDER BY … LIMIT …` as a whole: how `compile_select`
(compiler.py:386-584) puts together what the clauses are compiled to, and what runs it (taskers/query.py).

The clauses are those of the other files: `Expr` (columns), `Where`, `Order`, `Limit`, `Reduce` (batches).  Joins, window columns,
subqueries and `*` are not part of this file.

Assumed of the library (syncany): the data source returns the rows that satisfy `querys`, ordered by `orders`, at most `@limit` of
them; then `predicate` filters; then the columns are computed (grouped rows: one result row per key, in order of first appearance);
then `intercept` filters the result rows; then the pipelines run.
-/
namespace Verif.Select
open Verif.Val Verif.Expr Verif.Where Verif.Reduce

/-- A row of the table. -/
abbrev Row := Str → Val
/-- A row of the result. -/
abbrev Out := List (Str × Val)

/-- An aggregate function: its calculater (`Model.Aggregate`) as a fold with a final value. -/
structure Aggr (S : Type) where
  fold : Fold Val S
  final : S → Val

/-- A column of the select list: an expression, or an expression of aggregates `final(f₁(e₁), …)`. -/
inductive Item (S : Type) where
  | expr (e : E)
  | agg (args : List (Aggr S × E)) (final : List Val → Val)

/-- A GROUP BY item: a name without table, or another expression (a qualified column too). -/
inductive GKey where
  | bare (c : Str)
  | expr (e : E)

/-- A query; `limit` is the number after LIMIT.  `columns` are the columns of the table that occur in the select list, `aliased`
says whether the table has an alias, `outKey` is `outputer_primary_keys[0]` if it is a column of the result. -/
structure Query (S : Type) where
  cols : List (Str × Item S)
  cond : Option E := none
  group : List GKey := []
  having : Option E := none
  order : List (Order.Item × Bool) := []
  limit : Option Nat := none
  offset : Nat := 0
  distinct : Bool := false
  prim : Str → Bool := fun _ => true
  table : Str := []
  aliased : Bool := false
  columns : List Str := []
  outKey : Option Str := none

/-- A column as compiled: a calculated one; an aggregate with its key, its arguments and its final value; the column that carries
the grouping when there is no aggregate (compiler.py:1128, 1160: `"$$.value"`, the value of the last row). -/
inductive Col (S : Type) where
  | calc (t : T)
  | agg (key : List T) (args : List (Aggr S × T)) (final : List Val → Val)
  | last (key : List T) (t : T)

/-- `config["schema"]`. -/
abbrev Schema (S : Type) := List (Str × Col S)

/-- `d.get(k)`. -/
def get {β : Type} (k : Str) : List (Str × β) → Option β
  | [] => none
  | (k', v) :: d => if k' = k then some v else get k d

/-- `d[k] = v`. -/
def put {β : Type} (k : Str) (v : β) : List (Str × β) → List (Str × β)
  | [] => [(k, v)]
  | (k', v') :: d => if k' = k then (k', v) :: d else (k', v') :: put k v d

variable {S : Type}

/-- compiler.py:1248-1263, one GROUP BY item, given the columns compiled so far: a name without table that is one of them is that
column (one that is an aggregate: not modelled), otherwise it is the column of the table. -/
def keyCol (schema : Schema S) : GKey → Option T
  | .bare c => match get c schema with
    | some (.calc t) => some t
    | some (.agg _ _ _) => none
    | some (.last _ _) => none
    | none => some (.col c)
  | .expr e => some (compile e)

/-- All keys. -/
def keyCols (schema : Schema S) : List GKey → Option (List T)
  | [] => some []
  | g :: gs => (keyCol schema g).bind fun t => (keyCols schema gs).map (t :: ·)

/-- compiler.py:1242-1244: without GROUP BY the key is a constant. -/
def groupKey (schema : Schema S) (gs : List GKey) : Option (List T) :=
  if gs.isEmpty then some [.const (.str "__k_g__".toList)] else keyCols schema gs

/-- compiler.py:439-516 and 1171-1240, one column of the select list.  The key of an aggregate column is compiled at this point
(1173). -/
def addCol (group : List GKey) (schema : Schema S) (col : Str × Item S) : Option (Schema S) :=
  match col.2 with
  | .expr e => some (put col.1 (.calc (compile e)) schema)
  | .agg args final =>
    (groupKey schema group).map fun k => put col.1 (.agg k (args.map fun a => (a.1, compile a.2)) final) schema

/-- All columns, in order. -/
def addCols (group : List GKey) : Schema S → List (Str × Item S) → Option (Schema S)
  | schema, [] => some schema
  | schema, c :: cs => (addCol group schema c).bind fun schema => addCols group schema cs

/-- The aggregate columns. -/
def aggNames (schema : Schema S) : List Str :=
  (schema.filter fun c => match c.2 with | .agg _ _ _ => true | _ => false).map (·.1)

/-- `config["aggregate"]["key"]`: set by each aggregate column (compiler.py:1239), so the one of the last is left. -/
def aggKey : Schema S → Option (List T)
  | [] => none
  | (_, c) :: d => match aggKey d with
    | some k => some k
    | none => match c with
      | .agg k _ _ => some k
      | .last k _ => some k
      | .calc _ => none

mutual
/-- The columns of an expression (`parse_calculate`). -/
def colsE : E → List Str
  | .lit _ => []
  | .col c => [c]
  | .cmp _ a b => colsE a ++ colsE b
  | .and a b => colsE a ++ colsE b
  | .or a b => colsE a ++ colsE b
  | .not a => colsE a
  | .is a _ => colsE a
  | .inl a l => colsE a ++ colsEL l
  | .between a lo hi => colsE a ++ colsE lo ++ colsE hi
  | .paren a => colsE a
  | .ite c t f => colsE c ++ colsE t ++ colsE f
  | .ifnull a b => colsE a ++ colsE b
  | .coalesce a l => colsE a ++ colsEL l
  | .caseC ws => colsWL ws
  | .caseV a ws => colsE a ++ colsWL ws
  | .call _ l => colsEL l
/-- Of a list. -/
def colsEL : EL → List Str
  | .nil => []
  | .cons e l => colsE e ++ colsEL l
/-- Of the branches of CASE. -/
def colsWL : WL → List Str
  | .noElse => []
  | .els e => colsE e
  | .when c t ws => colsE c ++ colsE t ++ colsWL ws
end

/-- compiler.py:1829-1890: the columns of HAVING that are looked up in the result (1841, 1850, 1870, 1886): those of both sides, but not
those in the list of an IN (1860-1867) nor the bounds of a BETWEEN (1838). -/
def havingCols : E → List Str
  | .and a b => havingCols a ++ havingCols b
  | .or a b => havingCols a ++ havingCols b
  | .paren a => havingCols a
  | .inl a _ => colsE a
  | .between a _ _ => colsE a
  | e => colsE e

/-- compiler.py:526-530, 1813-1931: HAVING; its columns must be columns of the result. -/
def compileIntercept (names : List Str) : Option E → Option (Option T)
  | none => some none
  | some e => if (havingCols e).all (fun c => decide (c ∈ names)) then (compileHaving e).map some else none

/-- compiler.py:1120-1139, 1160-1170: the column `n` carries the key. -/
def carryIn (key : List T) (schema : Schema S) (n : Str) : Schema S :=
  match get n schema with
  | some (.calc t) => put n (.last key t) schema
  | _ => schema

/-- compiler.py:1112-1139 `compile_group_column`, 1141-1170 `compile_distinct_column`: the column `outKey`, or the first one,
carries the key. -/
def carry (outKey : Option Str) (key : List T) (schema : Schema S) : Schema S :=
  match outKey with
  | some k => if (get k schema).isSome then carryIn key schema k else
    match schema.head? with
    | some c => carryIn key schema c.1
    | none => schema
  | none => match schema.head? with
    | some c => carryIn key schema c.1
    | none => schema

/-- The compiled query. -/
structure Plan (S : Type) where
  querys : Querys
  predicate : Option T
  orders : List Order.Key
  limit : Limit.Plan
  schema : Schema S
  intercept : Option T
  sort : Option (List Order.Key)

/-- compiler.py:518-524. -/
def whereOf (q : Query S) : Querys × Option T :=
  match q.cond with
  | some e => compileWhere q.prim e
  | none => ([], none)

/-- compiler.py:1153-1157: the key of DISTINCT, all columns that are not aggregates. -/
def distinctKey (schema : Schema S) : List T := schema.filterMap fun c => match c.2 with | .calc t => some t | _ => none

/-- compiler.py:552-567: GROUP BY and DISTINCT without aggregate columns.  The branch 559-567 (DISTINCT beside GROUP BY) is never
taken: when there is a GROUP BY, the aggregate schema is not empty any more after 553. -/
def finish (q : Query S) (schema : Schema S) : Option (Schema S) :=
  if (aggNames schema).isEmpty then
    if !q.group.isEmpty then (keyCols schema q.group).map fun k => carry q.outKey k schema
    else if q.distinct then
      some (carry q.outKey (distinctKey schema) schema)
    else some schema
  else some schema

/-- compiler.py:432-571. -/
def compileSelect (q : Query S) : Option (Plan S) :=
  (addCols q.group [] q.cols).bind fun schema =>                             -- 432-516
  (compileIntercept (schema.map (·.1)) q.having).bind fun intercept =>       -- 526-530
  (Order.compile ⟨schema.map (·.1), q.columns, q.table, q.aliased, aggNames schema⟩ q.order).bind fun order =>  -- 532-534
  (finish q schema).map fun final =>                                         -- 552-567
  ⟨(whereOf q).1, (whereOf q).2, order.1,
    Limit.compile ⟨(whereOf q).2.isSome, intercept.isSome, !(aggNames schema).isEmpty, order.2.isSome⟩ (q.limit.getD 0) q.offset,  -- 536-550
    final, intercept, order.2⟩

/-! ## Running it -/

variable (py : Py) (calls : Str → List Val → Val)

/-- Python equality (and hash) of the values of a key. -/
def keyVal (k : List T) (r : Row) : List (Option Agg.Key) := k.map fun t => Agg.keyOf (eval py calls r t)

/-- A row of an ungrouped result. -/
def rowOf (schema : Schema S) (r : Row) : Out :=
  schema.map fun c => (c.1, match c.2 with
    | .calc t => eval py calls r t
    | .last _ t => eval py calls r t
    | .agg _ _ _ => .null)

/-- The states of the aggregates of one column. -/
def argInit : Col S → List S
  | .agg _ args _ => args.map fun a => a.1.fold.init
  | _ => []
/-- One row into the states of the arguments. -/
def argStep (r : Row) (c : Col S) (ss : List S) : List S :=
  match c with
  | .agg _ args _ => List.zipWith (fun a s => a.1.fold.step s (eval py calls r a.2)) args ss
  | _ => []
/-- Two states of the arguments into one. -/
def argRed (c : Col S) (ss ss' : List S) : List S :=
  match c with
  | .agg _ args _ => List.zipWith (fun a s => a.1.fold.red s.1 s.2) args (List.zip ss ss')
  | _ => []

/-- The state of a group: its first row, its last row, the states of the aggregates of each column. -/
abbrev G (S : Type) := Option Row × Option Row × List (List S)

/-- The states of a group, row by row, and combined (query.py:296-372: `"$." + key` keeps the value of the first record). -/
def groupFold (schema : Schema S) : Fold Row (G S) where
  init := (none, none, schema.map fun c => argInit c.2)
  step g r := (g.1.or (some r), some r, List.zipWith (fun c ss => argStep py calls r c.2 ss) schema g.2.2)
  red a b := (a.1.or b.1, b.2.1.or a.2.1, List.zipWith (fun c ss => argRed c.2 ss.1 ss.2) schema (List.zip a.2.2 b.2.2))

/-- The result row of a group. -/
def groupRow (schema : Schema S) (g : G S) : Out :=
  List.zipWith (fun c ss => (c.1, match c.2 with
    | .calc t => (g.1.map fun r => eval py calls r t).getD .null
    | .last _ t => (g.2.1.map fun r => eval py calls r t).getD .null
    | .agg _ args final => final (List.zipWith (fun a s => a.1.final s) args ss))) schema g.2.2

/-- A column of a result row. -/
def field (n : Str) (o : Out) : Val := (get n o).getD .null

/-- A row passes a filter, if there is one (`predicate`, `intercept`). -/
def passes (t : Option T) (row : Str → Val) : Bool :=
  match t with
  | some t => truthy (eval py calls row t)
  | none => true

/-- What a data source, the order of values and the division into batches are: `batch` is `@batch`, `chunk` divides the rows read
(`Reduce`; the flag is the one of `Reduce.outputed`). -/
structure Engine where
  src : Src
  le : Val → Val → Bool
  batch : Nat
  chunk : List Row → List (List Row × Bool)

/-- The groups of the rows that were read (`Reduce.query`). -/
def groups (en : Engine) (schema : Schema S) (k : List T) (kept : List Row) : List (List (Option Agg.Key) × G S) :=
  Reduce.query (groupFold py calls schema) en.batch
    ((en.chunk kept).map fun (b : List Row × Bool) => (b.1.map fun r => (keyVal py calls k r, r), b.2))

/-- Running the plan.  For a grouped result all columns that carry a key are taken to carry the same (`aggKey`); what the library
does when they carry different keys is not modelled. -/
def run (en : Engine) (p : Plan S) (rows : List Row) : List Out :=
  let read := rows.filter fun r => matchRow py calls en.src r p.querys
  let read := if p.orders = [] then read else Order.isort (Order.leBy en.le (fun n r => r n) p.orders) read
  let read := if p.limit.load = 0 then read else read.take p.limit.load
  let kept := read.filter (passes py calls p.predicate)
  let outs := match aggKey p.schema with
    | none => kept.map (rowOf py calls p.schema)
    | some k =>
      (groups py calls en p.schema k kept).map fun (g : List (Option Agg.Key) × G S) => groupRow py calls p.schema g.2
  let outs := outs.filter fun o => passes py calls p.intercept fun n => field n o
  let outs := match p.sort with
    | some s => Order.isort (Order.leBy en.le field s) outs
    | none => outs
  match p.limit.slice with
  | some (s, e) => Limit.pySlice s e outs
  | none => outs

end Verif.Select
