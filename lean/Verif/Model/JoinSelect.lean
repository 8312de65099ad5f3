import Verif.Model.Select
import Verif.Model.Join
/-!
Model of a SELECT with LEFT JOINs as a whole (compiler.py:386-584 with `join_tables`): the model of `Select` with the columns of
`Join`.  Every column, key and filter is compiled on its own to a column that loads the tables it needs (compiler.py:650-802,
962-1012) around a calculation, and is run from the row of the primary table alone.

In expressions (`E`) a column of the primary table is its name, a column of a joined table is `table.name`.  BETWEEN in an expression
that uses joined tables (`C122_between_violated`) is not modelled; nor are RIGHT and INNER JOIN, which are rewritten before
(`RightJoin`, `Join.run`).  As in `Join.evalC`, a joined table gives the first row its ON selects: several rows make several results
in the library, which is not modelled.
-/
namespace Verif.JoinSelect
open Verif.Val Verif.Expr Verif.Where Verif.Reduce Verif.Select

variable {S K : Type}

/-- compiler.py:2611-2690 `parse_column`: table and name of a column (with its typing filter). -/
def refOf (c : Str) : Join.Ref :=
  if '.' ∈ baseName c then ⟨some (String.ofList (c.takeWhile (· ≠ '.'))), String.ofList ((c.dropWhile (· ≠ '.')).drop 1)⟩
  else ⟨none, String.ofList c⟩

/-- compiler.py:860-865: is the column one of the primary table? -/
def isPrim (c : Str) : Bool := decide ('.' ∉ baseName c)

/-! ## The compiled query; `K` is what a column is compiled to -/

/-- As `Select.Col`. -/
inductive Col (K S : Type) where
  | calc (t : K)
  | agg (key : List K) (args : List (Aggr S × K)) (final : List Val → Val)
  | last (key : List K) (t : K)

/-- As `Select.Schema`. -/
abbrev Schema (K S : Type) := List (Str × Col K S)

/-- As `Select.Plan`. -/
structure Plan (K S : Type) where
  querys : Querys
  predicate : Option K
  orders : List Order.Key
  limit : Limit.Plan
  schema : Schema K S
  intercept : Option T
  sort : Option (List Order.Key)

variable (cc : E → Option K)

/-- compiler.py:1248-1263 (see `Select.keyCol`). -/
def keyCol (schema : Schema K S) : GKey → Option K
  | .bare c => match get c schema with
    | some (.calc t) => some t
    | some (.agg _ _ _) => none
    | some (.last _ _) => none
    | none => cc (.col c)
  | .expr e => cc e

/-- All keys. -/
def keyCols (schema : Schema K S) : List GKey → Option (List K)
  | [] => some []
  | g :: gs => (keyCol cc schema g).bind fun t => (keyCols schema gs).map (t :: ·)

/-- compiler.py:1242-1244. -/
def groupKey (schema : Schema K S) (gs : List GKey) : Option (List K) :=
  if gs.isEmpty then (cc (.lit (.str "__k_g__".toList))).map fun k => [k] else keyCols cc schema gs

/-- The arguments of an aggregate column. -/
def argCols : List (Aggr S × E) → Option (List (Aggr S × K))
  | [] => some []
  | a :: as => (cc a.2).bind fun k => (argCols as).map ((a.1, k) :: ·)

/-- compiler.py:439-516 and 1171-1240, one column of the select list. -/
def addCol (group : List GKey) (schema : Schema K S) (col : Str × Item S) : Option (Schema K S) :=
  match col.2 with
  | .expr e => (cc e).map fun k => put col.1 (.calc k) schema
  | .agg args final =>
    (groupKey cc schema group).bind fun k => (argCols cc args).map fun as => put col.1 (.agg k as final) schema

/-- All columns, in order. -/
def addCols (group : List GKey) : Schema K S → List (Str × Item S) → Option (Schema K S)
  | schema, [] => some schema
  | schema, c :: cs => (addCol cc group schema c).bind fun schema => addCols group schema cs

/-- The aggregate columns. -/
def aggNames (schema : Schema K S) : List Str :=
  (schema.filter fun c => match c.2 with | .agg _ _ _ => true | _ => false).map (·.1)

/-- `config["aggregate"]["key"]` (see `Select.aggKey`). -/
def aggKey : Schema K S → Option (List K)
  | [] => none
  | (_, c) :: d => match aggKey d with
    | some k => some k
    | none => match c with
      | .agg k _ _ => some k
      | .last k _ => some k
      | .calc _ => none

/-- compiler.py:1120-1139, 1160-1170: the column `n` carries the key. -/
def carryIn (key : List K) (schema : Schema K S) (n : Str) : Schema K S :=
  match get n schema with
  | some (.calc t) => put n (.last key t) schema
  | _ => schema

/-- compiler.py:1112-1170 (see `Select.carry`). -/
def carry (outKey : Option Str) (key : List K) (schema : Schema K S) : Schema K S :=
  match outKey with
  | some k => if (get k schema).isSome then carryIn key schema k else
    match schema.head? with
    | some c => carryIn key schema c.1
    | none => schema
  | none => match schema.head? with
    | some c => carryIn key schema c.1
    | none => schema

/-- compiler.py:1153-1157: the key of DISTINCT. -/
def distinctKey (schema : Schema K S) : List K := schema.filterMap fun c => match c.2 with | .calc t => some t | _ => none

/-- compiler.py:552-567 (see `Select.finish`). -/
def finish (q : Query S) (schema : Schema K S) : Option (Schema K S) :=
  if (aggNames schema).isEmpty then
    if !q.group.isEmpty then (keyCols cc schema q.group).map fun k => carry q.outKey k schema
    else if q.distinct then some (carry q.outKey (distinctKey schema) schema)
    else some schema
  else some schema

/-- compiler.py:518-524: the conditions that go to the load of the primary table are those on its own columns (860-865); the rest is
compiled like a column. -/
def whereOf (q : Query S) : Option (Querys × Option K) :=
  match q.cond with
  | some e => match (split isPrim [] e).res with
    | some r => (cc r).map fun k => (retype (split isPrim [] e).querys, some k)
    | none => some (retype (split isPrim [] e).querys, none)
  | none => some ([], none)

/-- compiler.py:386-584. -/
def compileSelect (q : Query S) : Option (Plan K S) :=
  (addCols cc q.group [] q.cols).bind fun schema =>
  (whereOf cc q).bind fun w =>
  (compileIntercept (schema.map (·.1)) q.having).bind fun intercept =>
  (Order.compile ⟨schema.map (·.1), q.columns, q.table, q.aliased, aggNames schema⟩ q.order).bind fun order =>
  (finish cc q schema).map fun final =>
  ⟨w.1, w.2, order.1,
    Limit.compile ⟨w.2.isSome, intercept.isSome, !(aggNames schema).isEmpty, order.2.isSome⟩ (q.limit.getD 0) q.offset,
    final, intercept, order.2⟩

/-! ## Columns -/

variable (py : Py) (calls : Str → List Val → Val)

/-- The row that has these values in these columns. -/
def assign : List Str → List Val → Row
  | n :: ns, v :: vs, c => if n = c then v else assign ns vs c
  | _, _, _ => .null

/-- An expression as a function of its columns. -/
def exprX (e : E) : Join.X Val := .app (fun vs => eval py calls (assign (colsE e) vs) (compile e)) ((colsE e).map refOf)

mutual
/-- BETWEEN occurs in the expression. -/
def hasBetween : E → Bool
  | .lit _ => false
  | .col _ => false
  | .cmp _ a b => hasBetween a || hasBetween b
  | .and a b => hasBetween a || hasBetween b
  | .or a b => hasBetween a || hasBetween b
  | .not a => hasBetween a
  | .is a _ => hasBetween a
  | .inl a l => hasBetween a || hasBetweenL l
  | .between _ _ _ => true
  | .paren a => hasBetween a
  | .ite c t f => hasBetween c || hasBetween t || hasBetween f
  | .ifnull a b => hasBetween a || hasBetween b
  | .coalesce a l => hasBetween a || hasBetweenL l
  | .caseC ws => hasBetweenW ws
  | .caseV a ws => hasBetween a || hasBetweenW ws
  | .call _ l => hasBetweenL l
/-- In a list. -/
def hasBetweenL : EL → Bool
  | .nil => false
  | .cons e l => hasBetween e || hasBetweenL l
/-- In the branches of CASE. -/
def hasBetweenW : WL → Bool
  | .noElse => false
  | .els e => hasBetween e
  | .when c t ws => hasBetween c || hasBetween t || hasBetweenW ws
end

/-- The joins of a query after ON was analysed: `primary` the primary table, `names` the joined tables, `info` what ON says;
`order` is the order in which Python enumerates sets of tables, `fuel` bounds the recursion. -/
structure Ctx where
  primary : Join.Name
  names : List Join.Name
  info : Join.Name → Join.Table Val
  order : List Join.Name → List Join.Name
  fuel : Nat

/-- compiler.py:672-682, 996-1007: the joined tables of an expression. -/
def tablesOf (e : E) : List Join.Name := ((colsE e).filterMap fun c => (refOf c).table).eraseDups

/-- compiler.py:650-670 (columns), 687-706 (expressions), 962-1012 (filter), 1265-1290 (keys): the tables must be joined (689-692,
1004-1006), the chain of tables they need is loaded around the calculation. -/
def compileE (cx : Ctx) (e : E) : Option (Join.C Val) :=
  if (tablesOf e).all (fun t => decide (t ∈ cx.names)) && !(hasBetween e && !(tablesOf e).isEmpty) then
    (Join.chain (fun t => Join.refs cx.primary (cx.info t)) cx.order cx.fuel (cx.order (tablesOf e)) []).bind fun tables =>
      Join.compileColumn cx.primary cx.info tables (exprX py calls e)
  else none

/-- compiler.py:2003-2026 `parse_joins`: every ON is analysed; the tables by name. -/
def parseJoins (o : Join.Ops Val) : List (Join.Join Val) → Option (Join.Name → Join.Table Val)
  | [] => some fun _ => ⟨[], [], [], []⟩
  | j :: js => (Join.parseOn o j.name ⟨[], [], [], []⟩ j.on).bind fun t =>
      (parseJoins o js).map fun info n => if n = j.name then t else info n

/-- The expressions of a query. -/
def exprsOf (q : Query S) : List E :=
  q.cols.flatMap (fun c => match c.2 with | .expr e => [e] | .agg args _ => args.map (·.2)) ++
    (q.group.map fun g => match g with | .bare c => .col c | .expr e => e) ++ (q.cond.toList ++ q.having.toList)

/-- compiler.py:2034-2061 `find_primary_keys` in the whole SELECT: is a column of the table `t` written anywhere in it?  (An expression
in ORDER BY is that of a column of the select list; subqueries are left out, 2048-2049, 2054-2055.) -/
def mentions (joins : List (Join.Join Val)) (q : Query S) (t : Join.Name) : Bool :=
  (joins.any fun j => j.on.any fun c => (Join.condFields c).any fun r => decide (r.table = some t)) ||
  ((exprsOf q).any fun e => decide (t ∈ tablesOf e)) ||
  q.order.any fun i => match i.1 with | .col (some n) _ => decide (String.ofList n = t) | _ => false

/-- compiler.py:2030-2065: a key by which the joined table is loaded: the columns of ON that are equated with something (2030), or else
a column of the table in its ON (2031-2032, 2059) or anywhere in the SELECT (2060-2061); if there is none, an exception (2062-2063). -/
def keyFound (info : Join.Name → Join.Table Val) (joins : List (Join.Join Val)) (q : Query S) (j : Join.Join Val) : Bool :=
  !(info j.name).keys.isEmpty || mentions joins q j.name

/-- compiler.py:2068-2076: the tables ON refers to must be joined. -/
def refsKnown (info : Join.Name → Join.Table Val) (primary : Join.Name) (names : List Join.Name) (j : Join.Join Val) : Bool :=
  (Join.refs primary (info j.name)).all fun t => decide (t ∈ names)

/-- compiler.py:870-872, 999-1006: the tables of WHERE must be joined, also those in lists of IN that go to the load. -/
def condKnown (names : List Join.Name) (c : Option E) : Bool := c.toList.all fun e => (tablesOf e).all fun t => decide (t ∈ names)

/-- compiler.py:386-584 for a query with LEFT JOINs; `order` and `fuel` as in `Ctx`. -/
def compile (o : Join.Ops Val) (order : List Join.Name → List Join.Name) (fuel : Nat) (joins : List (Join.Join Val)) (q : Query S) :
    Option (Plan (Join.C Val) S) :=
  (parseJoins o joins).bind fun info =>
    if joins.all (fun j => keyFound info joins q j && refsKnown info (String.ofList q.table) (joins.map (·.name)) j) &&
        condKnown (joins.map (·.name)) q.cond then
      compileSelect (compileE py calls ⟨String.ofList q.table, joins.map (·.name), info, order, fuel⟩) q
    else none

/-! ## Running it -/

/-- A row of a table for `Join`. -/
def jrow (r : Row) : Join.Row Val := fun c => r c.toList

/-- The rows of an ungrouped result. -/
def rowOf (schema : Schema (Row → Val) S) (r : Row) : Out :=
  schema.map fun c => (c.1, match c.2 with
    | .calc t => t r
    | .last _ t => t r
    | .agg _ _ _ => .null)

/-- As `Select.argInit`. -/
def argInit : Col (Row → Val) S → List S
  | .agg _ args _ => args.map fun a => a.1.fold.init
  | _ => []
/-- As `Select.argStep`. -/
def argStep (r : Row) (c : Col (Row → Val) S) (ss : List S) : List S :=
  match c with
  | .agg _ args _ => List.zipWith (fun a s => a.1.fold.step s (a.2 r)) args ss
  | _ => []
/-- As `Select.argRed`. -/
def argRed (c : Col (Row → Val) S) (ss ss' : List S) : List S :=
  match c with
  | .agg _ args _ => List.zipWith (fun a s => a.1.fold.red s.1 s.2) args (List.zip ss ss')
  | _ => []

/-- As `Select.groupFold`. -/
def groupFold (schema : Schema (Row → Val) S) : Fold Row (G S) where
  init := (none, none, schema.map fun c => argInit c.2)
  step g r := (g.1.or (some r), some r, List.zipWith (fun c ss => argStep r c.2 ss) schema g.2.2)
  red a b := (a.1.or b.1, b.2.1.or a.2.1, List.zipWith (fun c ss => argRed c.2 ss.1 ss.2) schema (List.zip a.2.2 b.2.2))

/-- As `Select.groupRow`. -/
def groupRow (schema : Schema (Row → Val) S) (g : G S) : Out :=
  List.zipWith (fun c ss => (c.1, match c.2 with
    | .calc t => (g.1.map fun r => t r).getD .null
    | .last _ t => (g.2.1.map fun r => t r).getD .null
    | .agg _ args final => final (List.zipWith (fun a s => a.1.final s) args ss))) schema g.2.2

/-- As `Select.groups`. -/
def groups (en : Engine) (schema : Schema (Row → Val) S) (k : List (Row → Val)) (kept : List Row) :
    List (List (Option Agg.Key) × G S) :=
  Reduce.query (groupFold schema) en.batch
    ((en.chunk kept).map fun (b : List Row × Bool) => (b.1.map fun r => (k.map fun t => Agg.keyOf (t r), r), b.2))

/-- As `Select.run`, for a plan whose columns are functions of the row of the primary table. -/
def runFun (en : Engine) (p : Plan (Row → Val) S) (rows : List Row) : List Out :=
  let read := rows.filter fun r => matchRow py calls en.src r p.querys
  let read := if p.orders = [] then read else Order.isort (Order.leBy en.le (fun n r => r n) p.orders) read
  let read := if p.limit.load = 0 then read else read.take p.limit.load
  let kept := read.filter fun r => match p.predicate with | some t => truthy (t r) | none => true
  let outs := match aggKey p.schema with
    | none => kept.map (rowOf p.schema)
    | some k => (groups en p.schema k kept).map fun (g : List (Option Agg.Key) × G S) => groupRow p.schema g.2
  let outs := outs.filter fun o => passes py calls p.intercept fun n => field n o
  let outs := match p.sort with
    | some s => Order.isort (Order.leBy en.le field s) outs
    | none => outs
  match p.limit.slice with
  | some (s, e) => Limit.pySlice s e outs
  | none => outs

/-- A plan with its columns replaced by what they compute. -/
def Col.map {K K' : Type} (f : K → K') : Col K S → Col K' S
  | .calc t => .calc (f t)
  | .agg key args final => .agg (key.map f) (args.map fun a => (a.1, f a.2)) final
  | .last key t => .last (key.map f) (f t)
/-- The plan with other columns. -/
def Plan.map {K K' : Type} (f : K → K') (p : Plan K S) : Plan K' S :=
  ⟨p.querys, p.predicate.map f, p.orders, p.limit, p.schema.map fun c => (c.1, c.2.map f), p.intercept, p.sort⟩

/-- Running a query with joins on the rows `rows` of the primary table and the other tables `db`: each column is run from the row of
the primary table (`Join.evalC`). -/
def run (o : Join.Ops Val) (db : Join.Name → List (Join.Row Val)) (en : Engine) (p : Plan (Join.C Val) S) (rows : List Row) : List Out :=
  runFun py calls en (p.map fun c r => Join.evalC .null (fun a b => o.truthy (o.cmp .eq a b)) o.truthy
    (fun t f => (db t).find? f) [jrow r] c) rows

end Verif.JoinSelect
