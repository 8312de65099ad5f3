import Verif.Model.Select
import Verif.Model.Window
/-!
Model of a SELECT with window columns: `compile_window_column`, `compile_window_key`, `compile_window_order`, `compile_window_value`,
`compile_window_calculate` (compiler.py:1349-1530), how `compile_select` treats them (compiler.py:386-570), and the two stages in
which an expression of window functions is run (taskers/query.py:125-141, 296-372).

No joins, no GROUP BY or aggregates beside the windows, no DISTINCT, no `@batch`.

Assumed of the library's `#partition` (it is what tests/test_example_window_aggregate.py expects): the rows are collected by the
partition key, each partition is sorted stably by the order keys, the calculater is called for its rows in that order, and the value
of a row is put back into the row.  With an order the value of a row is the state after this row; an aggregate without order
gives every row the state after the last one.
-/
namespace Verif.WinSelect
open Verif.Val Verif.Expr Verif.Where Verif.Select

/-- A window function: an aggregate, or one of window_calculater.py (`Model.Window`) as a function of the partition — the order
values and the argument of its rows, in order — and the position of the row. -/
inductive Fn (S : Type) where
  | agg (A : Aggr S)
  | win (f : List (List Val × Window.Arg) → Nat → Val)

/-- PARTITION BY and ORDER BY of a window. -/
structure Over where
  part : List GKey
  order : List (GKey × Bool)

/-- What follows OVER: a window, or the name of one of the WINDOW clause. -/
inductive Ref where
  | inline (o : Over)
  | named (n : Str)

/-- The arguments: `*` or a list. -/
inductive Args where
  | star
  | exprs (l : List E)

/-- `f(args) OVER w`. -/
structure Win (S : Type) where
  fn : Fn S
  over : Ref
  args : Args

/-- A column of the select list: an expression without window functions, a window function, or an expression of window functions,
in which they are named by hidden names (compiler.py:1422: `__window_aggregate_value_<id>__`). -/
inductive Item (S : Type) where
  | expr (e : E)
  | win (w : Win S)
  | calc (ws : List (Str × Win S)) (e : E)

/-- A query; the fields are those of `Select.Query`, `windows` is the WINDOW clause. -/
structure Query (S : Type) where
  cols : List (Str × Item S)
  windows : List (Str × Over) := []
  cond : Option E := none
  having : Option E := none
  order : List (Order.Item × Bool) := []
  limit : Option Nat := none
  offset : Nat := 0
  prim : Str → Bool := fun _ => true
  table : Str := []
  aliased : Bool := false
  columns : List Str := []

/-- A window column as compiled (1391-1416): the calculater, the partition key, the order keys, the arguments. -/
structure WinT (S : Type) where
  fn : Fn S
  part : List T
  order : List (T × Bool)
  args : List T

/-- A column of `config["schema"]`. -/
inductive Col (S : Type) where
  | calc (t : T)
  | win (w : WinT S)

variable {S : Type}

/-- compiler.py:1440-1455, one key, given the columns compiled so far: a name without table that is one of them is that column (a
window column: not modelled), otherwise it is the column of the table. -/
def keyT (schema : List (Str × Col S)) : GKey → Option T
  | .bare c => match get c schema with
    | some (.calc t) => some t
    | some (.win _) => none
    | none => some (.col c)
  | .expr e => some (compile e)

/-- All keys. -/
def keysT (schema : List (Str × Col S)) : List GKey → Option (List T)
  | [] => some []
  | g :: gs => (keyT schema g).bind fun t => (keysT schema gs).map (t :: ·)

/-- compiler.py:1375-1384: the window meant; an unknown name raises.  In the dictionary of `parse_windows` (2079-2083) the last
definition of a name counts. -/
def overOf (windows : List (Str × Over)) : Ref → Option Over
  | .inline o => some o
  | .named n => ((windows.filter fun w => w.1 = n).getLast?).map (·.2)

/-- compiler.py:1482-1496: `*` counts as the constant 0. -/
def argsT : Args → List T
  | .star => [.const (.int 0)]
  | .exprs l => l.map compile

/-- compiler.py:1354-1416, one window function. -/
def winT (windows : List (Str × Over)) (schema : List (Str × Col S)) (w : Win S) : Option (WinT S) :=
  (overOf windows w.over).bind fun o =>
  (keysT schema o.part).bind fun part =>
  (keysT schema (o.order.map (·.1))).map fun order =>
  ⟨w.fn, part, List.zip order (o.order.map (·.2)), argsT w.args⟩

/-- What `compile_select` has compiled: `config["schema"]`, the names and final values of the expressions of windows
(`window_schema`), their hidden columns, and the names of all window columns. -/
structure Cols (S : Type) where
  schema : List (Str × Col S) := []
  finals : List (Str × T) := []
  hidden : List Str := []
  windows : List Str := []

/-- compiler.py:1421-1427: the window functions of an expression become hidden columns. -/
def addHidden (windows : List (Str × Over)) : Cols S → List (Str × Win S) → Option (Cols S)
  | c, [] => some c
  | c, (h, w) :: ws =>
    (winT windows c.schema w).bind fun t =>
      addHidden windows { c with schema := put h (.win t) c.schema, hidden := c.hidden ++ [h] } ws

/-- compiler.py:441-517 and 1349-1432, one column of the select list.  The final value of an expression of windows is taken out of
the schema again (1431). -/
def addCol (windows : List (Str × Over)) (c : Cols S) (col : Str × Item S) : Option (Cols S) :=
  match col.2 with
  | .expr e => some { c with schema := put col.1 (.calc (compile e)) c.schema }
  | .win w => (winT windows c.schema w).map fun t =>
      { c with schema := put col.1 (.win t) c.schema, windows := c.windows ++ [col.1] }
  | .calc ws e => (addHidden windows c ws).map fun c =>
      { c with finals := put col.1 (compile e) c.finals, windows := c.windows ++ [col.1] }

/-- All columns, in order. -/
def addCols (windows : List (Str × Over)) : Cols S → List (Str × Item S) → Option (Cols S)
  | c, [] => some c
  | c, i :: is => (addCol windows c i).bind fun c => addCols windows c is

/-- The compiled query. -/
structure Plan (S : Type) where
  querys : Querys
  predicate : Option T
  orders : List Order.Key
  limit : Limit.Plan
  cols : Cols S
  intercept : Option T
  sort : Option (List Order.Key)

/-- compiler.py:519-524. -/
def whereOf (q : Query S) : Querys × Option T :=
  match q.cond with
  | some e => compileWhere q.prim e
  | none => ([], none)

/-- compiler.py:433-550.  ORDER BY and HAVING know the columns of the schema only, not the expressions of windows. -/
def compileSelect (q : Query S) : Option (Plan S) :=
  (addCols q.windows {} q.cols).bind fun c =>
  (compileIntercept (c.schema.map (·.1)) q.having).bind fun intercept =>
  (Order.compile ⟨c.schema.map (·.1), q.columns, q.table, q.aliased, c.windows⟩ q.order).map fun order =>
  ⟨(whereOf q).1, (whereOf q).2, order.1,
    Limit.compile ⟨(whereOf q).2.isSome, intercept.isSome, !c.windows.isEmpty, order.2.isSome⟩ (q.limit.getD 0) q.offset,
    c, intercept, order.2⟩

/-! ## Running it -/

variable (py : Py) (calls : Str → List Val → Val)

/-- The value of a window function's arguments in a row (1415-1416; no argument: `None`). -/
def argOf (ts : List T) (r : Row) : Window.Arg :=
  match ts with
  | [] => .one .null
  | [t] => .one (eval py calls r t)
  | ts => .many (ts.map (eval py calls r))

/-- The order values of a row; without ORDER BY a constant (1393-1394). -/
def orderOf (order : List (T × Bool)) (r : Row) : List Val :=
  if order = [] then [.int 0] else order.map fun t => eval py calls r t.1

/-- Comparison of order values, by the keys' directions. -/
def leKeys (le : Val → Val → Bool) : List Bool → List Val → List Val → Bool
  | d :: ds, x :: xs, y :: ys =>
    let lt := if d then !le x y else !le y x
    lt || (le x y && le y x && leKeys le ds xs ys)
  | _, _, _ => true

/-- A row of a partition: its position among the rows, its order values and its argument. -/
abbrev Cell := Nat × List Val × Window.Arg

/-- The first value of an aggregate's argument. -/
def argVal : Window.Arg → Val
  | .one v => v
  | .many _ => .null

/-- The values of the rows of a sorted partition (`ordered`: there is an ORDER BY). -/
def partValues (fn : Fn S) (ordered : Bool) (cells : List Cell) : List (Nat × Val) :=
  match fn with
  | .win f => cells.mapIdx fun i c => (c.1, f (cells.map (·.2)) i)
  | .agg A =>
    if ordered then
      cells.mapIdx fun i c =>
        (c.1, A.final (((cells.take (i + 1)).map fun c => argVal c.2.2).foldl A.fold.step A.fold.init))
    else cells.map fun c => (c.1, A.final ((cells.map fun c => argVal c.2.2).foldl A.fold.step A.fold.init))

/-- `#partition` on all rows: the values of the window function, with the positions of their rows. -/
def winValues (le : Val → Val → Bool) (w : WinT S) (rows : List Row) : List (Nat × Val) :=
  let cells : List (List (Option Agg.Key) × Cell) :=
    rows.mapIdx fun i r => (keyVal py calls w.part r, i, orderOf py calls w.order r, argOf py calls w.args r)
  let parts := cells.foldl (fun t c => Reduce.upsert [] (· ++ [c.2]) c.1 t) []
  parts.flatMap fun p =>
    partValues w.fn (!w.order.isEmpty)
      (if w.order.isEmpty then p.2 else Order.isort (fun a b => leKeys le (w.order.map (·.2)) a.2.1 b.2.1) p.2)

/-- The value put back into the row at a position. -/
def valueAt (i : Nat) : List (Nat × Val) → Val
  | [] => .null
  | (j, v) :: l => if j = i then v else valueAt i l

/-- The columns of the rows (first stage). -/
def stage1 (le : Val → Val → Bool) (schema : List (Str × Col S)) (rows : List Row) : List Out :=
  rows.mapIdx fun i r => schema.map fun c => (c.1, match c.2 with
    | .calc t => eval py calls r t
    | .win w => valueAt i (winValues py calls le w rows))

/-- query.py:339-372: the second stage, only needed when there are expressions of windows: it copies the columns that are not
hidden, and appends the final values, computed from the columns of the first stage. -/
def stage2 (c : Cols S) (o : Out) : Out :=
  if c.finals = [] then o
  else (o.filter fun e => e.1 ∉ c.hidden) ++ c.finals.map fun f => (f.1, eval py calls (fun n => field n o) f.2)

/-- Running the plan. -/
def run (src : Src) (le : Val → Val → Bool) (p : Plan S) (rows : List Row) : List Out :=
  let read := rows.filter fun r => matchRow py calls src r p.querys
  let read := if p.orders = [] then read else Order.isort (Order.leBy le (fun n r => r n) p.orders) read
  let read := if p.limit.load = 0 then read else read.take p.limit.load
  let kept := read.filter (passes py calls p.predicate)
  let outs := (stage1 py calls le p.cols.schema kept).map (stage2 py calls p.cols)
  let outs := outs.filter fun o => passes py calls p.intercept fun n => field n o
  let outs := match p.sort with
    | some s => Order.isort (Order.leBy le field s) outs
    | none => outs
  match p.limit.slice with
  | some (s, e) => Limit.pySlice s e outs
  | none => outs

/-! ## The functions of window_calculater.py -/

/-- A window function's value: a raised exception gives no value here. -/
def argRes : Option Window.Arg → Val
  | some (.one v) => v
  | _ => .null

/-- ROW_NUMBER, FIRST_VALUE, LAST_VALUE, LAG, LEAD, NTILE, RANK (`Model.Window`) as functions of the partition. -/
def rowNumberFn : Fn S := .win fun _ i => .int (Window.rowNumber i)
/-- FIRST_VALUE (window_calculater.py). -/
def firstValueFn : Fn S := .win fun p _ => argRes (Window.firstValue (p.map (·.2)))
/-- LAST_VALUE (window_calculater.py). -/
def lastValueFn : Fn S := .win fun p _ => argRes (Window.lastValue (p.map (·.2)))
/-- LAG (window_calculater.py). -/
def lagFn : Fn S := .win fun p i => argRes ((p[i]?).bind fun c => Window.lag py (p.map (·.2)) i c.2)
/-- LEAD (window_calculater.py). -/
def leadFn : Fn S := .win fun p i => argRes ((p[i]?).bind fun c => Window.lead py (p.map (·.2)) i c.2)
/-- RANK (window_calculater.py). -/
def rankFn : Fn S := .win fun p i => match (Window.ranks (p.map (·.1)))[i]? with | some n => .int n | none => .null

end Verif.WinSelect
