import Verif.Model.WinSelect
import Verif.Spec.Select
/-!
SQL's meaning of a SELECT with window functions.  The syntax (`Query`, `Item`, `Win`, `E`) is taken from the model; so are the
equality of values (`Agg.keyOf`) and the values of the functions on an ordered partition (`Fn`, see C17, C23–C26).
-/
namespace Verif.SqlWindow
open Verif.Val Verif.Expr Verif.Sql Verif.Select Verif.SqlSelect Verif.WinSelect

variable {S : Type} (text : Str → Bool) (cmp : Cmp → Val → Val → Val) (calls : Str → List Val → Val)

/-- In OVER a name is a column of the table. -/
def keyValue (r : Row) : GKey → Val
  | .bare c => r c
  | .expr e => sem text cmp calls r e

/-- The window meant. -/
def windowOf (windows : List (Str × Over)) (w : Win S) (o : Over) : Prop :=
  match w.over with
  | .inline o' => o' = o
  | .named n => (n, o) ∈ windows

/-- The argument of a window function in a row; `COUNT(*)` counts every row. -/
def argument (r : Row) : Args → Window.Arg
  | .star => .one (.int 0)
  | .exprs [] => .one .null
  | .exprs [e] => .one (sem text cmp calls r e)
  | .exprs l => .many (l.map (sem text cmp calls r))

/-- The order values of a row. -/
def orderValues (o : Over) (r : Row) : List Val :=
  if o.order = [] then [.int 0] else o.order.map fun k => keyValue text cmp calls r k.1

/-- The ORDER BY keys of a window over positions in `rows`. -/
def windowKeys (o : Over) (rows : List Row) : List ((Nat → Val) × Bool) :=
  o.order.map fun k => (fun j => match rows[j]? with | some r => keyValue text cmp calls r k.1 | none => .null, k.2)

/-- The rows (positions) of the partition of position `i`. -/
def partition (o : Over) (rows : List Row) (i : Nat) : List Nat :=
  (List.range rows.length).filter fun j =>
    o.part.all fun k => decide ((rows[j]?).map (fun r => Agg.keyOf (keyValue text cmp calls r k)) =
      (rows[i]?).map fun r => Agg.keyOf (keyValue text cmp calls r k))

/-- `v` is the value of the window function `w` in the row at position `i` of `rows`: `part` is the partition of the row, in the
order of the window.  A window function gets the partition and the position of the row in it; an aggregate is taken over the rows
of the partition that the window does not order after the row (SQL's frame: with its peers; without ORDER BY all). -/
def WindowValue (le : Val → Val → Bool) (windows : List (Str × Over)) (w : Win S) (rows : List Row) (i : Nat) (v : Val) : Prop :=
  ∃ (o : Over) (part : List Nat) (pos : Nat),
    windowOf windows w o ∧
    SqlOrder.Sorted le (windowKeys text cmp calls o rows) (partition text cmp calls o rows i) part ∧
    part[pos]? = some i ∧
    match w.fn with
    | .win f => v = f (part.filterMap fun j => (rows[j]?).map fun r =>
        (orderValues text cmp calls o r, argument text cmp calls r w.args)) pos
    | .agg A => ∃ frame : List Nat, frame.Sublist part ∧
        (∀ j ∈ part, j ∈ frame ↔ SqlOrder.Le le (windowKeys text cmp calls o rows) j i) ∧
        v = aggregate A (frame.filterMap fun j => (rows[j]?).map fun r => argVal (argument text cmp calls r w.args))

/-- `v` is the value of a column of the select list in the row at position `i`. -/
def ColumnValue (le : Val → Val → Bool) (windows : List (Str × Over)) (rows : List Row) (i : Nat) (r : Row) (it : WinSelect.Item S) (v : Val) :
    Prop :=
  match it with
  | .expr e => v = sem text cmp calls r e
  | .win w => WindowValue text cmp calls le windows w rows i v
  | .calc ws e => ∃ vs : List (Str × Val), vs.map (·.1) = ws.map (·.1) ∧
      (∀ p ∈ List.zip ws vs, WindowValue text cmp calls le windows p.1.2 rows i p.2.2) ∧
      v = sem text cmp calls (fun n => if n ∈ ws.map (·.1) then colVal n vs else r n) e

/-- `o` is the result row of the row at position `i`, up to the order of the columns. -/
structure IsRow (le : Val → Val → Bool) (q : WinSelect.Query S) (rows : List Row) (i : Nat) (r : Row) (o : Out) : Prop where
  names : (o.map (·.1)).Perm (q.cols.map (·.1))
  values : ∀ c ∈ q.cols, ColumnValue text cmp calls le q.windows rows i r c.2 (colVal c.1 o)

/-- `result` is a result of the query, up to the order of the columns.  `rows'` are the rows that satisfy WHERE, in the order in
which they are read (the one of the table when there is no ORDER BY), `outs` their result rows; `sorted` are the positions of those
that satisfy HAVING, in the order of ORDER BY. -/
def WinResult (le : Val → Val → Bool) (q : WinSelect.Query S) (rows : List Row) (result : List Out) : Prop :=
  ∃ (rows' : List Row) (outs : List Out) (sorted : List Nat),
    rows'.Perm (rows.filter (satisfies text cmp calls q.cond)) ∧
    (q.order = [] → rows' = rows.filter (satisfies text cmp calls q.cond)) ∧
    outs.length = rows'.length ∧
    (∀ (i : Nat) r o, rows'[i]? = some r → outs[i]? = some o → IsRow text cmp calls le q rows' i r o) ∧
    SqlOrder.Sorted le
      (q.order.map fun k => (SqlOrder.value (q.cols.map (·.1)) q.table
        (fun _ n i => match rows'[i]? with | some r => r n | none => .null) (fun n i => colVal n (outs[i]?.getD [])) k.1, k.2))
      ((List.range rows'.length).filter fun i => satisfies text cmp calls q.having fun n => colVal n (outs[i]?.getD [])) sorted ∧
    result = pageOf q.limit q.offset (sorted.filterMap fun i => outs[i]?)

end Verif.SqlWindow
