import Verif.Model.Select
import Verif.Spec.Sql
import Verif.Spec.Group
import Verif.Spec.Order
/-!
SQL's meaning of a SELECT: the rows that satisfy WHERE, divided into groups, one result row per group that satisfies HAVING, in the
order of ORDER BY, of which LIMIT and OFFSET take a part.  The syntax (`Query`, `Item`, `GKey`, `E`) is taken from the model, and
the equality of values (`Agg.keyOf`: numbers by value, texts).
-/
namespace Verif.SqlSelect
open Verif.Val Verif.Expr Verif.Sql Verif.Select

variable {S : Type} (text : Str → Bool) (cmp : Cmp → Val → Val → Val) (calls : Str → List Val → Val)

/-- A row satisfies a condition when it is true (not UNKNOWN); no condition is always satisfied. -/
def satisfies (c : Option E) (row : Str → Val) : Bool :=
  match c with
  | none => true
  | some e => decide (tv text (sem text cmp calls row e) = some true)

/-- The value of an aggregate function on the values of a group. -/
def aggregate (A : Aggr S) (l : List Val) : Val := A.final (l.foldl A.fold.step A.fold.init)

/-- The result row of a group of rows; columns that are not aggregates are those of its first row. -/
def project (cols : List (Str × Item S)) (members : List Row) : Out :=
  cols.map fun c => (c.1, match c.2 with
    | .expr e => match members.head? with
      | some r => sem text cmp calls r e
      | none => .null
    | .agg args final => final (args.map fun a => aggregate a.1 (members.map fun r => sem text cmp calls r a.2)))

/-- The value of a column of a result row (NULL if there is no such column). -/
def colVal (n : Str) : Out → Val
  | [] => .null
  | (k, v) :: o => if k = n then v else colVal n o

/-- The expression a name stands for in the select list. -/
def aliased (c : Str) : List (Str × Item S) → Option E
  | [] => none
  | (k, .expr e) :: l => if k = c then some e else aliased c l
  | (_, .agg _ _) :: l => aliased c l

/-- What a GROUP BY item says of a row: a name of the select list is that column, another name a column of the table. -/
def groupValue (cols : List (Str × Item S)) (g : GKey) (r : Row) : Val :=
  match g with
  | .bare c => match aliased c cols with
    | some e => sem text cmp calls r e
    | none => r c
  | .expr e => sem text cmp calls r e

/-- The groups; without GROUP BY all rows, be there none, are one group. -/
def groupsOf (q : Query S) (rows : List Row) : List (List Row) :=
  if q.group.isEmpty then [rows]
  else (GroupSpec.groupBy (rows.map fun r => (q.group.map fun g => Agg.keyOf (groupValue text cmp calls q.cols g r), r))).map (·.2)

/-- LIMIT n OFFSET m. -/
def pageOf {β : Type} (limit : Option Nat) (offset : Nat) (l : List β) : List β :=
  match limit with
  | some n => (l.drop offset).take n
  | none => l.drop offset

/-- `result` is a result of the query without aggregates, GROUP BY and DISTINCT. -/
def RowResult (le : Val → Val → Bool) (q : Query S) (rows : List Row) (result : List Out) : Prop :=
  let out := fun r => project text cmp calls q.cols [r]
  ∃ sorted,
    SqlOrder.Sorted le (q.order.map fun i => (SqlOrder.value (q.cols.map (·.1)) q.table (fun _ n (r : Row) => r n) (fun n r => colVal n (out r)) i.1, i.2))
      (rows.filter fun r => satisfies text cmp calls q.cond r && satisfies text cmp calls q.having (fun n => colVal n (out r))) sorted ∧
    result = pageOf q.limit q.offset (sorted.map out)

/-- The result column an ORDER BY item of a grouped query names. -/
def outValue : Order.Item → Out → Val
  | .col _ n, o => colVal n o
  | .expr (some n), o => colVal n o
  | .expr none, _ => .null

/-- `result` is a result of the query with aggregates or GROUP BY (and no DISTINCT).  SQL reads the rows in any order: `members` is
the order in which they are read, the one of the table when there is no ORDER BY. -/
def GroupResult (le : Val → Val → Bool) (q : Query S) (rows : List Row) (result : List Out) : Prop :=
  ∃ (members : List Row) (sorted : List Out),
    members.Perm (rows.filter (satisfies text cmp calls q.cond)) ∧
    (q.order = [] → members = rows.filter (satisfies text cmp calls q.cond)) ∧
    sorted.Perm (((groupsOf text cmp calls q members).map (project text cmp calls q.cols)).filter fun o =>
      satisfies text cmp calls q.having fun n => colVal n o) ∧
    sorted.Pairwise (SqlOrder.Le le (q.order.map fun i => (outValue i.1, i.2))) ∧
    result = pageOf q.limit q.offset sorted

/-- `result` is a result of the query with DISTINCT (and without aggregates and GROUP BY): every row of the result without DISTINCT
once. -/
def DistinctResult (le : Val → Val → Bool) (q : Query S) (rows : List Row) (result : List Out) : Prop :=
  let out := fun r => project text cmp calls q.cols [r]
  ∃ sorted : List Out,
    sorted.Nodup ∧
    (∀ o, o ∈ sorted ↔ ∃ r ∈ rows, satisfies text cmp calls q.cond r = true ∧
      satisfies text cmp calls q.having (fun n => colVal n (out r)) = true ∧ o = out r) ∧
    sorted.Pairwise (SqlOrder.Le le (q.order.map fun i => (outValue i.1, i.2))) ∧
    result = pageOf q.limit q.offset sorted

end Verif.SqlSelect
