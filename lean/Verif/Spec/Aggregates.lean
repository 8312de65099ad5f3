import Verif.Model.Aggregates
import Verif.Spec.Aggregate
import Verif.Spec.Functions
import Verif.Spec.TreeFunctions
/-!
What SQL's aggregates are (`StdAgg`), on the groups of values for which the program is meant to follow SQL, the statement that uses
them (`standard`), and when a statement uses them only there (`TreeAggWithin`).  The syntax of statements is taken from the model.
-/
namespace Verif.SqlAggregates
open Verif.Val Verif.Text Verif.Expr Verif.Sql Verif.Select Verif.SqlSelect Verif.AggSpec Verif.SqlFunctions Verif.Aggregates

/-- `w` comes before `v`: numbers by value, texts in the binary collation. -/
inductive Less : Val → Val → Prop where
  | num {v w p q} (hv : SqlFunctions.Num v p) (hw : SqlFunctions.Num w q) (h : p < q) : Less v w
  | text {s t} (h : Earlier s t) : Less (.str s) (.str t)

/-- A number or a text. -/
def Ordered (v : Val) : Prop := (∃ p, SqlFunctions.Num v p) ∨ ∃ s, v = .str s

/-- `L` has one of each class of equal values among `l`. -/
def Different (l L : List Val) : Prop :=
  (∀ w ∈ L, w ∈ nonNull l) ∧ L.Pairwise (fun a b => ¬ same a b) ∧ ∀ v ∈ nonNull l, ∃ w ∈ L, same v w

/-- `StdAgg f l v`: the aggregate `f` of the values `l` of the rows of a group is `v`. -/
inductive StdAgg : Name → List Val → Val → Prop where
  | count {l} (h : l ≠ []) : StdAgg .count l (.int (nonNull l).length)
  | countDistinct {l L} (h : Different l L) : StdAgg .countDistinct l (.int L.length)
  /-- Integers. -/
  | sum {l} {i : Int} (h : ∀ v ∈ nonNull l, ∃ j, v = .int j) (hne : nonNull l ≠ []) (hi : (i : Rat) = total (numbers l)) :
      StdAgg .sum l (.int i)
  /-- Numbers, of which one has a fraction. -/
  | sum_fraction {l q} (h : ∀ v ∈ nonNull l, ∃ p, SqlFunctions.Num v p) (hq : Val.flt q ∈ l) : StdAgg .sum l (.flt (total (numbers l)))
  | max_null {l} (h : nonNull l = []) : StdAgg .max l .null
  | max {l v} (hv : v ∈ nonNull l) (h : ∀ w ∈ nonNull l, w = v ∨ Less w v) (ho : Ordered v) : StdAgg .max l v
  | min_null {l} (h : nonNull l = []) : StdAgg .min l .null
  | min {l v} (hv : v ∈ nonNull l) (h : ∀ w ∈ nonNull l, w = v ∨ Less v w) (ho : Ordered v) : StdAgg .min l v
  /-- A group without NULLs. -/
  | avg {l} (h : ∀ v ∈ l, ∃ p, SqlFunctions.Num v p) (hne : l ≠ []) : StdAgg .avg l (.flt (total (numbers l) / l.length))
  /-- A group with a text. -/
  | groupConcat {l} {ts : List Str} (h : nonNull l = ts.map .str) (hne : ts ≠ []) :
      StdAgg .groupConcat l (.str (List.intercalate [','] ts))

/-- `agg` is a meaning of aggregates that agrees with SQL's. -/
def ImplementsAgg (agg : Name → List Val → Val) : Prop := ∀ f l v, StdAgg f l v → agg f l = v

/-- An aggregate as a function of all the values of a group, in the order in which the rows are read. -/
def standard (agg : Name → List Val → Val) (a : Written) : Aggr (List Val) :=
  ⟨⟨[], fun l v => l ++ [v], fun l m => l ++ m⟩, agg (nameOf a)⟩

section
variable (text : Str → Bool) (cmp : Cmp → Val → Val → Val) (sql : Str → List Val → Val) (le : Val → Val → Bool) (o : Join.Ops Val)

/-- The aggregates of the query are used where `StdAgg` says what they are: on each group, in whatever order the rows that satisfy
WHERE are read. -/
def QueryAggWithin (q : Query Name) (rows : List Row) : Prop :=
  ∀ n args final, (n, Item.agg args final) ∈ q.cols → ∀ a ∈ args,
    ∀ read : List Row, read.Perm (rows.filter (satisfies text cmp sql q.cond)) → ∀ members ∈ groupsOf text cmp sql q read,
      ∃ v, StdAgg (nameOf a.1) (members.map fun r => sem text cmp sql r a.2) v

/-- The positions over which an aggregate is taken in the row at position `i` (SQL's frame, as in `SqlWindow.WindowValue`). -/
def Frame (windows : List (Str × WinSelect.Over)) (w : WinSelect.Win Name) (rows : List Row) (i : Nat) (frame : List Nat) : Prop :=
  ∃ (o : WinSelect.Over) (part : List Nat), SqlWindow.windowOf windows w o ∧
    SqlOrder.Sorted le (SqlWindow.windowKeys text cmp sql o rows) (SqlWindow.partition text cmp sql o rows i) part ∧ i ∈ part ∧
    frame.Sublist part ∧ ∀ j ∈ part, j ∈ frame ↔ SqlOrder.Le le (SqlWindow.windowKeys text cmp sql o rows) j i

/-- The same for aggregates over windows. -/
def WinAggWithin (q : WinSelect.Query Name) (rows : List Row) : Prop :=
  ∀ w, WinOf q w → ∀ A, w.fn = .agg A → ∀ read : List Row, read.Perm (rows.filter (satisfies text cmp sql q.cond)) →
    ∀ i frame, Frame text cmp sql le q.windows w read i frame →
      ∃ v, StdAgg (nameOf A) (frame.filterMap fun j => (read[j]?).map fun r =>
        WinSelect.argVal (SqlWindow.argument text cmp sql r w.args)) v

/-- The SELECT uses the aggregates there, on the rows of its joins. -/
def KindAggWithin (rows : List Row) (others : List (List Row)) : Tree.Kind Name → Prop
  | .plain q => QueryAggWithin text cmp sql q rows
  | .joined joins q =>
      QueryAggWithin text cmp sql q (joinedRows o (String.ofList q.table) (SqlTree.joinedTable joins others) joins rows)
  | .comma ts w q =>
      QueryAggWithin text cmp sql { q with cond := JoinSelect.whereE (String.ofList q.table) w }
        (crossRows (String.ofList q.table) (SqlTree.listedTable ts others) ts rows)
  | .windowed q => WinAggWithin text cmp sql le q rows
  | .sub _ _ => True
  | .hav _ _ => True

variable (agg : Name → List Val → Val)

mutual
/-- Every SELECT of the statement does. -/
def TreeAggWithin (env : Str → List Out) : Tree.Rel Name → Prop
  | .scan _ => True
  | .select k src more => TreeAggWithin env src ∧ TreesAggWithin env more ∧
      ∀ rows others, SqlTree.Means text cmp sql le o env (mapRel (standard agg) src) rows →
        SqlTree.MeansAll text cmp sql le o env (mapRels (standard agg) more) others →
        KindAggWithin text cmp sql le o (rows.map SqlNest.rowOfRecord) (others.map (·.map SqlNest.rowOfRecord))
          (filled (SqlTree.headers more) (others.map (·.map SqlNest.rowOfRecord)) k)
  | .union l r => TreeAggWithin env l ∧ TreeAggWithin env r
  | .withq n d b => TreeAggWithin env d ∧
      ∀ rows, SqlTree.Means text cmp sql le o env (mapRel (standard agg) d) rows →
        TreeAggWithin (fun m => if m = n then rows else env m) b
/-- Every member of the list does. -/
def TreesAggWithin (env : Str → List Out) : Tree.Rels Name → Prop
  | .nil => True
  | .cons e l => TreeAggWithin env e ∧ TreesAggWithin env l
end
end

end Verif.SqlAggregates
