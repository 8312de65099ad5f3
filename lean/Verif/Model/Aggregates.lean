import Verif.Model.Aggregate
import Verif.Model.Reduce
import Verif.Model.Tree
/-!
The aggregates of `SELECT` statements by name, and the calculaters the program takes for them (compiler.py:1316-1334, 2899-2901;
calculaters/aggregate_calculater.py), all with one type of state, so that a query can have several of them.
-/
namespace Verif.Aggregates
open Verif.Val Verif.Select Verif.Reduce Verif.Agg

/-- The aggregates with a number or text as result. -/
inductive Name where
  | count | countDistinct | sum | max | min | avg | groupConcat
  deriving DecidableEq

/-- The state of one of the calculaters; `Option` as in `Calc.total`. -/
inductive State where
  | count (s : Option (Option Int))
  | vals (s : Option (Option (List Val)))
  | sum (s : Option (Option Num))
  | best (s : Option (Option Val))
  | avg (s : Option (Option (Nat × Num)))
  | texts (s : Option (Option (List Str)))

/-- A calculater with its state among the others'. -/
def embed {σ : Type} (A : Calc Val σ Val) (inj : Option (Option σ) → State) (prj : State → Option (Option σ)) : Aggr State where
  fold := {
    init := inj (Calc.total A).init
    step := fun s v => inj ((Calc.total A).step (prj s) v)
    red := fun a b => inj ((Calc.total A).red (prj a) (prj b)) }
  final s := match prj s with
    | some s => A.final s
    | none => .null

/-- A calculater whose final value is `f` of its result. -/
def withFinal {α σ R R' : Type} (A : Calc α σ R) (f : R → R') : Calc α σ R' where
  step := A.step
  reduce := A.reduce
  final s := f (A.final s)

/-- aggregate_calculater.py: the classes (AVG's final value is a float, 219, 222: `FloatFilter`). -/
def program (py : Py) : Name → Aggr State
  | .count => embed Agg.count .count fun | .count s => s | _ => none
  | .countDistinct => embed Agg.distinctCount .vals fun | .vals s => s | _ => none
  | .sum => embed (Agg.sum py) .sum fun | .sum s => s | _ => none
  | .max => embed (Agg.max py) .best fun | .best s => s | _ => none
  | .min => embed (Agg.min py) .best fun | .best s => s | _ => none
  | .avg => embed (withFinal (Agg.avg py) Val.flt) .avg fun | .avg s => s | _ => none
  | .groupConcat => embed (withFinal (Agg.groupConcat py) Val.str) .texts fun | .texts s => s | _ => none

/-- In a statement an aggregate is written by its name. -/
abbrev Written := Aggr Name

/-- The name. -/
def named (n : Name) : Written := ⟨⟨n, fun s _ => s, fun s _ => s⟩, fun _ => .null⟩
/-- The name that is written. -/
def nameOf (a : Written) : Name := a.fold.init

section
variable {S S' : Type} (μ : Aggr S → Aggr S')

/-- The column with these aggregates in place of those. -/
def mapItem : Item S → Item S'
  | .expr e => .expr e
  | .agg args final => .agg (args.map fun a => (μ a.1, a.2)) final

/-- The query with these aggregates in place of those. -/
def mapQuery (q : Query S) : Query S' :=
  { cols := q.cols.map fun c => (c.1, mapItem μ c.2), cond := q.cond, group := q.group, having := q.having, order := q.order,
    limit := q.limit, offset := q.offset, distinct := q.distinct, prim := q.prim, table := q.table, aliased := q.aliased,
    columns := q.columns, outKey := q.outKey }

/-- The same for window functions. -/
def mapFn : WinSelect.Fn S → WinSelect.Fn S'
  | .agg A => .agg (μ A)
  | .win f => .win f

def mapWin (w : WinSelect.Win S) : WinSelect.Win S' := ⟨mapFn μ w.fn, w.over, w.args⟩

def mapWinItem : WinSelect.Item S → WinSelect.Item S'
  | .expr e => .expr e
  | .win w => .win (mapWin μ w)
  | .calc ws e => .calc (ws.map fun w => (w.1, mapWin μ w.2)) e

def mapWinQuery (q : WinSelect.Query S) : WinSelect.Query S' :=
  { cols := q.cols.map fun c => (c.1, mapWinItem μ c.2), windows := q.windows, cond := q.cond, having := q.having, order := q.order,
    limit := q.limit, offset := q.offset, prim := q.prim, table := q.table, aliased := q.aliased, columns := q.columns }

/-- The same for a SELECT of a statement. -/
def mapKind : Tree.Kind S → Tree.Kind S'
  | .plain q => .plain (mapQuery μ q)
  | .joined joins q => .joined joins (mapQuery μ q)
  | .comma ts w q => .comma ts w (mapQuery μ q)
  | .windowed q => .windowed (mapWinQuery μ q)
  | .sub w k => .sub w (mapKind k)
  | .hav h k => .hav h (mapKind k)

mutual
/-- The same for a statement. -/
def mapRel : Tree.Rel S → Tree.Rel S'
  | .scan t => .scan t
  | .select k src more => .select (mapKind μ k) (mapRel src) (mapRels more)
  | .union l r => .union (mapRel l) (mapRel r)
  | .withq n d b => .withq n (mapRel d) (mapRel b)
/-- The same for a list of statements. -/
def mapRels : Tree.Rels S → Tree.Rels S'
  | .nil => .nil
  | .cons e l => .cons (mapRel e) (mapRels l)
end
end

end Verif.Aggregates
