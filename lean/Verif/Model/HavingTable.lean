import Verif.Model.JoinSelect
/-!
HAVING of a query with joins in which columns are written with their tables.  As everywhere in `JoinSelect` the columns of the primary table
are written without it inside expressions; a side of a condition that is just a column may have any table.
-/
namespace Verif.HavingTable
open Verif.Val Verif.Expr Verif.Where Verif.Select

/-- compiler.py:2611-2690: the name of a column without its table. -/
def bare (c : Str) : Str := (JoinSelect.refOf c).col.toList

/-- compiler.py:1839-1858, 1868-1890: one side of a condition of HAVING.  Of a column only the name is used (1841-1845, 1984-1996); in
an expression a column of another table is looked for among no tables (807: IndexError). -/
def side : E → Option E
  | .col c => some (.col (bare c))
  | e => if (colsE e).all JoinSelect.isPrim then some e else none

/-- compiler.py:1813-1931: what HAVING is compiled as. -/
def untabled : E → Option E
  | .and a b => (untabled a).bind fun x => (untabled b).map fun y => .and x y
  | .or a b => (untabled a).bind fun x => (untabled b).map fun y => .or x y
  | .paren a => (untabled a).map .paren
  | .cmp op a b => (side a).bind fun x => (side b).map fun y => .cmp op x y
  | .inl a l => (side a).bind fun x => if (colsEL l).all JoinSelect.isPrim then some (.inl x l) else none
  | .is a w => (side a).map fun x => .is x w
  | .not a => (side a).map .not
  | .between a lo hi => (side a).map fun x => .between x lo hi
  | e => some e

/-- compiler.py:526-530: HAVING, if there is one. -/
def untabledHaving : Option E → Option (Option E)
  | none => some none
  | some e => (untabled e).map some

variable {S : Type} (py : Py) (calls : Str → List Val → Val)

/-- compiler.py:386-584: `JoinSelect.compile` with such a HAVING (the tables in it count as used, 2060-2061). -/
def compile (o : Join.Ops Val) (order : List Join.Name → List Join.Name) (fuel : Nat) (joins : List (Join.Join Val)) (q : Query S) :
    Option (JoinSelect.Plan (Join.C Val) S) :=
  (JoinSelect.parseJoins o joins).bind fun info =>
    if joins.all (fun j => JoinSelect.keyFound info joins q j && JoinSelect.refsKnown info (String.ofList q.table) (joins.map (·.name)) j) &&
        JoinSelect.condKnown (joins.map (·.name)) q.cond then
      (untabledHaving q.having).bind fun h =>
        JoinSelect.compileSelect (JoinSelect.compileE py calls ⟨String.ofList q.table, joins.map (·.name), info, order, fuel⟩) { q with having := h }
    else none

end Verif.HavingTable
