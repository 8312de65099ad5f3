import Verif.Model.SelectList
/-! The columns of a SELECT in SQL. -/
namespace Verif.SqlSelectList
open Verif.SelectList

/-- The tables in scope, in order, by the name they are referred to with, with their columns. -/
abbrev Scope := List (Name × List Name)

/-- All columns of the scope, table by table. -/
def allColumns (sc : Scope) : List (Name × Cell) := sc.flatMap fun t => t.2.map fun c => (c, .col t.1 c)

/-- The columns an item stands for: their names and where they come from.  A column without table is that of the table in scope that
has it. -/
def columns (sc : Scope) : Item → List (Name × Cell)
  | .star => allColumns sc
  | .tableStar t => allColumns (sc.filter fun x => x.1 = t)
  | .col r a => match r.key with
    | some t => [(a.getD r.col, .col t r.col)]
    | none => (sc.filter fun x => x.2.contains r.col).map fun x => (a.getD r.col, .col x.1 r.col)
  | .other id text a => [(a.getD text, .other id)]

/-- A row of the result: one value for each column, in order. -/
def row {V : Type} (env : Name → Name → V) (comp : Nat → V) (sc : Scope) (is : List Item) : List (Name × V) :=
  (is.flatMap (columns sc)).map fun p => (p.1, match p.2 with
    | .col t c => env t c
    | .other id => comp id)

end Verif.SqlSelectList
