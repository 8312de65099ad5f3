import Verif.Spec.Nest
import Verif.Model.Insert
/-! SQL's meaning of INSERT … SELECT: the i-th column of the result goes to the i-th column of the list. -/
namespace Verif.SqlInsert
open Verif.Val Verif.Select Verif.Nest

/-- The records to be stored; `none`: the number of columns differs, the statement is refused.  Without a list the names of the result
are taken. -/
def inserted (columns : Option (List Str)) (header : List Str) (rows : List Out) : Option (List Out) :=
  match columns with
  | none => some rows
  | some cs => if cs.length = header.length then some (rows.map fun o => List.zip cs (o.map (·.2))) else none

/-- The statement, apart from its WITH, is a UNION. -/
inductive IsUnion {S : Type} : Rel S → Prop where
  | here (l r : Rel S) : IsUnion (.union l r)
  | under (n : Str) (d b : Rel S) : IsUnion b → IsUnion (.withq n d b)

/-- The output text for writing to a table in a way. -/
def outputText (db name keys mode : Str) : Str := "&.".toList ++ db ++ ".".toList ++ name ++ "::".toList ++ keys ++ " use ".toList ++ mode

end Verif.SqlInsert
