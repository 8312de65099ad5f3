import Verif.Model.Table
import Verif.Model.Insert
/-!
Model of the hint `@use_output_type` (compiler.py:2557-2564, in `parse_table`; executor.py:166, taskers/execute.py:47: the statement
option of that name).
-/
namespace Verif.Hint
open Verif.Val (Str)
open Verif.Table

/-- compiler.py:2560. -/
def names : List (Str × Str) :=
  [("INSERT".toList, "I".toList), ("UPDATE".toList, "U".toList), ("UPDATE_INSERT".toList, "UI".toList),
   ("UPDATE_DELETE_INSERT".toList, "UDI".toList), ("DELETE_INSERT".toList, "DI".toList)]

/-- compiler.py:2557-2564: `typing_options` with the hint. `none`: the option is not set, or its value is no text. -/
def withHint (upper : Str → Str) (hint : Option Str) (opts : List Str) : List Str :=
  match hint with
  | none => opts
  | some h =>
    if h = [] then opts
    else
      let u := upper h
      let t := ((names.find? fun n => n.1 = u).map (·.2)).getD u
      if t ∈ opts then opts else opts ++ [t]

/-- compiler.py:2526-2635 `parse_table` under the hint. -/
def parseTable (os : Os) (upper : Str → Str) (hint : Option Str) (dbs : List Db) (r : Ref) : Info × List Db :=
  let o := options r.name
  let opts := withHint upper hint o.2
  let c := withCatalog r o.1
  let l := locate os dbs c.1 c.2 opts
  (⟨l.1, l.2.1, r.alias.getD (l.1 ++ '.' :: l.2.1), opts⟩, l.2.2)

/-- compiler.py:271-309: the output of INSERT INTO a table. -/
def insertInto (os : Os) (upper : Str → Str) (hint : Option Str) (dbs : List Db) (r : Ref) : Str :=
  let i := (parseTable os upper hint dbs r).1
  Insert.insertOutput upper i.db i.name i.typingOptions

end Verif.Hint
