import Verif.Model.Value
/-!
What type annotations mean: `a[t1;…;tn]` is the value of `a`, converted to `t1`, then to `t2`, … .
-/
namespace Verif.SqlColumn
open Verif.Val

/-- The names of the types; the conversion behind each. -/
def synonyms : List (String × List String) :=
  [("int", ["int", "bigint", "mediumint", "smallint", "tinyint"]), ("float", ["float", "double"]), ("decimal", ["decimal"]),
   ("str", ["str", "string", "char", "varchar", "nchar", "text", "mediumtext", "tinytext"]),
   ("bytes", ["bytes", "binary", "varbinary", "blob"]), ("bool", ["bool", "boolean"]), ("array", ["array"]), ("set", ["set"]),
   ("map", ["map"]), ("objectid", ["objectid"]), ("uuid", ["uuid"]), ("datetime", ["datetime", "timestamp"]), ("date", ["date"]),
   ("time", ["time"])]

/-- `text` (a type in any case, with its arguments after a blank) stands for the conversion `filter`: one of the table above, or one
the library knows itself (`known`). -/
def Names (known : Str → Bool) (text filter : Str) : Prop :=
  ∃ word args, text = word ++ args ∧ ' ' ∉ word ∧ (args = [] ∨ ∃ r, args = ' ' :: r) ∧
    ((∃ base names, (base, names) ∈ synonyms ∧ String.ofList (word.map Char.toLower) ∈ names ∧ filter = base.toList ++ args) ∨
     ((∀ s ∈ synonyms, String.ofList (word.map Char.toLower) ∉ s.2) ∧ known (word.map Char.toLower) = true ∧
       filter = word.map Char.toLower ++ args))

/-- `name[t1;…;tn]`. -/
def written (name : Str) : List Str → Str
  | [] => name
  | t :: ts => name ++ '[' :: (t ++ (ts.flatMap fun t => ';' :: t)) ++ [']']

/-- The conversions one after the other. -/
def convertAll {V : Type} (conv : Str → V → V) (filters : List Str) (x : V) : V := filters.foldl (fun x f => conv f x) x

/-- A name or type without the characters of the notation. -/
def Plain (s : Str) : Prop := '[' ∉ s ∧ ']' ∉ s ∧ ';' ∉ s

end Verif.SqlColumn
