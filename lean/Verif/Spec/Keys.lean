import Verif.Model.Value
/-! Which columns of a SELECT are the key of the rows it writes. -/
namespace Verif.KeySpec
open Verif.Val

/-- A column of a select list: a column with its name, the types in brackets and the options (`<pk>`, `<pk,x>`) if they are written, its
name in the result and whether it belongs to the table of FROM; an expression, with the columns in it and whether they belong to the
table of FROM; or a constant, an aggregate or a window function. -/
inductive Item where
  | column (name : Str) (types : Option Str) (opts : List Str) (result : Str) (own : Bool)
  | expr (result : Str) (fields : List (Str × Bool))
  | fixed (result : Str)

/-- The mark. -/
def pk : Str := ['p', 'k']

/-- How a column is written: `name`, `name[types]`, `name<pk>`, `name[types]<pk>`, `name[types]<x,pk>`. -/
def text (name : Str) (types : Option Str) (opts : List Str) : Str :=
  name ++ (match types with | some t => '[' :: (t ++ [']']) | none => []) ++
    (match opts with | [] => [] | o :: os => '<' :: (o ++ (os.flatMap fun o => ',' :: o) ++ ['>']))

/-- Its name in the result. -/
def Item.result : Item → Str
  | .column _ _ _ r _ | .expr r _ | .fixed r => r

/-- The columns marked `<pk>`: their names and their names in the result, which are words. -/
def marks (word : Str → Bool) (items : List Item) : List (Str × Str) :=
  items.filterMap fun | .column n _ os r _ => if pk ∈ os ∧ word r then some (n, r) else none | _ => none

/-- Without marks: a column of the table of FROM, or an expression: its name in the result. -/
def candidate (word : Str → Bool) : Item → Option Str
  | .column _ _ _ r true => if word r then some r else none
  | .expr r _ => if word r then some r else none
  | _ => none

/-- The key: the marked columns, all of them and in their order; otherwise the first column that is a column of the table of FROM or an
expression; if there is no FROM, otherwise the first column; else none (`id` is used). -/
def key (word : Str → Bool) (hasFrom : Bool) (items : List Item) : List Str :=
  if marks word items ≠ [] then (marks word items).map Prod.snd
  else match items.findSome? (candidate word) with
    | some r => [r]
    | none => if hasFrom then [] else ((items.map Item.result).find? word).toList

/-- The columns of the table of FROM behind a candidate. -/
def sources (word : Str → Bool) : Item → List Str
  | .column n _ _ r true => if word r then [n] else []
  | .expr r fields => if word r then (fields.filter fun f => word f.1 && f.2).map Prod.fst else []
  | _ => []

/-- Is it a column of the table of FROM? -/
def own (word : Str → Bool) (i : Item) : Bool := match i with | .column _ _ _ r true => word r | _ => false

/-- Without marks: the columns the first candidate is computed from; if it is an expression without columns of the table, the first
column of the table in the list. -/
def readByFirst (word : Str → Bool) (items : List Item) : List Str :=
  match items.find? (fun i => (candidate word i).isSome) with
  | none => []
  | some i => if sources word i ≠ [] then sources word i else ((items.find? (own word)).map (sources word)).getD []

/-- The columns by which the table of FROM is read: the marked ones, or `readByFirst`. -/
def readBy (word : Str → Bool) (items : List Item) : List Str :=
  if marks word items ≠ [] then (marks word items).map Prod.fst else readByFirst word items

end Verif.KeySpec
