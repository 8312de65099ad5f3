import Verif.Model.Column
/-!
Model of the key of a SELECT: the columns by which the rows that are written are matched with those that are there, when the way of
writing updates or replaces rows (compiler.py:387-388, 650-684 `compile_select_column`, 686-716 `compile_select_calculate_column`,
568-580 of `compile_select`, 2684-2688 of `parse_column`).

A column of the result has been given its name (`Model.SelectList`).  `SELECT *` has no columns here, or those it stands for.  `ident` is
`str.isidentifier`.
-/
namespace Verif.Keys
open Verif.Val Verif.Column

/-- compiler.py:2685-2686: the text between the first `a` and the last `b`; `none`: there is no such text (`ValueError`; a last `b` in
front of the first `a` gives the empty text). -/
def between (a b : Char) (s : Str) : Option Str :=
  if a ∈ s ∧ b ∈ s then
    some ((s.take (s.length - 1 - (s.reverse.takeWhile (· ≠ b)).length)).drop ((s.takeWhile (· ≠ a)).length + 1))
  else none

/-- compiler.py:2684-2688 `typing_options`. -/
def options (s : Str) : List Str :=
  match between '<' '>' s with
  | some t => pieces ',' t
  | none => []

/-- A column of a select list: a column (its text, its name in the result, whether it is one of the table of FROM), an expression (the
columns in it), or a constant, an aggregate or a window function. -/
inductive Item where
  | col (text result : Str) (own : Bool)
  | calc (result : Str) (fields : List (Str × Bool))
  | fixed (result : Str)

/-- The name in the result. -/
def Item.result : Item → Str
  | .col _ r _ | .calc r _ | .fixed r => r

/-- compiler.py:387-388: `seted_primary_keys`, `loader_primary_keys`, `outputer_primary_keys`. -/
structure Keys where
  marked : Bool := false
  loader : List Str := []
  out : List Str := []

variable (known : Str → Bool) (ident : Str → Bool)

/-- compiler.py:673-684, 708-716 (457-461, 466-470: constants; 1245-1246 and 1277: aggregates; windows alike). -/
def step (k : Keys) : Item → Keys
  | .col text result own =>
    let name := (parse known ⟨text, none⟩).name
    if !ident name || !ident result then k
    else if ['p', 'k'] ∈ options text then
      let k := if k.marked then k else { marked := true, loader := [], out := [] }
      { k with loader := k.loader ++ [name], out := k.out ++ [result] }
    else if !k.marked && k.loader.isEmpty then
      if own then { k with loader := [name], out := if k.out.isEmpty then [result] else k.out } else k
    else k
  | .calc result fields =>
    if !k.marked && k.out.isEmpty && ident result then
      let l := (fields.filter fun f => ident f.1 && f.2).map Prod.fst
      if l.isEmpty then { k with out := [result] } else { k with loader := l, out := [result] }
    else k
  | .fixed _ => k

/-- compiler.py:433-507, 568-573: all columns, and the rule for a SELECT without FROM (`hasFrom` is false). -/
def keys (hasFrom : Bool) (items : List Item) : Keys :=
  let k := items.foldl (step known ident) {}
  if !hasFrom && k.out.isEmpty then { k with out := ((items.map Item.result).find? ident).toList } else k

/-- compiler.py:574-578. -/
def keyText (l : List Str) : Str := if l.isEmpty then ['i', 'd'] else join '+' l

end Verif.Keys
