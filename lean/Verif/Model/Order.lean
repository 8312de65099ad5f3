import Verif.Basic
/-!
Model of ORDER BY (compiler.py:1933-1976 `compile_order`), for a SELECT with named columns, and of running what it compiles.

The library is taken to sort stably: the load order (`orders`) on the rows read, the pipeline `@sort` on the result rows, each
by a list of keys with a direction.
-/
namespace Verif.Order

/-- Names. -/
abbrev Name := List Char

/-- What is known of the query: `schema` (the result columns), `columns` (the columns of the primary table that occur in the
select list), the primary table's name, whether it has an alias, and the aggregate and window columns. -/
structure Ctx where
  schema : List Name
  columns : List Name
  table : Name
  aliased : Bool
  aggregates : List Name

/-- An ORDER BY item: a column with its table, or an expression, with the result column that has the same text, or else the first
one made by the same expression (compiler.py:1938-1950). -/
inductive Item where
  | col (table : Option Name) (name : Name)
  | expr (column : Option Name)
  deriving DecidableEq, Repr

/-- A key: a column name and DESC. -/
abbrev Key := Name × Bool

/-- compiler.py:1951-1966: is the column sorted on when the rows are read? -/
def isPrimary (c : Ctx) (table : Option Name) (name : Name) : Bool :=
  match table with
  | some t => decide (t = c.table)
  | none =>
    if name ∈ c.aggregates then false
    else if c.aliased then decide (name ∈ c.columns) && decide (name ∉ c.schema)
    else decide (name ∈ c.columns) || decide (name ∉ c.schema)

/-- compiler.py:1935-1967, one item: the keys so far are (`primary_sort_keys`, `sort_keys`).  `none`: the exception. -/
def addItem (c : Ctx) (acc : List Key × List Key) (item : Item × Bool) : Option (List Key × List Key) :=
  match item.1 with
  | .expr (some a) => some (acc.1, acc.2 ++ [(a, item.2)])
  | .expr none => none
  | .col t n => some (if isPrimary c t n then acc.1 ++ [(n, item.2)] else acc.1, acc.2 ++ [(n, item.2)])

/-- All items, in order. -/
def addItems (c : Ctx) : List Key × List Key → List (Item × Bool) → Option (List Key × List Key)
  | acc, [] => some acc
  | acc, i :: is => do addItems c (← addItem c acc i) is

/-- compiler.py:1968-1976: the load order and the sort of the result. -/
def compile (c : Ctx) (items : List (Item × Bool)) : Option (List Key × Option (List Key)) := do
  let (p, s) ← addItems c ([], []) items
  if s ≠ [] ∧ p.length < s.length then
    if s.all fun k => decide (k.1 ∈ c.schema) then some (p, some s) else none
  else some (p, none)

/-! ## Running it -/

variable {α V : Type}

/-- Insertion into a sorted list, before the first element that is not smaller: with `isort` a stable sort. -/
def insertBy (le : α → α → Bool) (a : α) : List α → List α
  | [] => [a]
  | b :: l => if le a b then a :: b :: l else b :: insertBy le a l
/-- A stable sort, as `list.sort`. -/
def isort (le : α → α → Bool) : List α → List α
  | [] => []
  | a :: l => insertBy le a (isort le l)

/-- Comparison by a list of keys: `get` reads a key, `le` compares values. -/
def leBy (le : V → V → Bool) (get : Name → α → V) : List Key → α → α → Bool
  | [], _, _ => true
  | (n, desc) :: ks, a, b =>
    let x := get n a
    let y := get n b
    let lt := if desc then !le x y else !le y x
    let eq := le x y && le y x
    lt || (eq && leBy le get ks a b)

/-- A row read and the result row made of it. -/
def run (le : V → V → Bool) (raw : Name → α → V) (out : Name → α → V) (plan : List Key × Option (List Key)) (rows : List α) : List α :=
  let loaded := if plan.1 = [] then rows else isort (leBy le raw plan.1) rows
  match plan.2 with
  | some s => isort (leBy le out s) loaded
  | none => loaded

end Verif.Order
