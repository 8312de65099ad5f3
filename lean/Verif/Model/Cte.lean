import Verif.Basic
/-!
Model of WITH clauses: compiler.py:237-251 `compile_with` over 339-383 `compile_union`, and the way the tasks made from them read
the memory database (taskers/query.py:112-121, 373-382).

Rows are dictionaries.  Each SELECT of a named query is taken by its effect on one row of its FROM table (columns, WHERE, joins);
GROUP BY, LIMIT and subqueries inside the SELECTs of a recursive query are not modelled.  Names are assumed free of the characters
compiler.py:113-117 replaces.
-/
namespace Verif.Cte

/-- Names. -/
abbrev Name := List Char

/-- A row: column names with values, in order. -/
abbrev Row (V : Type) := List (Name × V)

/-- The memory database `--`: the rows of each collection (a collection without entry is empty). -/
abbrev Store (V : Type) := Name → List (Row V)

/-- compiler.py:388-412: where a SELECT reads from: a table of the memory database, or rows that do not depend on it (another
database, or no FROM: one row without columns). -/
inductive Source (V : Type) where
  | memory (n : Name)
  | fixed (rows : List (Row V))

/-- One SELECT of a named query: its source, and the rows it makes of each row of the source; the joined tables are looked up in
the memory database. -/
structure Branch (V : Type) where
  src : Source V
  step : Store V → Row V → List (Row V)

/-- One named query: `name [(columns)] AS (branch UNION ALL … )`; `distinct`: written UNION. -/
structure Cte (V : Type) where
  name : Name
  columns : Option (List Name)
  distinct : Bool
  branches : List (Branch V)

variable {V : Type}

/-- compiler.py:247: `dependency_config["input"].startswith(output_db_table_name)`; both begin with `&.--.`, and the name in the
input is followed by `::` and a key, never part of a name. -/
def isLoop (cte : Name) (b : Branch V) : Bool :=
  match b.src with
  | .memory n => cte.isPrefixOf n
  | .fixed _ => false

/-- The rows a SELECT that does not loop reads. -/
def readSource (s : Store V) : Source V → List (Row V)
  | .memory n => s n
  | .fixed rows => rows

/-- compiler.py:248-250 and query.py:379-380: input and output are the same collection, one row is read at a time (`@batch` 1,
`@loop`), until all have been read.  First argument: the rows not read yet; second: the rows read from then on.  That the library
hands out the rows in the order they were written, each once, is assumed. -/
inductive Loop (step : Row V → List (Row V)) : List (Row V) → List (Row V) → Prop where
  | done : Loop step [] []
  | next {r rest out} : Loop step (rest ++ step r) out → Loop step (r :: rest) (r :: out)

/-- compiler.py:354-380 and query.py:195-202: the SELECTs of a named query run in order, all writing to one collection; the last
argument is its content at the end. -/
inductive RunBranches (cte : Name) (s : Store V) : List (Branch V) → List (Row V) → List (Row V) → Prop where
  | nil {coll} : RunBranches cte s [] coll coll
  | plain {b bs coll out} : isLoop cte b = false → RunBranches cte s bs (coll ++ (readSource s b.src).flatMap (b.step s)) out →
      RunBranches cte s (b :: bs) coll out
  | loop {b bs coll coll' out} : isLoop cte b = true → Loop (b.step s) coll coll' → RunBranches cte s bs coll' out →
      RunBranches cte s (b :: bs) coll out

/-- The memory database with rows appended to a collection (` use I`: inserted). -/
def append (s : Store V) (n : Name) (rows : List (Row V)) : Store V := fun m => if m = n then s n ++ rows else s m

/-- compiler.py:237-251: one named query; its rows are inserted into the collection of its name (242), which is not one of the
temporary ones (query.py:389, 393) and so is kept.  Neither the column list (`alias.columns`) nor `distinct` is looked at. -/
def RunCte (s : Store V) (c : Cte V) (s' : Store V) : Prop :=
  ∃ out, RunBranches c.name s c.branches [] out ∧ s' = append s c.name out

/-- compiler.py:226-227, 251: the named queries in order. -/
inductive RunCtes : Store V → List (Cte V) → Store V → Prop where
  | nil {s} : RunCtes s [] s
  | cons {s s' s'' c cs} : RunCte s c s' → RunCtes s' cs s'' → RunCtes s (c :: cs) s''

/-- A whole statement `WITH cs body`: the rows of the body, read from the memory database as the named queries left it, and that
database. -/
def RunWith (s : Store V) (cs : List (Cte V)) (body : Store V → List (Row V)) (out : List (Row V)) (s' : Store V) : Prop :=
  RunCtes s cs s' ∧ out = body s'

end Verif.Cte
