import Verif.Basic
/-!
Model of LIMIT / OFFSET (compiler.py, `compile_select`) and of UNION (`compile_union`).

The engine (the syncany library) is taken to read at most `@limit` rows from the input (0: all), to turn the rows read into result
rows (filters, grouping, sorting pipelines: a function that is a parameter), and then to apply the slice pipeline
`@array::slice`, Python's `rows[start:end]`.
-/
namespace Verif.Limit

/-- What `compile_select` knows about the query when it comes to LIMIT (compiler.py:536-542): a residual WHERE predicate, a
HAVING, an aggregate or window column, or a pipeline (sorting). -/
structure Shape where
  predicate : Bool
  intercept : Bool
  aggregate : Bool
  pipelines : Bool

/-- What is compiled: the input limit (`@limit`) and the slice. -/
structure Plan where
  load : Nat
  slice : Option (Nat × Option Nat)
  deriving DecidableEq, Repr

/-- compiler.py:536-550.  `limit = 0` stands for an absent LIMIT too; negative numbers do not compile (`int()` of an
expression). -/
def compile (q : Shape) (limit offset : Nat) : Plan :=
  if limit ≠ 0 ∨ 0 < offset then
    if q.predicate || q.intercept || q.aggregate || q.pipelines || decide (limit ≤ 0) then
      ⟨0, some (offset, if limit ≠ 0 then some (offset + limit) else none)⟩
    else ⟨offset + limit, if 0 < offset then some (offset, none) else none⟩
  else ⟨0, none⟩

variable {α β : Type}

/-- Python `l[start:end]` for `0 ≤ start`, `0 ≤ end`. -/
def pySlice (start : Nat) (stop : Option Nat) (l : List β) : List β :=
  match stop with
  | some e => (l.take e).drop start
  | none => l.drop start

/-- Running the compiled query: `proc` makes the result rows of the rows read. -/
def run (p : Plan) (proc : List α → List β) (rows : List α) : List β :=
  let out := proc (if p.load = 0 then rows else rows.take p.load)
  match p.slice with
  | some (s, e) => pySlice s e out
  | none => out

end Verif.Limit

namespace Verif.Union

variable {ρ V : Type}

/-- A name of a column. -/
abbrev Name := List Char

/-- The lexicographic order of Python texts (by code point). -/
def nameLe : Name → Name → Bool
  | [], _ => true
  | _ :: _, [] => false
  | a :: s, b :: t => if a.toNat < b.toNat then true else if b.toNat < a.toNat then false else nameLe s t

/-- `sorted(names)`: insertion sort (the result of a stable sort on distinct names does not depend on the method). -/
def insertName (n : Name) : List Name → List Name
  | [] => [n]
  | m :: l => if nameLe n m then n :: m :: l else m :: insertName n l
/-- `sorted` (compiler.py:339-384). -/
def sortNames : List Name → List Name
  | [] => []
  | n :: l => insertName n (sortNames l)

/-- A branch: its schema, a dictionary from column names to what they compute from an input row, and its rows. -/
structure Branch (ρ V : Type) where
  schema : List (Name × (ρ → V))
  rows : List ρ

/-- `d.get(k)`. -/
def find {α : Type} (k : Name) : List (Name × α) → Option α
  | [] => none
  | (k', v) :: d => if k' = k then some v else find k d

/-- `d[k] = v`. -/
def store {α : Type} (k : Name) (v : α) : List (Name × α) → List (Name × α)
  | [] => [(k, v)]
  | (k', v') :: d => if k' = k then (k', v) :: d else (k', v') :: store k v d

/-- The columns of a part of UNION. -/
def names (b : Branch ρ V) : List Name := b.schema.map (·.1)

/-- compiler.py:371-375: the column names of the first branch, sorted, are given to the columns of this one, sorted, one after
the other in the same dictionary. -/
def align : List Name → List Name → List (Name × (ρ → V)) → List (Name × (ρ → V))
  | u :: us, s :: ss, d =>
    if u = s then align us ss d
    else match find s d with
      | some f => align us ss (store u f d)
      | none => align us ss d
  | _, _, d => d

/-- compiler.py:360-364: the columns of the result: every column name of every branch. -/
def outNames (bs : List (Branch ρ V)) : List Name :=
  bs.foldl (fun acc b => (names b).foldl (fun acc n => if n ∈ acc then acc else acc ++ [n]) acc) []

/-- compiler.py:366-375: the first branch is left as it is, the others are aligned with it. -/
def alignAll : List (Branch ρ V) → List (Branch ρ V)
  | [] => []
  | b :: bs => b :: bs.map fun b' => { b' with schema := align (sortNames (names b)) (sortNames (names b')) b'.schema }

/-- A record of the temporary collection. -/
def record (d : List (Name × (ρ → V))) (r : ρ) : List (Name × V) := d.map fun nf => (nf.1, nf.2 r)

/-- compiler.py:339-384 `compile_union`, and running it: the branches insert their records into one collection, in order
("use I"), from which the result columns are read (`null` for a member that is missing). -/
def union (null : V) (bs : List (Branch ρ V)) : List Name × List (List V) :=
  let cols := outNames bs
  let recs := (alignAll bs).flatMap fun b => b.rows.map (record b.schema)
  (cols, recs.map fun rec => cols.map fun n => (find n rec).getD null)

end Verif.Union
