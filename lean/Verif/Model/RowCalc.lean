/-!
Model of the functions that remember something from row to row: `syncanysql/calculaters/row_calculater.py` (the whole file).
Each use in a query is an instance of its own (row_calculater.py:9-11, 24-26 `instance`), called once for
each row.
-/
namespace Verif.RowCalc

variable {V : Type}

/-- The value of an argument list: row_calculater.py:34 `args[0] if len(args) == 1 else args`. -/
inductive Arg (V : Type) where
  | one (v : V)
  | many (l : List V)
  | none
deriving DecidableEq

/-- The argument of the calculater (row_calculater.py:13-44). -/
def argOf : List V → Arg V
  | [v] => .one v
  | l => .many l

/-- One use of a function. -/
inductive Use where
  | rowIndex
  | rowLast

/-- Its state: row_calculater.py:16 `row_index`, 31 `row_last`. -/
structure St (V : Type) where
  index : Nat := 0
  last : Arg V := .none

/-- The result of one call. -/
inductive Res (V : Type) where
  | index (n : Nat)
  | arg (a : Arg V)

/-- row_calculater.py:18-20, 33-35 `calculate`. -/
def step (u : Use) (s : St V) (args : List V) : Res V × St V :=
  match u with
  | .rowIndex => (.index (s.index + 1), { s with index := s.index + 1 })
  | .rowLast => (.arg s.last, { s with last := argOf args })

/-- The columns of one row: each use with its own state. -/
def rowStep : List Use → List (St V) → List (List V) → List (Res V) × List (St V)
  | u :: us, s :: ss, a :: as =>
    let r := step u s a
    let rest := rowStep us ss as
    (r.1 :: rest.1, r.2 :: rest.2)
  | _, _, _ => ([], [])

/-- All rows; a row is the arguments of each use. -/
def rows (us : List Use) : List (St V) → List (List (List V)) → List (List (Res V))
  | _, [] => []
  | ss, a :: as => (rowStep us ss a).1 :: rows us (rowStep us ss a).2 as

/-- A query. -/
def run (us : List Use) (as : List (List (List V))) : List (List (Res V)) := rows us (us.map fun _ => {}) as

end Verif.RowCalc
