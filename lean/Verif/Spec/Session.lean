import Verif.Model.Session
import Verif.Spec.Tree
import Verif.Spec.Literal
/-! SQL's meaning of a script on tables: the statements act one after the other.  Of the model only the syntax is used. -/
namespace Verif.SqlSession
open Verif.Val Verif.Expr Verif.Sql Verif.Select Verif.Session Verif.SqlTree
open Verif.SqlNest (rowOfRecord)

/-- Variables, tables, and the results shown. -/
structure State where
  env : Str → Option Val
  tables : Str → List Out
  shown : List (List Out)

variable {S : Type} (text : Str → Bool) (cmp : Cmp → Val → Val → Val) (calls : Str → List Val → Val) (le : Val → Val → Bool)
  (o : Join.Ops Val) (minus : Val → Val)

/-- The condition of a DELETE is true of the row. -/
def Selected (cond : Option E) (r : Row) : Prop := ∀ e ∈ cond, tv text (sem text cmp calls r e) = some true

/-- One statement. -/
inductive Step : State → Stmt S → State → Prop where
  /-- its result is shown, nothing changes -/
  | query (s : State) (e : Tree.Rel S) (out : List Out) : Means text cmp calls le o s.tables e out →
      Step s (.query e) { s with shown := s.shown ++ [out] }
  /-- its rows are appended to the table -/
  | insert (s : State) (t : Str) (e : Tree.Rel S) (out : List Out) : Means text cmp calls le o s.tables e out →
      Step s (.insert t e) { s with tables := fun n => if n = t then s.tables n ++ out else s.tables n }
  | values (s : State) (t : Str) (cols : List (Str × Option Literal.Ty)) (rows : List (List Literal.CE)) :
      Step s (.values t cols rows) { s with
       tables := fun n =>
        if n = t then s.tables n ++ SqlLiteral.records (cols.map Prod.fst) (rows.map fun r => r.map (SqlLiteral.value s.env minus))
        else s.tables n }
  /-- the rows that are kept are those the condition is not true of, in their order -/
  | delete (s : State) (t : Str) (cond : Option E) (keep : Out → Bool) :
      (∀ r ∈ s.tables t, keep r = true ↔ ¬ Selected text cmp calls cond (rowOfRecord r)) →
      Step s (.delete t cond) { s with tables := fun n => if n = t then (s.tables n).filter keep else s.tables n }
  | set (s : State) (n : Str) (v : Val) : Step s (.set n v) { s with env := fun m => if m = n then some v else s.env m }

/-- All statements in order. -/
inductive Steps : State → List (Stmt S) → State → Prop where
  | nil (s : State) : Steps s [] s
  | cons (s s' s'' : State) (x : Stmt S) (xs : List (Stmt S)) : Step text cmp calls le o minus s x s' → Steps s' xs s'' →
      Steps s (x :: xs) s''

/-- The names a statement gives to named queries. -/
def binds : Stmt S → List Str
  | .query e | .insert _ e => bound e
  | _ => []

/-- The tables a statement reads or writes. -/
def uses : Stmt S → List Str
  | .query e => free e
  | .insert t e => t :: free e
  | .values t _ _ | .delete t _ => [t]
  | .set _ _ => []

end Verif.SqlSession
