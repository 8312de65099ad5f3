import Verif.Model.SubArgs
/-!
The options the tasks of a statement are to run with.
-/
namespace Verif.SubArgsSpec
open Verif.Val (Str)
open Verif.SubArgs

/-- The options that have a meaning when a task runs. -/
def runKeys : List Str := constKeys ++ ["@loop".toList]

/-- The options of a task: those of the statement, but its own `@limit` if it has one, and one row at a time for the recursive part of a
WITH. -/
def own (o : Args) (e : End) (loop : Bool) (k : Str) : Option Arg :=
  if k ∉ runKeys then none
  else if k = "@limit".toList then
    match e with
    | .keep => o k
    | .limit n => some (.int n)
    | .all => some (.int 0)
  else if loop ∧ k = "@batch".toList then some (.int 1)
  else if k = "@loop".toList then (if loop then some (.bool true) else none)
  else o k

mutual
/-- All tasks of a query with their options; `o` are the statement's. -/
def expected (o : Args) (loop : Bool) : Query → List (Str × (Str → Option Arg))
  | .mk name _ subs loops stop => (name, own o stop loop) :: expectedOf o loops subs
/-- Those of its subqueries; `loops` are the names of those that read the table of the query around. -/
def expectedOf (o : Args) (loops : List Str) : List Query → List (Str × (Str → Option Arg))
  | [] => []
  | .mk name place subs ls stop :: qs => expected o (decide (name ∈ loops)) (.mk name place subs ls stop) ++ expectedOf o loops qs
end

/-- Neither name, with the separator, begins the other. -/
def Apart (a b : Str) : Prop := ¬ (a ++ ['@']) <+: (b ++ ['@']) ∧ ¬ (b ++ ['@']) <+: (a ++ ['@'])

mutual
/-- Names are not empty, do not begin with the separator, and those of the subqueries of one query are told apart; only members of WITH
have recursive parts, which are among their subqueries. -/
def Named : Query → Prop
  | .mk name place subs loops _ => name ≠ [] ∧ name.head? ≠ some '@' ∧ (place ≠ .member → loops = []) ∧ (∀ l ∈ loops, ∃ q ∈ subs, q.name = l) ∧ NamedAll subs
def NamedAll : List Query → Prop
  | [] => True
  | q :: qs => Named q ∧ (∀ r ∈ qs, Apart q.name r.name) ∧ NamedAll qs
end

/-- The options of a statement (executor.py:161-166): their names begin with `@`, rows are not read in the order of the key, no task
reads one row at a time. -/
structure Statement (o : Args) : Prop where
  names : ∀ k, o k ≠ none → k.head? = some '@'
  order : o "@primary_order".toList = some (.bool false)
  noLoop : o "@loop".toList = none

end Verif.SubArgsSpec
