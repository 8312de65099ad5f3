import Verif.Model.Tasks
/-! Vocabulary for the properties of a query and its subqueries: who is whose subquery, what the events say, what a program
is allowed to touch. -/
namespace Verif.Tasks

variable {ν R : Type} [DecidableEq ν]

mutual
/-- A query and all the queries inside it. -/
def subtasks : Task ν R → List (Task ν R)
  | .mk c f ds => .mk c f ds :: subtasksL ds
/-- … for a list of queries. -/
def subtasksL : List (Task ν R) → List (Task ν R)
  | [] => []
  | d :: ds => subtasks d ++ subtasksL ds
end

/-- The tasks of a query itself: the main one, and the final reduce. -/
def Task.own (t : Task ν R) : List (Core ν R) := t.core :: t.final.toList

/-- All tasks of a query and of the queries inside it. -/
def cores (t : Task ν R) : List (Core ν R) := (subtasks t).flatMap Task.own

/-- Their numbers. -/
def tids (t : Task ν R) : List Nat := (cores t).map Core.tid

/-- Who did it. -/
def Ev.tid : Ev ν R → Nat
  | .read t _ _ | .write t _ _ | .delete t _ | .stop t | .raise t => t

/-- A failure. -/
def Ev.isRaise : Ev ν R → Bool
  | .raise _ => true
  | _ => false

/-- The contents of the collections after some events, from the events alone. -/
def replay (store : ν → List R) : List (Ev ν R) → ν → List R
  | [] => store
  | .write _ n rows :: es => replay (fun m => if m = n then store n ++ rows else store m) es
  | .delete _ n :: es => replay (fun m => if m = n then [] else store m) es
  | .read _ _ _ :: es => replay store es
  | .stop _ :: es => replay store es
  | .raise _ :: es => replay store es

/-- The program reads only from `rd` and writes only to `wr`. -/
inductive Touches (rd wr : List ν) : Prog ν R → Prop where
  | done : Touches rd wr .done
  | raise : Touches rd wr .raise
  | pause {k} : Touches rd wr k → Touches rd wr (.pause k)
  | read {n k} : n ∈ rd → (∀ rows, Touches rd wr (k rows)) → Touches rd wr (.read n k)
  | write {n rows k} : n ∈ wr → Touches rd wr k → Touches rd wr (.write n rows k)
  | delete {n k} : n ∈ wr → Touches rd wr k → Touches rd wr (.delete n k)
  | reduce {n k} : n ∈ wr → Touches rd wr k → Touches rd wr (.reduce n k)

/-- A task reads what its loader, its join loaders and (to reduce) its outputer name, and writes where its outputer says. -/
def Core.Honest (c : Core ν R) : Prop :=
  Touches (c.loader.toList ++ c.joins ++ c.outputer.toList) c.outputer.toList c.prog

end Verif.Tasks
