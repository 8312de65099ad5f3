import Verif.Model.Cte
/-! SQL's meaning of WITH and WITH RECURSIVE. -/
namespace Verif.SqlCte
open Verif.Cte

variable {V : Type}

/-- The tables visible to a query: `n` now stands for these rows. -/
def bind (env : Store V) (n : Name) (rows : List (Row V)) : Store V := fun m => if m = n then rows else env m

/-- The n-th round of a recursion: the rows made from the rows of the round before. -/
def level (step : Row V → List (Row V)) (start : List (Row V)) : Nat → List (Row V)
  | 0 => start
  | n + 1 => (level step start n).flatMap step

/-- The recursion stops after a round without rows; its result is the rows of all rounds. -/
def Recursion (step : Row V → List (Row V)) (start out : List (Row V)) : Prop :=
  ∃ n, level step start n = [] ∧ out = (List.range n).flatMap (level step start)

/-- A SELECT reads the named query itself. -/
def ReadsSelf (c : Name) (b : Branch V) : Prop := b.src = .memory c

/-- The positional names of a column list. -/
def rename (cols : Option (List Name)) (r : Row V) : Row V :=
  match cols with
  | none => r
  | some ns => ns.zip (r.map Prod.snd)

/-- The rows of the SELECTs that do not read the named query. -/
def plainRows (env : Store V) (cols : Option (List Name)) (bs : List (Branch V)) : List (Row V) :=
  bs.flatMap fun b => ((readSource env b.src).flatMap (b.step env)).map (rename cols)

/-- The rows of a named query: the SELECTs in `anchors` do not read it, those in `recs` do; a row of a round is made by any of the
SELECTs in `recs` from a row of the round before.  (UNION ALL.) -/
def Rows (env : Store V) (cols : Option (List Name)) (anchors recs : List (Branch V)) (out : List (Row V)) : Prop :=
  Recursion (fun r => recs.flatMap fun b => (b.step env r).map (rename cols)) (plainRows env cols anchors) out

/-- A named query is `anchors` followed by `recs`. -/
structure Splits (c : Cte V) (anchors recs : List (Branch V)) : Prop where
  eq : c.branches = anchors ++ recs
  anchors_not : ∀ b ∈ anchors, ¬ ReadsSelf c.name b
  recs_read : ∀ b ∈ recs, ReadsSelf c.name b

/-- The meaning of a list of named queries: each sees those before it. -/
inductive With : Store V → List (Cte V) → Store V → Prop where
  | nil {env} : With env [] env
  | cons {env env' c cs anchors recs out} : Splits c anchors recs → Rows env c.columns anchors recs out →
      With (bind env c.name out) cs env' → With env (c :: cs) env'

/-- The rows of the next round that were not there before, one of each. -/
def newRows [DecidableEq V] (step : Row V → List (Row V)) (seen todo : List (Row V)) : List (Row V) :=
  (todo.flatMap step).eraseDups.filter fun r => r ∉ seen

/-- UNION instead of UNION ALL: a row that was there before is not taken again. (`todo`: rows of the last round.) -/
inductive DistinctRecursion [DecidableEq V] (step : Row V → List (Row V)) : List (Row V) → List (Row V) → List (Row V) → Prop where
  | done {seen} : DistinctRecursion step seen [] seen
  | round {seen todo out} : todo ≠ [] → DistinctRecursion step (seen ++ newRows step seen todo) (newRows step seen todo) out →
      DistinctRecursion step seen todo out

end Verif.SqlCte
