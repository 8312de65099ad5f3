import Verif.Spec.Aggregate
/-! What COUNT means in SQL. -/
namespace Verif.AggCallSpec
open Verif.Val Verif.AggSpec

/-- Two rows of values are the same combination: value by value. -/
def sameRow : List Val → List Val → Prop
  | [], [] => True
  | a :: l, b :: m => same a b ∧ sameRow l m
  | _, _ => False

/-- The combinations COUNT(DISTINCT a, b, …) looks at: those without NULL. -/
def full (l : List (List Val)) : List (List Val) := l.filter fun r => r.all (· ≠ .null)

/-- `L` lists the different combinations among `l`, each once. -/
def Combinations (l L : List (List Val)) : Prop :=
  (∀ w ∈ L, w ∈ l) ∧ L.Pairwise (fun a b => ¬ sameRow a b) ∧ ∀ v ∈ l, ∃ w ∈ L, sameRow v w

end Verif.AggCallSpec
