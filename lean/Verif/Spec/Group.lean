/-! Specification of GROUP BY: the groups of a list of keyed rows. -/
namespace Verif.GroupSpec

variable {κ α : Type} [DecidableEq κ]

/-- The distinct keys, in order of first appearance. -/
def firsts : List κ → List κ
  | [] => []
  | k :: l => k :: (firsts l).filter (· ≠ k)

/-- The values of one group, in row order. -/
def group (k : κ) (rows : List (κ × α)) : List α := (rows.filter (·.1 = k)).map (·.2)

/-- All groups: each key once, in order of first appearance, with its values. -/
def groupBy (rows : List (κ × α)) : List (κ × List α) :=
  (firsts (rows.map (·.1))).map fun k => (k, group k rows)

end Verif.GroupSpec
