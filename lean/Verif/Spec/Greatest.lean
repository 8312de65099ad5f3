import Verif.Model.Scalar
/-! The greatest and the least of some values. -/
namespace Verif.Spec.Greatest
open Verif.Val

/-- All are numbers (booleans count as 0 and 1), or all are texts. -/
def AllNumbers (l : List Val) : Prop := ∀ v ∈ l, numeric v ≠ none
def AllTexts (l : List Val) : Prop := ∀ v ∈ l, ∃ s, v = .str s

/-- `m` is one of the values and none of them is greater (`o` is `gt`) or less (`o` is `lt`) than it. -/
def IsExtreme (o : Ordering) (l : List Val) (m : Val) : Prop := m ∈ l ∧ ∀ v ∈ l, pyCmp v m ≠ some o ∧ pyCmp v m ≠ none

end Verif.Spec.Greatest
