import Verif.Model.Value
/-! Specification of the SQL aggregates: what they say about the list of a group's values. -/
namespace Verif.AggSpec
open Verif.Val

/-- The non-NULL values of a group. -/
def nonNull (l : List Val) : List Val := l.filter (· ≠ .null)

/-- A value as a number (booleans are 0 and 1); texts and NULL are not numbers. -/
def num? : Val → Option Rat
  | .bool b => some (if b then 1 else 0)
  | .int i => some i
  | .flt q => some q
  | _ => none

/-- Number or NULL. -/
def NumOrNull (v : Val) : Prop := v = .null ∨ (num? v).isSome

/-- The numbers in a group. -/
def numbers (l : List Val) : List Rat := l.filterMap num?

/-- Sum of numbers. -/
def total : List Rat → Rat
  | [] => 0
  | q :: l => q + total l

/-- Two values SQL regards as the same: equal texts or equal numbers. -/
def same (a b : Val) : Prop :=
  match num? a, num? b with
  | some x, some y => x = y
  | none, none => a = b
  | _, _ => False

end Verif.AggSpec
