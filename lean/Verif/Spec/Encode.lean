import Verif.Model.Value
/-! Number texts read in a base. -/
namespace Verif.Spec.Encode
open Verif.Val

/-- The value of a digit of either case, in any base up to 36. -/
def digitValue (c : Char) : Option Nat :=
  if '0' ≤ c ∧ c ≤ '9' then some (c.toNat - '0'.toNat)
  else if 'a' ≤ c ∧ c ≤ 'z' then some (c.toNat - 'a'.toNat + 10)
  else if 'A' ≤ c ∧ c ≤ 'Z' then some (c.toNat - 'A'.toNat + 10)
  else none

/-- The number a text of digits denotes in base `b`; `none`: it has no digits, or others. -/
def readNat (b : Nat) (s : Str) : Option Nat :=
  if s = [] then none
  else s.foldl (fun r c => match r, digitValue c with
    | some n, some d => if d < b then some (b * n + d) else none
    | _, _ => none) (some 0)

/-- What SQL's BIN, OCT and HEX of a natural number are: digits only. -/
def DigitsOnly (b : Nat) (n : Nat) (s : Str) : Prop := readNat b s = some n

end Verif.Spec.Encode
