import Verif.Model.Value
/-!
Model of syncanysql/calculaters/window_calculater.py.

`datas` holds, for each row of the partition in the window's order, the value of the window function's argument in that
row (`context.datas[i][2]`, the entry with the caller's `valuer_id`); `idx` is `context.current_index`.
Assumed of the syncany library: rows are given in order, `current_index` counts from 0, and the final step of the
ranking functions is applied to a row's state before the next row is processed.
Simplification: Python floats are exact rationals.
-/
namespace Verif.Window
open Verif.Val

/-- The argument of a window function: a single value, or a list when it was written with several arguments
(compiler.py:1416). -/
inductive Arg where
  | one (v : Val)
  | many (l : List Val)
  deriving DecidableEq

/-- Python `int(x)`; `none`: it raises. -/
def pyInt (py : Py) : Val → Option Int
  | .null => none
  | .bool b => some (if b then 1 else 0)
  | .int i => some i
  | .flt q => some (trunc q)
  | .str s => py.int s

/-- `partition_calculater.value[0]`. -/
def Arg.first : Arg → Option Val
  | .one _ => none
  | .many l => l.head?

/-- `data_value[2] if len(data_value) >= 3 else None`. -/
def dflt (l : List Val) : Val := (l[2]?).getD .null

/-- `int(data_value[1]) if len(data_value) >= 2 else 1`. -/
def offsetOf (py : Py) (l : List Val) : Option Int :=
  match l[1]? with
  | some v => pyInt py v
  | none => some 1

/-- window_calculater.py:49-51. -/
def rowNumber (idx : Nat) : Nat := idx + 1

/-- window_calculater.py:115-121; `none` is impossible as the partition holds the current row. -/
def firstValue (datas : List Arg) : Option Arg := datas.head?

/-- window_calculater.py:124-130. -/
def lastValue (datas : List Arg) : Option Arg := datas.getLast?

/-- Lines 136-151, list argument; `none`: raises. -/
def nthMany (py : Py) (datas : List Arg) (d : List Val) : Option Val :=
  (offsetOf py d).bind fun off =>
    let o := if off > 0 then off - 1 else off
    if (o < 0 ∧ -o > datas.length) ∨ o ≥ datas.length then some (dflt d)
    else
      -- Python indexing: negative positions count from the end
      ((datas[(if o < 0 then o + datas.length else o).toNat]?).bind Arg.first)

/-- window_calculater.py:133-151. -/
def nthValue (py : Py) (datas : List Arg) : Arg → Option Arg
  | .many d => (nthMany py datas d).map .one
  | .one _ => datas.head?

/-- Lines 169-176 and 192-199 with `o` the computed `offset_index`. -/
def pick (datas : List Arg) (d : List Val) (o : Int) : Option Val :=
  if o < 0 ∨ o ≥ datas.length then some (dflt d) else (datas[o.toNat]?).bind Arg.first

/-- Lines 178-185 and 201-208. -/
def pickOne (datas : List Arg) (o : Int) : Option Arg :=
  if o < 0 ∨ o ≥ datas.length then some (.one .null) else datas[o.toNat]?

/-- window_calculater.py:165-185. -/
def lag (py : Py) (datas : List Arg) (idx : Nat) : Arg → Option Arg
  | .many d => (offsetOf py d).bind fun off => (pick datas d (idx - off)).map .one
  | .one _ => pickOne datas ((idx : Int) - 1)

/-- window_calculater.py:188-208. -/
def lead (py : Py) (datas : List Arg) (idx : Nat) : Arg → Option Arg
  | .many d => (offsetOf py d).bind fun off => (pick datas d (idx + off)).map .one
  | .one _ => pickOne datas ((idx : Int) + 1)

/-- window_calculater.py:154-162 for `n` already converted by `int()` and a partition of `len` rows. -/
def ntile (len : Nat) (idx : Nat) (n : Int) : Option Int :=
  if n ≤ 0 then none else some (trunc ((idx : Rat) / ((len : Rat) / (n : Rat))) + 1)

/-- State of the ranking functions: `order_value`, `rank`, `row_number`. -/
structure RankState (κ : Type) where
  order : κ
  rank : Nat
  row : Nat

/-- window_calculater.py:58-65, 77-83 (without `row_number`) and 95-102. -/
def rankStep {κ : Type} [DecidableEq κ] (s : Option (RankState κ)) (k : κ) : RankState κ :=
  match s with
  | none => ⟨k, 1, 1⟩
  | some s => ⟨s.order, if k ≠ s.order then s.rank + 1 else s.rank, s.row + 1⟩

/-- The state after each row of a partition with order values `ks`. -/
def rankStates {κ : Type} [DecidableEq κ] (s : Option (RankState κ)) : List κ → List (RankState κ)
  | [] => []
  | k :: ks => rankStep s k :: rankStates (some (rankStep s k)) ks

/-- window_calculater.py:67-70 `RANK` and 85-88 `DENSE_RANK` of every row. -/
def ranks {κ : Type} [DecidableEq κ] (ks : List κ) : List Nat := (rankStates none ks).map (·.rank)

/-- window_calculater.py:104-109, as Python parses it: `rank - (1 / row_number) - 1`. -/
def percentFinal {κ : Type} (s : RankState κ) : Rat :=
  if s.row ≤ 1 then 0 else (s.rank : Rat) - 1 / (s.row : Rat) - 1

/-- `PERCENT_RANK` of every row. -/
def percentRanks {κ : Type} [DecidableEq κ] (ks : List κ) : List Rat := (rankStates none ks).map percentFinal

/-- window_calculater.py:211-215, as Python parses it. -/
def cumeDist (len : Nat) (idx : Nat) : Rat := if len = 0 then 0 else (idx : Rat) + 1 / (len : Rat) + 1

end Verif.Window
