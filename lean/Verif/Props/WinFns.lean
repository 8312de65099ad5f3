import Verif.Props.WinCases
import Verif.Props.Window
/-! C65: the values of the window functions FIRST_VALUE, LAST_VALUE, LAG, LEAD, ROW_NUMBER inside a query. -/
namespace Verif.Props
open Verif.Val Verif.Expr Verif.WinSelect

variable {S : Type}

/-- The value a function gives to the row `i` of a partition whose rows have these values of the argument (and these order keys). -/
def winValue (f : Fn S) (keys : List (List Val)) (vs : List Val) (i : Nat) : Option Val :=
  match f with
  | .agg _ => none
  | .win g => some (g (keys.zip (vs.map .one)) i)

/-- **C65**: in a partition whose rows have the values `vs` of the argument, FIRST_VALUE is the first of them, LAST_VALUE the last (of
the whole partition), LAG and LEAD those of the rows before and after (NULL where there is none), ROW_NUMBER the position from 1. -/
theorem C65_functions (py : Py) (keys : List (List Val)) (vs : List Val) (hk : keys.length = vs.length) (i : Nat) (hi : i < vs.length) :
    winValue (firstValueFn : Fn S) keys vs i = some (vs.headD .null) ∧
    winValue (lastValueFn : Fn S) keys vs i = some (vs.getLastD .null) ∧
    winValue (lagFn py : Fn S) keys vs i = some (if i = 0 then .null else vs.getD (i - 1) .null) ∧
    winValue (leadFn py : Fn S) keys vs i = some (vs.getD (i + 1) .null) ∧
    winValue (rowNumberFn : Fn S) keys vs i = some (.int (i + 1)) := by
  have e : (keys.zip (vs.map Window.Arg.one)).map (·.2) = vs.map .one := by
    rw [List.map_snd_zip]; simp [hk]
  have ei : ∃ k, (keys.zip (vs.map Window.Arg.one))[i]? = some (k, .one vs[i]) := by
    refine ⟨keys[i]'(by omega), ?_⟩
    rw [List.getElem?_eq_getElem (by simp; omega)]
    simp
  obtain ⟨k, ei⟩ := ei
  obtain ⟨hlag, hlead⟩ := C23_lag_lead_one py vs i vs[i]
  refine ⟨?_, ?_, ?_, ?_, ?_⟩
  · simp only [winValue, firstValueFn, e, Window.firstValue]
    cases vs <;> rfl
  · simp only [winValue, lastValueFn, e, Window.lastValue]
    rw [List.getLast?_map]
    rw [List.getLastD_eq_getLast?]
    cases vs.getLast? <;> rfl
  · simp only [winValue, lagFn, e, ei, Option.bind_some, hlag, argRes, Spec.at?]
    congr 1
    by_cases h : i = 0
    · subst h; rfl
    · rw [if_neg h, if_neg (by omega), show ((i : Int) - 1).toNat = i - 1 by omega]
  · simp only [winValue, leadFn, e, ei, Option.bind_some, hlead, argRes, Spec.at?]
    congr 1
  · rfl

example : winValue (lagFn plainPy : Fn Unit) [[.int 1], [.int 2]] [.int 10, .int 20] 1 = some (.int 10) := by decide +kernel

end Verif.Props
