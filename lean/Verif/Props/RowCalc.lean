import Verif.Model.RowCalc
/-! C143: functions that remember something from row to row. -/
namespace Verif.Props
open Verif.RowCalc

section
variable {V : Type}

theorem rowStep_get (us : List Use) (ss : List (St V)) (as : List (List V)) (h1 : ss.length = us.length) (h2 : as.length = us.length) (j : Nat)
    (hj : j < us.length) :
    (rowStep us ss as).1[j]? = some (step us[j] ss[j] as[j]).1 ∧ (rowStep us ss as).2[j]? = some (step us[j] ss[j] as[j]).2 := by
  induction us generalizing ss as j with
  | nil => cases hj
  | cons u us ih =>
    cases ss with
    | nil => simp at h1
    | cons s ss =>
      cases as with
      | nil => simp at h2
      | cons a as =>
        cases j with
        | zero => exact ⟨rfl, rfl⟩
        | succ j =>
          have := ih ss as (by simpa using h1) (by simpa using h2) j (by simpa using hj)
          simpa [rowStep] using this

theorem rowStep_length (us : List Use) (ss : List (St V)) (as : List (List V)) (h1 : ss.length = us.length) (h2 : as.length = us.length) :
    (rowStep us ss as).1.length = us.length ∧ (rowStep us ss as).2.length = us.length := by
  induction us generalizing ss as with
  | nil => cases ss <;> cases as <;> simp_all [rowStep]
  | cons u us ih =>
    cases ss with
    | nil => simp at h1
    | cons s ss =>
      cases as with
      | nil => simp at h2
      | cons a as => simpa [rowStep] using ih ss as (by simpa using h1) (by simpa using h2)

/-- One use alone. -/
def oneUse (u : Use) : St V → List (List V) → List (Res V)
  | _, [] => []
  | s, a :: as => (step u s a).1 :: oneUse u (step u s a).2 as

theorem rows_get (us : List Use) (ss : List (St V)) (as : List (List (List V))) (h1 : ss.length = us.length)
    (h2 : ∀ a ∈ as, a.length = us.length) (j : Nat) (hj : j < us.length) :
    (rows us ss as).map (fun r => r[j]?) = (oneUse us[j] ss[j] (as.map fun a => a.getD j [])).map some := by
  induction as generalizing ss with
  | nil => rfl
  | cons a as ih =>
    have ha := h2 a (by simp)
    obtain ⟨g1, g2⟩ := rowStep_get us ss a h1 ha j hj
    have hlen := (rowStep_length us ss a h1 ha).2
    have haj : a.getD j [] = a[j] := by
      rw [List.getD_eq_getElem?_getD, List.getElem?_eq_getElem (by omega)]
      rfl
    have := ih (rowStep us ss a).2 hlen fun b hb => h2 b (by simp [hb])
    have hs : (rowStep us ss a).2[j] = (step us[j] ss[j] a[j]).2 := by
      rw [List.getElem?_eq_getElem (by omega)] at g2
      exact Option.some.inj g2
    simp only [rows, List.map_cons, oneUse, g1, this, hs, haj]

theorem oneUse_index (s : St V) (as : List (List V)) :
    oneUse .rowIndex s as = (List.range as.length).map fun i => Res.index (s.index + i + 1) := by
  induction as generalizing s with
  | nil => rfl
  | cons a as ih =>
    rw [List.length_cons, List.range_succ_eq_map, List.map_cons, List.map_map]
    simp only [oneUse, step, ih]
    congr 1
    refine List.map_congr_left fun i _ => ?_
    simp only [Function.comp]
    congr 1
    omega

theorem oneUse_last (s : St V) (as : List (List V)) :
    oneUse .rowLast s as = ((s.last :: as.map argOf).take as.length).map Res.arg := by
  induction as generalizing s with
  | nil => rfl
  | cons a as ih => simp only [oneUse, step, ih, List.map_cons, List.length_cons, List.take_succ_cons]

/-- **C143**: in every query, whatever its other columns are, the i-th row has the number i in a column ROW_INDEX(). -/
theorem C143_row_index (us : List Use) (as : List (List (List V))) (h : ∀ a ∈ as, a.length = us.length) (j : Nat) (hj : us[j]? = some .rowIndex) :
    (run us as).map (fun r => r[j]?) = (List.range as.length).map fun i => some (.index (i + 1)) := by
  obtain ⟨hl, he⟩ := List.getElem?_eq_some_iff.1 hj
  unfold run
  rw [rows_get us _ as (by simp) h j hl, he, oneUse_index]
  simp

/-- **C143**: in every query, whatever its other columns are, ROW_LAST(x) is NULL in the first row and in every other row the value x
had in the row before (ROW_LAST(x, y, …): the values). -/
theorem C143_row_last (us : List Use) (as : List (List (List V))) (h : ∀ a ∈ as, a.length = us.length) (j : Nat) (hj : us[j]? = some .rowLast) :
    (run us as).map (fun r => r[j]?)
      = ((Arg.none :: as.map fun a => argOf (a.getD j [])).take as.length).map fun x => some (.arg x) := by
  obtain ⟨hl, he⟩ := List.getElem?_eq_some_iff.1 hj
  unfold run
  rw [rows_get us _ as (by simp) h j hl, he, oneUse_last]
  simp [Function.comp_def]

/-- Three rows of `SELECT ROW_INDEX(), ROW_LAST(x)`. -/
example : run (V := Nat) [.rowIndex, .rowLast] [[[], [5]], [[], [6]], [[], [7]]]
    = [[.index 1, .arg .none], [.index 2, .arg (.one 5)], [.index 3, .arg (.one 6)]] := rfl

end
end Verif.Props
