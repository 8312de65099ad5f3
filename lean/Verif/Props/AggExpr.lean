import Verif.Spec.AggExpr
import Verif.Proofs.WinSelect
import Verif.Props.Expr
/-! C77: expressions around aggregates. -/
namespace Verif.Props
namespace Mix
open Verif.Val Verif.Expr Verif.Select Verif.AggExpr Verif.Sql

variable (text : Str → Bool) (py : Py) (calls : Str → List Val → Val)

/-- The value of an expression around aggregates, exactly: SQL's value of the expression where a column stands for the column of
the select list of that name, or NULL. -/
theorem _root_.Verif.Props.C77_exact (sel : List (Str × SelCol)) (m : Mixed) (h : scalarOk m.e = true) (rows : List Row) :
    AggExpr.value py calls sel m rows = sem text py.cmp calls (fun n => match get n m.slots with
      | some f => f rows
      | none => reduced py calls sel rows n) m.e :=
  C31_value_partial text py calls (finalRow py calls sel m rows) m.e h

/-- **C77**, for expressions of C31's class whose columns outside aggregates are columns of the select list under their own
names. -/
theorem _root_.Verif.Props.C77_expression_partial (sel : List (Str × SelCol)) (m : Mixed) (h : scalarOk m.e = true)
    (hs : ∀ c ∈ colsE m.e, (get c m.slots).isSome ∨ get c sel = some (.calc (.col c))) (rows : List Row) :
    AggExpr.value py calls sel m rows = SqlAggExpr.value text py.cmp calls m rows := by
  rw [C77_exact text py calls sel m h rows, SqlAggExpr.value]
  refine WinSelect.sem_congr _ _ _ _ _ _ ?_
  intro c hc
  show (match get c m.slots with | some f => f rows | none => reduced py calls sel rows c) = _
  cases hg : get c m.slots with
  | some f => rfl
  | none =>
    rcases hs c hc with h | h
    · rw [hg] at h; cases h
    · simp only [reduced, h]; rfl

/-- **C77 is false for a column that is not selected**: it is NULL, and with it every function of it that gives NULL for NULL
(`SELECT a + SUM(b) FROM t GROUP BY a`). -/
theorem _root_.Verif.Props.C77_unselected_violated (sel : List (Str × SelCol)) (c s f : Str) (agg : List Row → Val) (hcs : c ≠ s)
    (hc : get c sel = none) (hnull : ∀ v, calls f [.null, v] = .null) (r : Row) (rows : List Row) :
    let m : Mixed := ⟨.call f (.cons (.col c) (.cons (.col s) .nil)), [(s, agg)]⟩
    AggExpr.value py calls sel m (r :: rows) = .null ∧
    SqlAggExpr.value text py.cmp calls m (r :: rows) = calls f [r c, agg (r :: rows)] := by
  intro m
  have h1 : get c m.slots = none := by simp [m, Select.get, Ne.symm hcs]
  have h2 : get s m.slots = some agg := by simp [m, Select.get]
  refine ⟨?_, ?_⟩
  · rw [C77_exact text py calls sel m rfl]
    simp only [m, sem, semL] at h1 h2 ⊢
    rw [h1, h2, reduced, hc]
    exact hnull _
  · simp only [SqlAggExpr.value, m, sem, semL] at h1 h2 ⊢
    rw [h1, h2]
    rfl

/-- **C77 is false for a column whose name is the alias of something else** (`SELECT b AS a, a = MAX(b) FROM t GROUP BY …`): it is
taken to be the other. -/
theorem _root_.Verif.Props.C77_alias_violated (sel : List (Str × SelCol)) (c s : Str) (t : T) (agg : List Row → Val) (hcs : c ≠ s)
    (hc : get c sel = some (.calc t)) (op : Cmp) (r : Row) (rows : List Row) :
    let m : Mixed := ⟨.cmp op (.col c) (.col s), [(s, agg)]⟩
    AggExpr.value py calls sel m (r :: rows) = py.cmp op (eval py calls r t) (agg (r :: rows)) ∧
    SqlAggExpr.value text py.cmp calls m (r :: rows) = py.cmp op (r c) (agg (r :: rows)) := by
  intro m
  have h1 : get c m.slots = none := by simp [m, Select.get, Ne.symm hcs]
  have h2 : get s m.slots = some agg := by simp [m, Select.get]
  refine ⟨?_, ?_⟩
  · rw [C77_exact text py calls sel m rfl]
    simp only [m, sem] at h1 h2 ⊢
    rw [h1, h2, reduced, hc]
    rfl
  · simp only [SqlAggExpr.value, m, sem] at h1 h2 ⊢
    rw [h1, h2]
    rfl

/-- C77 covers `SELECT a, a = MAX(b) FROM t GROUP BY a`. -/
example : let m : Mixed := ⟨.cmp .eq (.col ['a']) (.col ['m']), [(['m'], fun l => (l.map fun r => r ['b']).headD .null)]⟩
    scalarOk m.e = true ∧ (∀ c ∈ colsE m.e, (get c m.slots).isSome ∨
      get c [(['a'], SelCol.calc (.col ['a']))] = some (.calc (.col c))) ∧
    SqlAggExpr.value text py.cmp calls m [fun _ => .int 1] = .int 1 := by
  refine ⟨rfl, ?_, rfl⟩
  intro c hc
  simp [colsE] at hc
  rcases hc with rfl | rfl
  · right; rfl
  · left; rfl

/-- `SELECT a + SUM(b)` with a = 1 and b = 2 is NULL, not 3. -/
example : let calls : Str → List Val → Val := fun f l => match f, l with
      | ['+'], [.int x, .int y] => .int (x + y)
      | _, _ => .null
    let m : Mixed := ⟨.call ['+'] (.cons (.col ['a']) (.cons (.col ['s']) .nil)), [(['s'], fun _ => .int 2)]⟩
    AggExpr.value py calls [] m [fun _ => .int 1] = .null ∧ SqlAggExpr.value text py.cmp calls m [fun _ => .int 1] = .int 3 :=
  ⟨rfl, rfl⟩

end Mix
end Verif.Props
