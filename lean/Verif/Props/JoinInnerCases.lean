import Verif.Props.JoinDistinct
import Verif.Props.JoinSelectCases
/-! Examples for C134, C135 and C136. -/
namespace Verif.Props.JoinCases
open Verif.Val Verif.Expr Verif.Sql Verif.Where Verif.Order Verif.SqlOrder Verif.Select Verif.SqlSelect Verif.Proofs.JoinSelect Verif.Props

/-- `INNER JOIN B ON B.i = t.a`. -/
def ijoins : List (Join.Join Val) := [{ joinB with kind := .inner }]

theorem innerOk : InnerOk ops "t" ijoins where
  some := by simp [ijoins]
  inner := by simp [ijoins]
  linked := by
    intro j hj
    simp only [ijoins, List.mem_singleton] at hj
    subst hj
    exact ⟨_, List.mem_singleton.2 rfl, _, .left .eq "i" _, ⟨some "t", "a"⟩, by simp [Join.fields], rfl⟩
  strict := by
    intro j hj c hc _ e he r hr
    simp only [ijoins, List.mem_singleton] at hj
    subst hj
    simp only [joinB, List.mem_singleton] at hc
    subst hc
    simp only [Join.condX, Join.evalX] at he
    have h2 : (Join.refVal "t" e ⟨some "B", "i"⟩ = Join.refVal "t" e ⟨some "t", "a"⟩ ∧ Join.refVal "t" e ⟨some "B", "i"⟩ ≠ .null) := by
      by_cases h : Join.refVal "t" e ⟨some "B", "i"⟩ = Join.refVal "t" e ⟨some "t", "a"⟩ ∧ Join.refVal "t" e ⟨some "B", "i"⟩ ≠ .null
      · exact h
      · simp [ops, h] at he
    simp only [Join.condFields, Join.fields, List.cons_append, List.nil_append, List.mem_cons, List.not_mem_nil, or_false] at hr
    rcases hr with rfl | rfl
    · exact h2.2
    · rw [← h2.1]; exact h2.2
  plain := by
    intro j hj
    simp only [ijoins, List.mem_singleton] at hj
    subst hj
    exact ⟨by decide, by decide⟩
  left := joinsOk

section
variable (text : Str → Bool) (py : Py) (calls : Str → List Val → Val)

/-- C134 on `SELECT a, B.v AS v FROM t INNER JOIN B ON B.i = t.a WHERE b > 1 ORDER BY B.v`: (3, 4), (1, 7). -/
example : ∃ p, JoinSelect.compileJoins py calls ops id 5 ijoins q = some p ∧
    JoinRowResult text py.cmp calls rankLe q (joinedRows ops "t" db ijoins rows) (JoinSelect.run py calls ops db (oneBatch py) p rows) ∧
    JoinSelect.run py calls ops db (oneBatch py) p rows =
      [[(['a'], .int 3), (['v'], .int 4)], [(['a'], .int 1), (['v'], .int 7)]] := by
  refine ⟨_, rfl, ?_, rfl⟩
  apply C134_inner_select_partial text py calls ops opsSym id (fun l => List.Perm.refl l) 5 db (oneBatch py) rankLe_total rankLe_trans
    (idealSrc_faithful py) q ijoins innerOk _ rfl
  · intro c hc
    simp only [q, List.mem_cons, List.not_mem_nil, or_false] at hc
    rcases hc with rfl | rfl <;> exact ⟨_, rfl, rfl⟩
  · decide
  · rfl
  · rfl
  · intro h; cases h
  · exact one
  · exact whereOk text py calls q rfl
  · intro e he; cases he
  · refine ⟨?_, ?_, ?_, ?_⟩
    · intro t n d h
      simp only [q, List.mem_singleton, Prod.mk.injEq, Order.Item.col.injEq] at h
      rw [h.1.2]; decide
    · intro n d h
      simp [q] at h
    · intro t n d h _
      simp only [q, List.mem_singleton, Prod.mk.injEq, Order.Item.col.injEq, Option.some.injEq] at h
      rw [h.1.1, h.1.2]
      simp [q]
    · intro n d h
      simp [q] at h

/-- C135 on `qg` with the INNER JOIN. -/
example : ∃ p, JoinSelect.compileJoins py calls ops id 5 ijoins qg = some p ∧
    GroupResult text py.cmp calls rankLe qg (joinedRows ops "t" db ijoins rows) (JoinSelect.run py calls ops db (smallBatches py) p rows) ∧
    JoinSelect.run py calls ops db (smallBatches py) p rows =
      [[(['v'], .int 7), (['n'], .int 1)], [(['v'], .int 4), (['n'], .int 1)]] := by
  refine ⟨_, rfl, ?_, rfl⟩
  apply C135_inner_grouped_partial text py calls ops opsSym id (fun l => List.Perm.refl l) 5 db (smallBatches py) rankLe_total rankLe_trans
    (idealSrc_faithful py) _ qg ijoins innerOk _ rfl
  · intro n e h
    simp [qg] at h
    rw [h.2]; rfl
  · intro n args final h a ha
    simp [qg] at h
    rw [h.2.1] at ha
    simp at ha
    rw [ha]; rfl
  · intro e h
    simp [qg] at h
    rw [h]; rfl
  · decide
  · simp [qg]
  · left; simp [qg]
  · intro c hc _
    simp [qg] at hc
  · decide
  · left; rfl
  · exact one
  · exact whereOk text py calls qg rfl
  · intro e he; cases he
  · intro n args final h a ha
    simp [qg] at h
    rw [h.2.1] at ha
    simp at ha
    rw [ha]
    exact ⟨fun _ => True, total_law Agg.count _ fun l1 l2 _ _ => C20_count l1 l2, fun _ _ => trivial⟩
  · left; simp [qg]
  · intro h
    have := h (['n'], .agg [(countAggr, .col ['a'])] (fun l => l.headD .null)) (by simp [qg])
    simp [isAgg] at this
  · refine ⟨?_, ?_, ?_, ?_⟩ <;> intros <;> simp [qg] at *
  · intro l
    simp [smallBatches, List.flatMap_map]

/-- `SELECT DISTINCT B.v AS v FROM t JOIN B … WHERE b > 1 ORDER BY B.v`. -/
def qd : Query Empty :=
  { cols := [(['v'], .expr (.col ['B', '.', 'v']))], cond := some (.cmp .gt (.col ['b']) (.lit (.int 1))), distinct := true,
    order := [(.col (some ['B']) ['v'], false)], table := ['t'], columns := [['a']] }

theorem distinguishable : Distinguishable text py calls qd (joinedRows ops "t" db joins rows) := by
  intro n e h r hr r' hr'
  simp [qd] at h
  rw [h.2]
  rw [joinedRows_eq ops "t" db joins joinsOk.left rows one] at hr hr'
  have : ∀ r ∈ rows.map (theJoined ops "t" db joins), r ['B', '.', 'v'] = .null ∨ ∃ i, r ['B', '.', 'v'] = .int i := by
    intro r hr
    simp only [rows, List.map_cons, List.map_nil, List.mem_cons, List.not_mem_nil, or_false] at hr
    rcases hr with rfl | rfl | rfl | rfl
    · exact Or.inr ⟨7, rfl⟩
    · exact Or.inr ⟨4, rfl⟩
    · exact Or.inl rfl
    · exact Or.inl rfl
  show Agg.keyOf (r ['B', '.', 'v']) = Agg.keyOf (r' ['B', '.', 'v']) → r ['B', '.', 'v'] = r' ['B', '.', 'v']
  rcases this r hr with h | ⟨i, h⟩ <;> rcases this r' hr' with h' | ⟨i', h'⟩ <;> rw [h, h'] <;> simp [Agg.keyOf, numeric]

theorem qd_order : JoinGroupOrderOk qd := by
  refine ⟨?_, ?_, ?_, ?_⟩
  · intro t n d h
    simp only [qd, List.mem_singleton, Prod.mk.injEq, Order.Item.col.injEq] at h
    rw [h.1.2]; decide
  · intro n d h
    simp [qd] at h
  · intro t n d h _
    simp only [qd, List.mem_singleton, Prod.mk.injEq, Order.Item.col.injEq, Option.some.injEq] at h
    rw [h.1.1, h.1.2]
    simp [qd]
  · intro n d h
    simp [qd] at h

/-- C136 on `qd` with LEFT JOIN: NULL, 4, 7. -/
example : ∃ p, JoinSelect.compile py calls ops id 5 joins qd = some p ∧
    DistinctResult text py.cmp calls rankLe qd (joinedRows ops "t" db joins rows) (JoinSelect.run py calls ops db (smallBatches py) p rows) ∧
    JoinSelect.run py calls ops db (smallBatches py) p rows = [[(['v'], .null)], [(['v'], .int 4)], [(['v'], .int 7)]] := by
  refine ⟨_, rfl, ?_, rfl⟩
  apply C136_left_distinct_partial text py calls ops opsSym id (fun l => List.Perm.refl l) 5 db (smallBatches py) rankLe_total rankLe_trans
    (idealSrc_faithful py) _ qd joins joinsOk _ rfl
  · intro c hc
    simp only [qd, List.mem_cons, List.not_mem_nil, or_false] at hc
    rw [hc]; exact ⟨_, rfl, rfl⟩
  · decide
  · simp [qd]
  · rfl
  · rfl
  · decide
  · left; rfl
  · exact one
  · exact whereOk text py calls qd rfl
  · intro e he; cases he
  · exact distinguishable text py calls
  · exact qd_order
  · intro l
    simp [smallBatches, List.flatMap_map]

/-- C136 on `qd` with INNER JOIN: 4, 7. -/
example : ∃ p, JoinSelect.compileJoins py calls ops id 5 ijoins qd = some p ∧
    DistinctResult text py.cmp calls rankLe qd (joinedRows ops "t" db ijoins rows) (JoinSelect.run py calls ops db (smallBatches py) p rows) ∧
    JoinSelect.run py calls ops db (smallBatches py) p rows = [[(['v'], .int 4)], [(['v'], .int 7)]] := by
  refine ⟨_, rfl, ?_, rfl⟩
  apply C136_inner_distinct_partial text py calls ops opsSym id (fun l => List.Perm.refl l) 5 db (smallBatches py) rankLe_total rankLe_trans
    (idealSrc_faithful py) _ qd ijoins innerOk _ rfl
  · intro c hc
    simp only [qd, List.mem_cons, List.not_mem_nil, or_false] at hc
    rw [hc]; exact ⟨_, rfl, rfl⟩
  · decide
  · simp [qd]
  · rfl
  · rfl
  · decide
  · left; rfl
  · exact one
  · exact whereOk text py calls qd rfl
  · intro e he; cases he
  · exact distinguishable text py calls
  · exact qd_order
  · intro l
    simp [smallBatches, List.flatMap_map]

end
end Verif.Props.JoinCases
