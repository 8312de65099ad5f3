import Verif.Props.TreeTotalCases
import Verif.Props.FromCases
/-! Examples for C155 and C165 with FROM a, b. -/
namespace Verif.Props.TreeFromCases
open Verif.Val Verif.Expr Verif.Sql Verif.Where Verif.Order Verif.Select Verif.SqlSelect Verif.Tree Verif.SqlTree
open Verif.AcceptSpec Verif.TotalSpec Verif.Props.TreeTotal Verif.Props.TreeCases Verif.Props.TreeLemmas Verif.Props.FromCases
open Verif.SqlNest (rowOfRecord QueryResult isAggregate)
open Verif.Props.TreeTotalCases (plain_ok fits_sub)

section
variable (text : Str → Bool) (py : Py) (calls : Str → List Val → Val)

/-- `SELECT a, B.v AS v FROM t, (SELECT i, v FROM s) B WHERE B.i = t.a AND b > 1 ORDER BY B.v`. -/
def list : Tree.Rel Empty :=
  .select (.comma ["B"] w FromCases.q) (.scan ['t']) (.cons (.select (.plain subq) (.scan ['s']) .nil) .nil)

theorem means_subq (rows : List Out) (h : Means text py.cmp calls rankLe ops treeDb (.select (.plain subq) (.scan ['s']) .nil) rows) :
    rows = [iv 1 7, iv 3 4] := by
  rw [Means] at h
  obtain ⟨r, _, hr, _, h⟩ := h
  rw [Means] at hr
  subst hr
  simp only [SelectResult, KindResult] at h
  unfold QueryResult at h
  rw [if_neg (by simp [subq, isAggregate]), if_neg (by decide)] at h
  obtain ⟨sorted, hs, rfl⟩ := h
  have h1 := hs.stable (fun _ => true) fun a b _ _ => by simp only [subq, List.map_nil, SqlOrder.Le]
  rw [List.filter_eq_self.2 (fun _ _ => rfl), List.filter_eq_self.2 (fun _ _ => rfl)] at h1
  rw [h1]
  rfl

theorem listed_B : listedTable ["B"] ([[iv 1 7, iv 3 4]].map (·.map rowOfRecord)) = JoinCases.db := by
  funext n
  simp only [List.map_cons, List.map_nil, listedTable, row_iv, JoinCases.db]
  by_cases hn : n = "B"
  · rw [if_pos hn, if_pos hn.symm]
  · rw [if_neg hn, if_neg (Ne.symm hn)]

theorem orderOk : JoinOrderOk FromCases.q := by
  refine ⟨?_, ?_, ?_, ?_⟩
  · intro t n d h
    simp only [FromCases.q, List.mem_singleton, Prod.mk.injEq, Order.Item.col.injEq] at h
    rw [h.1.2]; decide
  · intro n d h
    simp [FromCases.q] at h
  · intro t n d h _
    simp only [FromCases.q, List.mem_singleton, Prod.mk.injEq, Order.Item.col.injEq, Option.some.injEq] at h
    rw [h.1.1, h.1.2]
    simp [FromCases.q]
  · intro n d h
    simp [FromCases.q] at h

theorem fits : KindFits text py calls ops (oneBatch py) JoinCases.rows ([[iv 1 7, iv 3 4]].map (·.map rowOfRecord))
    (.comma ["B"] w FromCases.q) := by
  simp only [KindFits]
  rw [listed_B]
  refine ⟨⟨by simp, fromOk py calls, agree text py calls⟩, ?_⟩
  exact
    { shape := .inl ⟨FromList.joinsOk_from py calls (fromOk py calls), rfl⟩
      one := FromCases.one
      names := by decide
      limit := by decide
      cond := FromCases.whereOk text py calls FromCases.q rfl
      having := by intro e he; cases he
      kind := .inl ⟨rfl, rfl, by
        intro c hc
        simp only [FromCases.q, List.mem_cons, List.not_mem_nil, or_false] at hc
        rcases hc with rfl | rfl <;> exact ⟨_, rfl, rfl⟩, orderOk⟩ }

theorem table_B (c : Str) (hc : c = ['B', '.', 'v'] ∨ c = ['B', '.', 'i']) (t : Join.Name) (h : OfTable c t) : t ∈ ["B"] := by
  have e : (JoinSelect.refOf c).table = some "B" := by rcases hc with rfl | rfl <;> decide +kernel
  rw [OfTable, e] at h
  cases h
  simp

theorem accepts : QueryOk FromCases.q ∧ ExprsOk FromCases.q [joinB] := by
  have ha : '.' ∉ baseName ['a'] := by decide
  have hb : '.' ∉ baseName ['b'] := by decide
  refine ⟨⟨fun e h => (by cases h), .inl ?_, fun c h => (by cases h)⟩, ?_⟩
  · intro i hi
    simp only [FromCases.q, List.mem_singleton] at hi
    subst hi
    exact ⟨['v'], by simp [names, FromCases.q], .inr ⟨_, rfl⟩⟩
  · intro e he
    cases he with
    | column h =>
      simp only [FromCases.q, List.mem_cons, Prod.mk.injEq, Select.Item.expr.injEq, List.not_mem_nil, or_false] at h
      rcases h with ⟨_, rfl⟩ | ⟨_, rfl⟩
      · refine ⟨fun c t hc ht => ?_, fun h => by obtain ⟨⟨_, _, _, h⟩, _⟩ := h; simp [parts] at h⟩
        simp [parts] at hc
        subst hc
        exact absurd ht (joinCases_plain _ ha t)
      · refine ⟨fun c t hc ht => ?_, fun h => by obtain ⟨⟨_, _, _, h⟩, _⟩ := h; simp [parts] at h⟩
        simp [parts] at hc
        exact table_B c (.inl hc) t ht
    | arg h => simp [FromCases.q] at h
    | key h => cases h
    | name h => cases h
    | cond h =>
      have h : (some (.and (.cmp .eq (.col ['B', '.', 'i']) (.col ['a'])) (.cmp .gt (.col ['b']) (.lit (.int 1)))) : Option E) = some _ := h
      cases h
      refine ⟨fun c t hc ht => ?_, fun h => by obtain ⟨⟨_, _, _, h⟩, _⟩ := h; simp [parts] at h⟩
      simp [parts] at hc
      rcases hc with hc | hc | hc
      · exact table_B c (.inr hc) t ht
      · subst hc; exact absurd ht (joinCases_plain _ ha t)
      · subst hc; exact absurd ht (joinCases_plain _ hb t)

theorem list_accepted : Accepted py calls ops 5 list := by
  simp only [list, Accepted, Accepteds, SelectAccepted, KindAccepted, true_and, and_true]
  refine ⟨⟨by simp, fromOk py calls, accepts.1, accepts.2, ?_, by decide⟩, rfl, plain_ok subq rfl rfl rfl, rfl⟩
  intro j hj
  have hj : j ∈ [joinB] := hj
  simp only [List.mem_singleton] at hj
  subst hj
  refine ⟨⟨?_, by decide⟩, _, List.mem_cons_self, ⟨some "B", "i"⟩, by simp [Join.condFields, Join.fields], rfl⟩
  intro c hc r hr
  simp only [FromCases.joinB, List.mem_singleton] at hc
  subst hc
  simp [Join.condFields, Join.fields] at hr
  rcases hr with rfl | rfl <;> simp

/-- C165 on `list`. -/
example : ∃ out, Tree.result py calls ops id 5 (oneBatch py) treeDb list = some out ∧
    Means text py.cmp calls rankLe ops treeDb list out := by
  apply C165_statement_partial text py calls ops id 5 (oneBatch py) FromCases.opsSym (fun l => List.Perm.refl l) (oneBatch_ok py)
    (idealSrc_faithful py) list treeDb (list_accepted py calls)
  · simp [list, SqlTree.Scoped, Scopeds, Apart, bound, bounds, free, frees]
  · simp [list, Aligned, Aligneds]
  · simp only [list, Fits, Fitss, true_and, and_true]
    refine ⟨fun rows others _ _ => fits_sub text py calls rows, ?_⟩
    intro rows others h1 h2
    rw [Means] at h1
    rw [MeansAll] at h2
    obtain ⟨out, rest, h2, h3, rfl⟩ := h2
    rw [MeansAll] at h3
    subst h3
    rw [means_subq text py calls out h2]
    simp only [SelectFits]
    rw [h1, rows_t]
    exact fits text py calls
  · intro n hn
    simp [list, bound, bounds] at hn

/-- Its result: (3, 4), (1, 7). -/
example : Tree.result plainPy noCalls ops id 5 (oneBatch plainPy) treeDb list =
    some [av 3 (.int 4), av 1 (.int 7)] := by
  decide +kernel

end
end Verif.Props.TreeFromCases
