import Verif.Props.Accepted
import Verif.Props.JoinSelectCases
/-! C157 on queries. -/
namespace Verif.Props
open Verif.Val Verif.Expr Verif.Where Verif.Select Verif.AcceptSpec Verif.Join Verif.Proofs.JoinSelect

/-- `q58` (GROUP BY, HAVING, ORDER BY, an aggregate). -/
example : QueryOk q58 where
  having := by
    intro e he
    cases he
    refine ⟨.cmp .., fun c hc => ?_⟩
    simp [parts] at hc
    simp [names, q58, hc]
  order := .inl (by
    intro i hi
    simp only [q58, List.mem_singleton] at hi
    subst hi
    exact ⟨['n'], by simp [names, q58], .inr ⟨none, rfl⟩⟩)
  group := by
    intro c hc args final hm
    simp [q58] at hc hm
    subst hc
    simp at hm

/-- `JoinCases.q` and `JoinCases.qg`. -/
theorem joinCases_on : ∀ j ∈ JoinCases.joins, ((∀ c ∈ j.on, ∀ r ∈ condFields c, r.table ≠ none) ∧ (j.on.filterMap (keyColumn j.name)).Nodup) ∧
    ∃ c ∈ j.on, ∃ r ∈ condFields c, r.table = some j.name := by
  intro j hj
  simp only [JoinCases.joins, List.mem_singleton] at hj
  subst hj
  refine ⟨⟨?_, by decide⟩, _, List.mem_cons_self, ⟨some "B", _⟩, List.mem_cons_self, rfl⟩
  intro c hc r hr
  simp only [JoinCases.joinB, List.mem_singleton] at hc
  subst hc
  simp [condFields, fields] at hr
  rcases hr with rfl | rfl <;> simp

theorem joinCases_v (t : Join.Name) (h : OfTable ['B', '.', 'v'] t) : t ∈ JoinCases.joins.map (·.name) := by
  have e : (JoinSelect.refOf ['B', '.', 'v']).table = some "B" := by decide +kernel
  rw [OfTable, e] at h
  cases h
  simp [JoinCases.joins, JoinCases.joinB]

theorem joinCases_plain (c : Str) (hc : '.' ∉ baseName c) (t : Join.Name) : ¬ OfTable c t := by
  simp [OfTable, JoinSelect.refOf, hc]

theorem joinCases_accepts : QueryOk JoinCases.q ∧ ExprsOk JoinCases.q JoinCases.joins := by
  have ha : '.' ∉ baseName ['a'] := by decide
  have hb : '.' ∉ baseName ['b'] := by decide
  refine ⟨⟨fun e h => (by cases h), .inl ?_, fun c h => (by cases h)⟩, ?_⟩
  · intro i hi
    simp only [JoinCases.q, List.mem_singleton] at hi
    subst hi
    exact ⟨['v'], by simp [names, JoinCases.q], .inr ⟨_, rfl⟩⟩
  · intro e he
    cases he with
    | column h =>
      simp only [JoinCases.q, List.mem_cons, Prod.mk.injEq, Item.expr.injEq, List.not_mem_nil, or_false] at h
      rcases h with ⟨_, rfl⟩ | ⟨_, rfl⟩
      · refine ⟨fun c t hc ht => ?_, fun h => by obtain ⟨⟨_, _, _, h⟩, _⟩ := h; simp [parts] at h⟩
        simp [parts] at hc
        subst hc
        exact absurd ht (joinCases_plain _ ha t)
      · refine ⟨fun c t hc ht => ?_, fun h => by obtain ⟨⟨_, _, _, h⟩, _⟩ := h; simp [parts] at h⟩
        simp [parts] at hc
        subst hc
        exact joinCases_v t ht
    | arg h => simp [JoinCases.q] at h
    | key h => cases h
    | name h => cases h
    | cond h =>
      cases h
      refine ⟨fun c t hc ht => ?_, fun h => by obtain ⟨⟨_, _, _, h⟩, _⟩ := h; simp [parts] at h⟩
      simp [parts] at hc
      subst hc
      exact absurd ht (joinCases_plain _ hb t)

/-- `SELECT a AS a FROM t LEFT JOIN B ON 1 = 1`. -/
def unusedJoin : Join.Join Val := ⟨"B", .left, [.cmp .eq (.const (.int 1)) (.const (.int 1))]⟩
def unusedQ (S : Type) : Query S := { cols := [(['a'], .expr (.col ['a']))], table := ['t'] }

example : ¬ Used (unusedQ S) [unusedJoin] "B" := by
  rintro (⟨j, hj, c, hc, r, hr, _⟩ | ⟨e, c, h | h, hc, ht⟩ | ⟨n, d, h⟩)
  · rw [List.mem_singleton.1 hj] at hc
    rw [List.mem_singleton.1 hc] at hr
    cases hr
  · cases h with
    | column h =>
      simp only [unusedQ, List.mem_singleton, Prod.mk.injEq, Item.expr.injEq] at h
      rw [h.2] at hc
      simp only [parts, List.mem_singleton, E.col.injEq] at hc
      subst hc
      exact joinCases_plain ['a'] (by decide) _ ht
    | arg h => simp [unusedQ] at h
    | key h => cases h
    | name h => cases h
    | cond h => cases h
  · cases h
  · cases h

/-- It is refused, though its ON is as `C157_join_accepted` asks; with a column of `B` in the select list it is accepted. -/
example (py : Py) (calls : Str → List Val → Val) :
    (JoinSelect.compile py calls JoinCases.ops id 5 [unusedJoin] (unusedQ Nat)).isNone = true ∧
    (JoinSelect.compile (S := Nat) py calls JoinCases.ops id 5 [unusedJoin]
      { unusedQ Nat with cols := [(['a'], .expr (.col ['a'])), (['v'], .expr (.col ['B', '.', 'v']))] }).isSome = true :=
  ⟨rfl, rfl⟩

end Verif.Props
