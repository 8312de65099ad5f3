import Verif.Props.Total
import Verif.Props.AcceptedCases
import Verif.Props.JoinInnerCases
import Verif.Props.WinCases
/-! C158 on queries.  The other hypotheses are those of the examples for C57, C58, C65 and C132 to C136 on the same queries. -/
namespace Verif.Props
open Verif.Val Verif.Expr Verif.Sql Verif.Where Verif.Order Verif.SqlOrder Verif.Select Verif.SqlSelect
open Verif.AcceptSpec Verif.TotalSpec Verif.Proofs.JoinSelect

section
variable (text : Str → Bool) (py : Py) (calls : Str → List Val → Val)

theorem oneBatch_ok : EngineOk (oneBatch py) := ⟨rankLe_total, rankLe_trans, fun l => by simp [oneBatch]⟩

/-- `q57`, for all tables of rows with two integers. -/
example : ∃ p, compileSelect q57 = some p ∧ ∀ l : List (Int × Int),
    RowResult text py.cmp calls rankLe q57 (l.map fun x => selRow x.1 x.2) (Select.run py calls (oneBatch py) p (l.map fun x => selRow x.1 x.2)) := by
  obtain ⟨p, hp, h⟩ := C158_select_partial text py calls (oneBatch py) (oneBatch_ok py) (idealSrc_faithful py) q57
    ⟨fun e h => (by cases h), .inl (by
        intro i hi
        simp only [q57, List.mem_singleton] at hi
        subst hi
        exact ⟨['a'], by simp [names, q57], .inr ⟨_, rfl⟩⟩), fun c h => (by cases h)⟩
    (by
      intro c hc
      simp only [q57, List.mem_cons, List.not_mem_nil, or_false] at hc
      rcases hc with rfl | rfl <;> exact ⟨_, rfl, rfl⟩)
    (by decide) rfl rfl (by decide) (by intro e he; cases he)
    ⟨by intro t n d h; simp [q57] at h, by
      intro n d h _ _ _
      simp only [q57, List.mem_singleton, Prod.mk.injEq, Order.Item.col.injEq, true_and] at h
      rw [h.1]; simp [q57]⟩
  refine ⟨p, hp, fun l => h _ (whereOk_b text py calls _ q57 rfl _ ?_)⟩
  intro r hr
  obtain ⟨x, _, rfl⟩ := List.mem_map.1 hr
  exact ⟨_, _, rfl⟩

/-- `q58` has no LIMIT; with one, HAVING makes it apply to the result. -/
example : LimitsResult { q58 with limit := some 3 } := .inr (.inr (.inl (by simp [q58])))

/-- `JoinCases.q` with the INNER JOIN is accepted. -/
example : ∃ p, JoinSelect.compileJoins py calls JoinCases.ops id 5 JoinCases.ijoins JoinCases.q = some p := by
  have ha : '.' ∉ baseName ['a'] := by decide
  have hb : '.' ∉ baseName ['b'] := by decide
  have nb : ∀ c : Str, ¬ Between (.col c) := fun c ⟨_, _, _, h⟩ => by simp [parts] at h
  refine C158_inner_accepted py calls JoinCases.ops id (fun l => List.Perm.refl l) JoinCases.q JoinCases.ijoins JoinCases.innerOk ?_ ?_ ?_ ?_ 5
    (by decide)
  · intro j hj
    simp only [JoinCases.ijoins, List.mem_singleton] at hj
    subst hj
    exact joinCases_on JoinCases.joinB (by simp [JoinCases.joins])
  · refine ⟨fun e h => (by cases h), .inl ?_, fun c h => (by cases h)⟩
    intro i hi
    simp only [JoinCases.q, List.mem_singleton] at hi
    subst hi
    exact ⟨['v'], by simp [names, JoinCases.q], .inr ⟨_, rfl⟩⟩
  · intro e he
    cases he with
    | column h =>
      simp only [JoinCases.q, List.mem_cons, Prod.mk.injEq, Select.Item.expr.injEq, List.not_mem_nil, or_false] at h
      rcases h with ⟨_, rfl⟩ | ⟨_, rfl⟩
      · refine ⟨fun c t hc ht => ?_, fun h => nb _ h.1⟩
        simp [parts] at hc
        subst hc
        exact absurd ht (joinCases_plain _ ha t)
      · refine ⟨fun c t hc ht => ?_, fun h => nb _ h.1⟩
        simp [parts] at hc
        subst hc
        exact joinCases_v t ht
    | arg h => simp [JoinCases.q] at h
    | key h => cases h
    | name h => cases h
    | cond h =>
      cases h
      refine ⟨fun c t hc ht => ?_, fun h => by obtain ⟨⟨_, _, _, h⟩, _⟩ := h; simp [parts] at h⟩
      simp [parts] at hc
      subst hc
      exact absurd ht (joinCases_plain _ hb t)
  · intro e he
    cases he
    rintro ⟨_, _, _, h⟩
    simp [parts] at h

/-- `q65`. -/
example : WinOk q65 where
  having := by intro e h; cases h
  order := .inl (by
    intro i hi
    simp only [q65, List.mem_singleton] at hi
    subst hi
    exact ⟨['b'], by simp [TotalSpec.winNames, q65], .inr ⟨_, rfl⟩⟩)
  windows := by
    intro w hw n hn
    cases hw with
    | column h => simp [q65] at h; obtain ⟨_, rfl⟩ := h; cases hn; simp [q65]
    | part h hw => simp [q65] at h; obtain ⟨_, rfl, _⟩ := h; simp at hw; obtain ⟨_, rfl⟩ := hw; cases hn
  names := by
    intro w hw o ho c hc
    have : c = ['a'] ∨ c = ['b'] := by
      cases hw with
      | column h =>
        simp [q65] at h; obtain ⟨_, rfl⟩ := h
        rcases ho with ho | ⟨n, _, ho⟩
        · cases ho
        · simp [q65] at ho; obtain ⟨_, rfl⟩ := ho
          simpa using hc
      | part h hw =>
        simp [q65] at h; obtain ⟨_, rfl, _⟩ := h; simp at hw; obtain ⟨_, rfl⟩ := hw
        rcases ho with ho | ⟨n, ho, _⟩
        · cases ho; simp at hc; exact .inr hc
        · cases ho
    refine ⟨fun w' h => ?_, fun n ws e h hm => ?_⟩
    · simp [q65] at h; rcases this with rfl | rfl <;> simp at h
    · simp [q65] at h; obtain ⟨_, rfl, _⟩ := h
      rcases this with rfl | rfl <;> simp at hm

end
end Verif.Props
