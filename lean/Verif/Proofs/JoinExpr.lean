import Verif.Proofs.JoinSelect
import Verif.Props.JoinMulti
namespace Verif.Proofs.JoinSelect
open Verif.Val Verif.Expr Verif.Where Verif.Reduce Verif.Select

/-! ## A compiled expression depends on its columns only -/

mutual
/-- The columns of a compiled expression. -/
def colsT : T → List Str
  | .const _ => []
  | .col c => [c]
  | .cmp _ a b => colsT a ++ colsT b
  | .not a => colsT a
  | .is a b => colsT a ++ colsT b
  | .isNot a b => colsT a ++ colsT b
  | .inn a l => colsT a ++ colsTL l
  | .isNull a => colsT a
  | .iff c t f => colsT c ++ colsT t ++ colsT f
  | .between k lo hi => colsT k ++ colsT lo ++ colsT hi
  | .caseD a d => colsT a ++ colsD d
  | .call _ l => colsTL l
def colsTL : TL → List Str
  | .nil => []
  | .cons t l => colsT t ++ colsTL l
def colsD : DL → List Str
  | .fin t => colsT t
  | .cons _ t d => colsT t ++ colsD d
end

section
variable (py : Py) (calls : Str → List Val → Val) (f g : Str → Val)

mutual
theorem eval_congr : ∀ t : T, (∀ c ∈ colsT t, f c = g c) → eval py calls f t = eval py calls g t
  | .const _, _ => rfl
  | .col c, h => h c (by simp [colsT])
  | .cmp _ a b, h => by rw [eval, eval, eval_congr a fun c hc => h c (by simp [colsT, hc]), eval_congr b fun c hc => h c (by simp [colsT, hc])]
  | .not a, h => by rw [eval, eval, eval_congr a fun c hc => h c (by simp [colsT, hc])]
  | .is a b, h => by rw [eval, eval, eval_congr a fun c hc => h c (by simp [colsT, hc]), eval_congr b fun c hc => h c (by simp [colsT, hc])]
  | .isNot a b, h => by rw [eval, eval, eval_congr a fun c hc => h c (by simp [colsT, hc]), eval_congr b fun c hc => h c (by simp [colsT, hc])]
  | .inn a l, h => by rw [eval, eval, eval_congr a fun c hc => h c (by simp [colsT, hc]), evalL_congr l fun c hc => h c (by simp [colsT, hc])]
  | .isNull a, h => by rw [eval, eval, eval_congr a fun c hc => h c (by simp [colsT, hc])]
  | .iff c t e, h => by
    rw [eval, eval, eval_congr c fun x hc => h x (by simp [colsT, hc]), eval_congr t fun x hc => h x (by simp [colsT, hc]),
      eval_congr e fun x hc => h x (by simp [colsT, hc])]
  | .between c t e, h => by
    rw [eval, eval, eval_congr c fun x hc => h x (by simp [colsT, hc]), eval_congr t fun x hc => h x (by simp [colsT, hc]),
      eval_congr e fun x hc => h x (by simp [colsT, hc])]
  | .caseD a d, h => by rw [eval, eval, eval_congr a fun c hc => h c (by simp [colsT, hc]), evalD_congr d _ fun c hc => h c (by simp [colsT, hc])]
  | .call _ l, h => by rw [eval, eval, evalL_congr l fun c hc => h c (by simpa [colsT] using hc)]
theorem evalL_congr : ∀ l : TL, (∀ c ∈ colsTL l, f c = g c) → evalL py calls f l = evalL py calls g l
  | .nil, _ => rfl
  | .cons t l, h => by rw [evalL, evalL, eval_congr t fun c hc => h c (by simp [colsTL, hc]), evalL_congr l fun c hc => h c (by simp [colsTL, hc])]
theorem evalD_congr : ∀ (d : DL) (v : Val), (∀ c ∈ colsD d, f c = g c) → evalD py calls f v d = evalD py calls g v d
  | .fin t, _, h => by rw [evalD, evalD, eval_congr t fun c hc => h c (by simpa [colsD] using hc)]
  | .cons _ t d, v, h => by rw [evalD, evalD, eval_congr t fun c hc => h c (by simp [colsD, hc]), evalD_congr d v fun c hc => h c (by simp [colsD, hc])]
end
end

theorem colsD_put (k : Val) (t : T) (d : DL) (c : Str) (h : c ∈ colsD (d.put k t)) : c ∈ colsT t ∨ c ∈ colsD d := by
  induction d using DL.put.induct k with
  | case1 e => simpa [DL.put, colsD] using h
  | case2 t' d => simp only [DL.put, if_true, colsD, List.mem_append] at h ⊢; rcases h with h | h <;> simp [h]
  | case3 k' t' d hk ih =>
    simp only [DL.put, if_neg hk, colsD, List.mem_append] at h ⊢
    rcases h with h | h
    · simp [h]
    · rcases ih h with h | h <;> simp [h]

mutual
theorem colsT_compile : ∀ (e : E) (c : Str), c ∈ colsT (compile e) → c ∈ colsE e
  | .lit _, c, h => by simp [compile, colsT] at h
  | .col _, c, h => by simpa [compile, colsT, colsE] using h
  | .cmp _ a b, c, h => by
    simp only [compile, colsT, colsE, List.mem_append] at h ⊢
    exact h.imp (colsT_compile a c) (colsT_compile b c)
  | .and a b, c, h => by
    simp only [compile, colsT, colsE, List.mem_append, List.not_mem_nil, or_false] at h ⊢
    exact h.imp (colsT_compile a c) (colsT_compile b c)
  | .or a b, c, h => by
    simp only [compile, colsT, colsE, List.mem_append, List.not_mem_nil, or_false] at h ⊢
    exact h.imp (colsT_compile a c) (colsT_compile b c)
  | .not a, c, h => by
    have hn : ∀ w, c ∈ colsT (compile (.is a w)) → c ∈ colsE a := fun w h => by
      simp only [compile, colsT, List.mem_append, List.not_mem_nil, or_false] at h
      exact colsT_compile a c h
    cases a with
    | is a w =>
      have := colsT_compile (.is a w) c
      simp only [compile, colsT, colsE] at h this ⊢
      exact this h
    | _ => simp only [compile, colsT] at h; rw [colsE]; exact colsT_compile _ c h
  | .is a _, c, h => by
    simp only [compile, colsT, colsE, List.mem_append, List.not_mem_nil, or_false] at h ⊢
    exact colsT_compile a c h
  | .inl a l, c, h => by
    simp only [compile, colsT, colsE, List.mem_append] at h ⊢
    exact h.imp (colsT_compile a c) (colsTL_compile l c)
  | .between a lo hi, c, h => by
    simp only [compile, colsT, colsE, List.mem_append] at h ⊢
    exact h.imp (Or.imp (colsT_compile a c) (colsT_compile lo c)) (colsT_compile hi c)
  | .paren a, c, h => by
    simp only [compile, colsE] at h ⊢
    exact colsT_compile a c h
  | .ite a lo hi, c, h => by
    simp only [compile, colsT, colsE, List.mem_append] at h ⊢
    exact h.imp (Or.imp (colsT_compile a c) (colsT_compile lo c)) (colsT_compile hi c)
  | .ifnull a b, c, h => by
    simp only [compile, colsT, colsE, List.mem_append] at h ⊢
    rcases h with (h | h) | h
    · exact Or.inl (colsT_compile a c h)
    · exact Or.inr (colsT_compile b c h)
    · exact Or.inl (colsT_compile a c h)
  | .coalesce a l, c, h => by
    simp only [compile, colsT, colsE, List.mem_append] at h ⊢
    rcases h with (h | h) | h
    · exact Or.inl (colsT_compile a c h)
    · exact Or.inr (colsT_coalesce l c h)
    · exact Or.inl (colsT_compile a c h)
  | .caseC ws, c, h => by
    simp only [compile, colsE] at h ⊢
    exact (colsT_whens ws none c h).resolve_left fun ⟨a, ha, _⟩ => by cases ha
  | .caseV a ws, c, h => by
    simp only [compile, colsE, List.mem_append] at h ⊢
    split at h
    · simp only [colsT, List.mem_append] at h
      refine h.imp (colsT_compile a c) fun h => ?_
      rcases colsT_dict ws _ c h with h | h
      · exact h
      · exact colsT_end ws c (by simpa [colsD] using h)
    · rcases colsT_whens ws _ c h with ⟨t, ht, h⟩ | h
      · cases ht; exact Or.inl (colsT_compile a c h)
      · exact Or.inr h
  | .call _ l, c, h => by
    simp only [compile, colsT, colsE] at h ⊢
    exact colsTL_compile l c h
theorem colsTL_compile : ∀ (l : EL) (c : Str), c ∈ colsTL (compileL l) → c ∈ colsEL l
  | .nil, c, h => by simp [compileL, colsTL] at h
  | .cons e l, c, h => by
    simp only [compileL, colsTL, colsEL, List.mem_append] at h ⊢
    exact h.imp (colsT_compile e c) (colsTL_compile l c)
theorem colsT_coalesce : ∀ (l : EL) (c : Str), c ∈ colsT (compileCoalesce l) → c ∈ colsEL l
  | .nil, c, h => by simp [compileCoalesce, colsT] at h
  | .cons e .nil, c, h => by
    simp only [compileCoalesce, colsEL, List.mem_append, List.not_mem_nil, or_false] at h ⊢
    exact colsT_compile e c h
  | .cons e (.cons e' l), c, h => by
    have := colsT_coalesce (.cons e' l) c
    simp only [compileCoalesce, colsT, List.mem_append] at h
    rw [colsEL, List.mem_append]
    rcases h with (h | h) | h
    · exact Or.inl (colsT_compile e c h)
    · exact Or.inr (this h)
    · exact Or.inl (colsT_compile e c h)
theorem colsT_whens : ∀ (ws : WL) (v : Option T) (c : Str), c ∈ colsT (compileWhens v ws) → (∃ t, v = some t ∧ c ∈ colsT t) ∨ c ∈ colsWL ws
  | .noElse, _, c, h => by simp [compileWhens, colsT] at h
  | .els e, _, c, h => by
    simp only [compileWhens, colsWL] at h ⊢
    exact Or.inr (colsT_compile e c h)
  | .when a t ws, v, c, h => by
    simp only [compileWhens, colsT, colsWL, List.mem_append] at h ⊢
    rcases h with (h | h) | h
    · cases v with
      | none => exact Or.inr (Or.inl (Or.inl (colsT_compile a c h)))
      | some u =>
        simp only [colsT, List.mem_append] at h
        rcases h with h | h
        · exact Or.inl ⟨u, rfl, h⟩
        · exact Or.inr (Or.inl (Or.inl (colsT_compile a c h)))
    · exact Or.inr (Or.inl (Or.inr (colsT_compile t c h)))
    · exact (colsT_whens ws v c h).imp id Or.inr
theorem colsT_end : ∀ (ws : WL) (c : Str), c ∈ colsT (endOf ws) → c ∈ colsWL ws
  | .noElse, c, h => by simp [endOf, colsT] at h
  | .els e, c, h => by
    simp only [endOf, colsWL] at h ⊢
    exact colsT_compile e c h
  | .when a t ws, c, h => by
    simp only [endOf, colsWL, List.mem_append] at h ⊢
    exact Or.inr (colsT_end ws c h)
theorem colsT_dict : ∀ (ws : WL) (d : DL) (c : Str), c ∈ colsD (compileDict d ws) → c ∈ colsWL ws ∨ c ∈ colsD d
  | .noElse, _, c, h => by simp only [compileDict] at h; exact Or.inr h
  | .els e, _, c, h => by simp only [compileDict] at h; exact Or.inr h
  | .when a t ws, d, c, h => by
    simp only [compileDict, colsWL, List.mem_append] at h ⊢
    rcases colsT_dict ws _ c h with h | h
    · exact Or.inl (Or.inr h)
    · rcases colsD_put _ _ d c h with h | h
      · exact Or.inl (Or.inl (Or.inr (colsT_compile t c h)))
      · exact Or.inr h
end

theorem assign_map (f : Str → Val) (l : List Str) (c : Str) (h : c ∈ l) : JoinSelect.assign l (l.map f) c = f c := by
  induction l with
  | nil => cases h
  | cons n l ih =>
    rw [List.map_cons, JoinSelect.assign]
    split
    · next e => rw [e]
    · next e => exact ih ((List.mem_cons.1 h).resolve_left (Ne.symm e))

/-- What an expression is compiled to has the value of the expression on the row of the joins. -/
theorem exprX_eval (py : Py) (calls : Str → List Val → Val) (primary : Join.Name) (e : Join.Env Val) (x : E) :
    Join.evalX (Join.refVal primary e) (JoinSelect.exprX py calls x) = eval py calls (SqlSelect.joinedRow primary e) (compile x) := by
  rw [JoinSelect.exprX, Join.evalX, List.map_map]
  refine eval_congr py calls _ _ _ fun c hc => ?_
  exact assign_map _ _ c (colsT_compile x c hc)

end Verif.Proofs.JoinSelect
