import Verif.Props.Where
/-!
Conditions of WHERE that are calls of functions (`WHERE a LIKE 'x%'`, `WHERE NOT startswith(a, 'x')`): such a condition is treated
like the comparison `f(…) <> 0`, for which C42 is proved.
-/
namespace Verif.Props
open Verif.Val Verif.Expr Verif.Sql Verif.Where

/-- The condition with every function that is a condition itself written as a comparison, `f(…) <> 0`. -/
def tested : E → E
  | .and a b => .and (tested a) (tested b)
  | .or a b => .or (tested a) (tested b)
  | .not a => .not (tested a)
  | .paren a => .paren (tested a)
  | .call f l => .cmp .neq (.call f l) (.lit (.int 0))
  | e => e

/-- The functions that are conditions themselves never return a text. -/
def TestsOk (calls : Str → List Val → Val) : E → Prop
  | .and a b => TestsOk calls a ∧ TestsOk calls b
  | .or a b => TestsOk calls a ∧ TestsOk calls b
  | .not a => TestsOk calls a
  | .paren a => TestsOk calls a
  | .call f _ => ∀ args, NotText (calls f args)
  | _ => True

/-- No function is a condition itself. -/
def noTests : E → Bool
  | .and a b => noTests a && noTests b
  | .or a b => noTests a && noTests b
  | .not a => noTests a
  | .paren a => noTests a
  | .call _ _ => false
  | _ => true

theorem tested_noTests (e : E) (h : noTests e = true) : tested e = e := by
  fun_induction tested e with
  | case1 a b iha ihb => simp only [noTests, Bool.and_eq_true] at h; rw [iha h.1, ihb h.2]
  | case2 a b iha ihb => simp only [noTests, Bool.and_eq_true] at h; rw [iha h.1, ihb h.2]
  | case3 a ih => simp only [noTests] at h; rw [ih h]
  | case4 a ih => simp only [noTests] at h; rw [ih h]
  | case5 => simp [noTests] at h
  | case6 => rfl

theorem testsOk_noTests (calls : Str → List Val → Val) (e : E) (h : noTests e = true) : TestsOk calls e := by
  fun_induction tested e with
  | case1 a b iha ihb => simp only [noTests, Bool.and_eq_true] at h; exact ⟨iha h.1, ihb h.2⟩
  | case2 a b iha ihb => simp only [noTests, Bool.and_eq_true] at h; exact ⟨iha h.1, ihb h.2⟩
  | case3 a ih => simp only [noTests] at h; exact ih h
  | case4 a ih => simp only [noTests] at h; exact ih h
  | case5 => simp [noTests] at h
  | case6 e h1 h2 h3 h4 h5 =>
    cases e <;> first | trivial | exact absurd rfl (h1 _ _) | exact absurd rfl (h2 _ _) | exact absurd rfl (h3 _) | exact absurd rfl (h4 _) | exact absurd rfl (h5 _ _)

section
variable (text : Str → Bool) (py : Py) (calls : Str → List Val → Val) (row : Str → Val)

theorem neq_zero {v : Val} (h : NotText v) : (py.cmp .neq v (.int 0) = .null ↔ v = .null) ∧ truthy (py.cmp .neq v (.int 0)) = truthy v ∧
    tv text (py.cmp .neq v (.int 0)) = tv text v := by
  cases v with
  | str s => exact h.elim
  | null => rw [(C27_comparison_null py .neq (.int 0)).1]; simp [truthy, tv]
  | bool b => cases b <;> exact ⟨by simp [Py.cmp, Py.cmpRaw, cls, numeric, caught, ofBool], rfl, rfl⟩
  | int i =>
    by_cases e : i = 0
    · subst e; exact ⟨by simp [Py.cmp, Py.cmpRaw, cls, pyOp, pyCmp, numeric, caught, ofBool], rfl, rfl⟩
    · have : ratCmp (i : Rat) 0 ≠ .eq := by rw [Ne, ratCmp_eq_iff]; simpa using e
      have h0 : py.cmp .neq (.int i) (.int 0) = .int 1 := by
        simp [Py.cmp, Py.cmpRaw, cls, pyOp, pyCmp, numeric, caught, ofBool, Cmp.holds, this]
      rw [h0]; simp [truthy, tv, e]
  | flt q =>
    by_cases e : q = 0
    · subst e; exact ⟨by simp [Py.cmp, Py.cmpRaw, cls, pyOp, pyCmp, numeric, caught, ofBool], rfl, rfl⟩
    · have : ratCmp q 0 ≠ .eq := by rw [Ne, ratCmp_eq_iff]; exact e
      have h0 : py.cmp .neq (.flt q) (.int 0) = .int 1 := by
        simp [Py.cmp, Py.cmpRaw, cls, pyOp, pyCmp, numeric, caught, ofBool, Cmp.holds, this]
      rw [h0]; simp [truthy, tv, e]

/-- SQL regards both as the same condition. -/
theorem tested_tv (e : E) (h : TestsOk calls e) : tv text (sem text py.cmp calls row (tested e)) = tv text (sem text py.cmp calls row e) := by
  fun_induction tested e with
  | case1 a b iha ihb => simp only [sem, tv_ofTri, iha h.1, ihb h.2]
  | case2 a b iha ihb => simp only [sem, tv_ofTri, iha h.1, ihb h.2]
  | case3 a ih => simp only [sem, tv_ofTri, ih h]
  | case4 a ih => simp only [sem, ih h]
  | case5 f l => simp only [sem]; exact (neq_zero text py (h _)).2.2
  | case6 => rfl

/-- Both values are NULL, or both true, or both false. -/
def Alike (v w : Val) : Prop := (v = .null ↔ w = .null) ∧ truthy v = truthy w

theorem Alike.not {v w : Val} (h : Alike v w) : mysqlNot v = mysqlNot w := by
  unfold mysqlNot
  by_cases hv : v = .null
  · rw [if_pos hv, if_pos (h.1.1 hv)]
  · rw [if_neg hv, if_neg (fun e => hv (h.1.2 e)), h.2]

/-- And so does the program. -/
theorem tested_eval (e : E) (h : TestsOk calls e) :
    Alike (eval py calls row (compile (tested e))) (eval py calls row (compile e)) := by
  induction e using tested.induct with
  | case1 a b iha ihb =>
    have ha := iha h.1
    have hb := ihb h.2
    simp only [tested, compile, eval, ha.2]
    by_cases ht : truthy (eval py calls row (compile a)) = true
    · rw [if_pos ht, if_pos ht]; exact hb
    · rw [if_neg ht, if_neg ht]; exact ⟨Iff.rfl, rfl⟩
  | case2 a b iha ihb =>
    have ha := iha h.1
    have hb := ihb h.2
    simp only [tested, compile, eval, ha.2]
    by_cases ht : truthy (eval py calls row (compile a)) = true
    · rw [if_pos ht, if_pos ht]; exact ⟨Iff.rfl, rfl⟩
    · rw [if_neg ht, if_neg ht]; exact hb
  | case3 a ih =>
    have ha := ih h
    by_cases hi : ∃ x w, a = .is x w
    · obtain ⟨x, w, rfl⟩ := hi
      exact ⟨Iff.rfl, rfl⟩
    · have hi' : ∀ x w, tested a ≠ .is x w := by
        intro x w e
        cases a <;> simp only [tested] at e <;> first | exact hi ⟨_, _, e⟩ | (cases e)
      rw [tested, compile_not _ hi', compile_not _ (fun x w e => hi ⟨x, w, e⟩), eval, eval, ha.not]
      exact ⟨Iff.rfl, rfl⟩
  | case4 a ih => simpa only [tested, compile] using ih h
  | case5 f l =>
    simp only [tested, compile, eval]
    have := neq_zero (fun _ => true) py (h (evalL py calls row (compileL l)))
    exact ⟨this.1, this.2.1⟩
  | case6 e h1 h2 h3 h4 h5 =>
    have : tested e = e := by
      cases e <;> first | rfl | exact absurd rfl (h1 _ _) | exact absurd rfl (h2 _ _) | exact absurd rfl (h3 _) | exact absurd rfl (h4 _) | exact absurd rfl (h5 _ _)
    rw [this]; exact ⟨Iff.rfl, rfl⟩

/-- The division of both is the same. -/
theorem split_tested (prim : Str → Bool) (e : E) (qs : Querys) :
    (split prim qs (tested e)).res = (split prim qs e).res.map tested ∧
    (split prim qs (tested e)).tree = tested (split prim qs e).tree ∧
    (split prim qs (tested e)).querys = (split prim qs e).querys := by
  induction e using tested.induct generalizing qs with
  | case1 a b iha ihb =>
    obtain ⟨a1, a2, a3⟩ := iha qs
    obtain ⟨b1, b2, b3⟩ := ihb (split prim qs a).querys
    simp only [tested, split, a1, a2, a3, b1, b2, b3]
    refine ⟨?_, trivial, trivial⟩
    cases (split prim qs a).res <;> cases (split prim (split prim qs a).querys b).res <;> rfl
  | case2 a b iha ihb => exact ⟨rfl, rfl, rfl⟩
  | case3 a ih => exact ⟨rfl, rfl, rfl⟩
  | case4 a ih =>
    obtain ⟨a1, a2, a3⟩ := ih qs
    simp only [tested, split, a1, a2, a3, and_self]
  | case5 f l => exact ⟨rfl, rfl, rfl⟩
  | case6 e h1 h2 h3 h4 h5 =>
    cases e with
    | and => exact absurd rfl (h1 _ _)
    | or => exact absurd rfl (h2 _ _)
    | not => exact absurd rfl (h3 _)
    | paren => exact absurd rfl (h4 _)
    | call => exact absurd rfl (h5 _ _)
    | cmp op a b => simp only [tested, split]; split <;> simp [tested]
    | inl a l => simp only [tested, split]; split <;> simp [tested]
    | _ => exact ⟨rfl, rfl, rfl⟩

theorem split_testsOk (prim : Str → Bool) (e : E) (qs : Querys) (h : TestsOk calls e) :
    TestsOk calls (split prim qs e).tree ∧ ∀ r, (split prim qs e).res = some r → TestsOk calls r := by
  induction e using tested.induct generalizing qs with
  | case1 a b iha ihb =>
    obtain ⟨a1, a2⟩ := iha qs h.1
    obtain ⟨b1, b2⟩ := ihb (split prim qs a).querys h.2
    simp only [split]
    refine ⟨⟨a1, b1⟩, fun r hr => ?_⟩
    split at hr
    · cases hr
    · next y hx hy => cases hr; exact b2 _ hy
    · next x hx hy => cases hr; exact a2 _ hx
    · cases hr; exact ⟨a1, b1⟩
  | case2 a b iha ihb => exact ⟨h, fun r hr => by cases hr; exact h⟩
  | case3 a ih => exact ⟨h, fun r hr => by cases hr; exact h⟩
  | case4 a ih =>
    obtain ⟨a1, a2⟩ := ih qs h
    exact ⟨a1, a2⟩
  | case5 f l => exact ⟨h, fun r hr => by cases hr; exact h⟩
  | case6 e h1 h2 h3 h4 h5 =>
    cases e with
    | and => exact absurd rfl (h1 _ _)
    | or => exact absurd rfl (h2 _ _)
    | not => exact absurd rfl (h3 _)
    | paren => exact absurd rfl (h4 _)
    | call => exact absurd rfl (h5 _ _)
    | cmp op a b => simp only [split]; split <;> exact ⟨trivial, fun r hr => by cases hr <;> trivial⟩
    | inl a l => simp only [split]; split <;> exact ⟨trivial, fun r hr => by cases hr <;> trivial⟩
    | _ => exact ⟨h, fun r hr => by cases hr; exact h⟩

/-- The rows selected are the same. -/
theorem selected_tested (src : Src) (prim : Str → Bool) (e : E) (h : TestsOk calls e) :
    selected py calls src row (compileWhere prim (tested e)) = selected py calls src row (compileWhere prim e) := by
  obtain ⟨h1, _, h3⟩ := split_tested prim e []
  have h4 := (split_testsOk calls prim e [] h).2
  simp only [selected, compileWhere, h1, h3]
  cases hr : (split prim [] e).res with
  | none => rfl
  | some r =>
    simp only [Option.map_some]
    rw [(tested_eval py calls row r (h4 r hr)).2]

/-- **C42** for conditions among which there are calls of functions. -/
theorem C42_calls_partial (src : Src) (prim : Str → Bool) (hf : Faithful py src) (hrow : ∀ c, row c = row (baseName c)) (e : E)
    (hcalls : TestsOk calls e) (he : condOk (tested e) = true) (hi : inListsConst (tested e) = true) (hc : NoClash (operandCols (tested e)))
    (hs : swapsHarmless text py calls row prim (tested e)) :
    selected py calls src row (compileWhere prim e) = true ↔ tv text (sem text py.cmp calls row e) = some true := by
  rw [← selected_tested py calls row src prim e hcalls, ← tested_tv text py calls row e hcalls]
  exact C42_pushdown_partial text py calls row src prim hf hrow (tested e) he hi hc hs

end
end Verif.Props
