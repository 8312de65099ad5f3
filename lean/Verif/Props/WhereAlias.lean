import Verif.Model.WhereAlias
import Verif.Props.SelectCases
/-! C139: names in WHERE are columns of the table. -/
namespace Verif.Props
open Verif.Val Verif.Expr Verif.Sql Verif.Where Verif.Select Verif.SqlSelect

section
variable {S : Type} (text : Str → Bool) (py : Py) (calls : Str → List Val → Val)

/-- What is left of a condition after push-down when it is a bare column: among the conditions joined by AND there is this bare column. -/
def BareIn (c : Str) : E → Prop
  | .and a b => BareIn c a ∨ BareIn c b
  | .paren a => BareIn c a
  | .col d => d = c
  | _ => False

theorem bare_res (prim : Str → Bool) (e : E) (qs : Querys) (c : Str) (h : (split prim qs e).res = some (.col c)) : BareIn c e := by
  fun_induction split prim qs e with
  | case1 qs a b l r tree iha ihb =>
    simp only at h
    split at h
    · cases h
    · next hl hr => exact Or.inr (ihb (hr.trans h))
    · next hl hr => exact Or.inl (iha (hl.trans h))
    · simp only [tree] at h; cases h
  | case2 qs op a b c t hp => cases h
  | case3 qs op a b hp => cases h
  | case4 qs a l c t hp => cases h
  | case5 qs a l hp => cases h
  | case6 qs a x ih => exact ih h
  | case7 qs e h1 h2 h3 h4 =>
    simp only [Option.some.injEq] at h
    subst h
    rfl

/-- **C139**: unless one of the conditions joined by AND in WHERE is nothing but a column with the name of a result column, the query
is compiled as `Select` says: columns in WHERE are columns of the table (and C57, C58 and C59 say what it returns). -/
theorem C139_columns_partial (q : Query S) (h : ∀ e ∈ q.cond, ∀ c, BareIn c e → c ∉ q.cols.map (·.1)) :
    compileSelectW q = compileSelect q := by
  unfold compileSelectW
  cases hp : compileSelect q with
  | none => rfl
  | some p =>
    simp only [Option.bind_some]
    split
    · rfl
    · next e he =>
      split
      · rfl
      · next r hr =>
        unfold compileSelect at hp
        obtain ⟨schema, h1, hp⟩ := Option.bind_eq_some_iff.1 hp
        obtain ⟨intercept, _, hp⟩ := Option.bind_eq_some_iff.1 hp
        obtain ⟨order, _, hp⟩ := Option.bind_eq_some_iff.1 hp
        obtain ⟨final, _, hp⟩ := Option.map_eq_some_iff.1 hp
        have hpred : p.predicate = some (compile r) := by
          rw [← hp]
          simp only [whereOf, he, compileWhere, hr, Option.map_some]
        have hcol : whereColumn schema r = some (compile r) := by
          unfold whereColumn
          split
          · next c =>
            have hb := h e he c (bare_res q.prim e [] c hr)
            have hg : Select.get c schema = none := by
              have names : ∀ (cols : List (Str × Select.Item S)) (s s' : Schema S), addCols q.group s cols = some s' →
                  c ∉ cols.map (·.1) → Select.get c s = none → Select.get c s' = none := by
                intro cols
                induction cols with
                | nil => intro s s' h _ hs; cases h; exact hs
                | cons x cols ih =>
                  intro s s' h hn hs
                  obtain ⟨s1, ha, h⟩ := Option.bind_eq_some_iff.1 h
                  simp only [List.map_cons, List.mem_cons, not_or] at hn
                  refine ih s1 s' h hn.2 ?_
                  have put_none : ∀ (v : Col S) (l : Schema S), Select.get c l = none → Select.get c (put x.1 v l) = none := by
                    intro v l
                    induction l with
                    | nil => intro _; simp [Select.put, Select.get, Ne.symm hn.1]
                    | cons y l ihl =>
                      obtain ⟨k, w⟩ := y
                      intro hl
                      simp only [Select.get] at hl
                      split at hl
                      · cases hl
                      · next hk =>
                        simp only [Select.put]
                        split
                        · next e => subst e; simp [Select.get, hk, hl]
                        · simp [Select.get, hk, ihl hl]
                  unfold addCol at ha
                  split at ha
                  · cases ha; exact put_none _ _ hs
                  · obtain ⟨k, _, rfl⟩ := Option.map_eq_some_iff.1 ha
                    exact put_none _ _ hs
              exact names q.cols [] schema h1 hb rfl
            rw [hg]
          · rfl
        rw [h1]
        rw [Option.bind_some, hcol, Option.map_some, ← hpred]

/-- `SELECT b AS a FROM t WHERE a`. -/
def qWhereAlias : Query Empty :=
  { cols := [(['a'], .expr (.col ['b']))], cond := some (.col ['a']), table := ['t'], columns := [['a'], ['b']] }

/-- **C139 is violated by a bare column with the name of a result column**: the result column is the filter.  `SELECT b AS a FROM t
WHERE a` returns the row a = 0, b = 5. -/
theorem C139_alias_violated :
    ∃ p, compileSelectW qWhereAlias = some p ∧ Select.run py calls (oneBatch py) p [selRow 0 5] = [[(['a'], .int 5)]] ∧
      ¬ RowResult text py.cmp calls rankLe qWhereAlias [selRow 0 5] (Select.run py calls (oneBatch py) p [selRow 0 5]) := by
  refine ⟨_, rfl, rfl, ?_⟩
  rintro ⟨sorted, hs, hr⟩
  have hempty : ([selRow 0 5].filter fun r => satisfies text py.cmp calls qWhereAlias.cond r &&
      satisfies text py.cmp calls qWhereAlias.having (fun n => colVal n (project text py.cmp calls qWhereAlias.cols [r]))) = [] := by rfl
  have := hs.perm
  simp only [hempty] at this
  rw [List.Perm.eq_nil this] at hr
  have hr' : [[(['a'], Val.int 5)]] = ([] : List Out) := hr
  cases hr'

/-- C139 on `SELECT b AS a FROM t WHERE a > 1` and `SELECT b FROM t WHERE a`. -/
example : compileSelectW ({ qWhereAlias with cond := some (.cmp .gt (.col ['a']) (.lit (.int 1))) } : Query Empty)
      = compileSelect { qWhereAlias with cond := some (.cmp .gt (.col ['a']) (.lit (.int 1))) } ∧
    compileSelectW ({ qWhereAlias with cols := [(['b'], .expr (.col ['b']))] } : Query Empty)
      = compileSelect { qWhereAlias with cols := [(['b'], .expr (.col ['b']))] } := by
  constructor
  · apply C139_columns_partial
    intro e he c hc
    simp only [Option.mem_def, Option.some.injEq] at he
    subst he
    cases hc
  · apply C139_columns_partial
    intro e he c hc
    simp only [qWhereAlias, Option.mem_def, Option.some.injEq] at he
    subst he
    have : ['a'] = c := hc
    rw [← this]
    decide

end
end Verif.Props
