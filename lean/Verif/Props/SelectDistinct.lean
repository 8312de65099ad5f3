import Verif.Props.SelectGroup
/-! C59: SELECT DISTINCT. -/
namespace Verif.Props
open Verif.Val Verif.Expr Verif.Sql Verif.Where Verif.Order Verif.SqlOrder Verif.Select Verif.SqlSelect Verif.Reduce Verif.GroupSpec

section
variable {S : Type} (text : Str → Bool) (py : Py) (calls : Str → List Val → Val)

/-- The expression of a column that is not an aggregate. -/
def exprOf : Select.Item S → E
  | .expr e => e
  | .agg _ _ => .lit .null

/-- DISTINCT as GROUP BY. -/
def asGroup (q : Query S) : Query S := { q with group := q.cols.map fun c => .expr (exprOf c.2), distinct := false }

theorem addCols_exprs (g g' : List GKey) (cols : List (Str × Select.Item S)) (h : ∀ c ∈ cols, isAgg c.2 = false) (s : Schema S) :
    addCols g s cols = addCols g' s cols := by
  induction cols generalizing s with
  | nil => rfl
  | cons c cols ih =>
    obtain ⟨n, it⟩ := c
    cases it with
    | agg _ _ => have := h _ (List.mem_cons_self ..); simp [isAgg] at this
    | expr e =>
      simp only [addCols, addCol, Option.bind_some]
      exact ih (fun c hc => h c (by simp [hc])) _

theorem keyCols_exprs (s : Schema S) (es : List E) : keyCols s (es.map .expr) = some (es.map Expr.compile) := by
  induction es with
  | nil => rfl
  | cons e es ih => simp [keyCols, keyCol, ih]

theorem compile_asGroup (q : Query S) (h : ∀ c ∈ q.cols, isAgg c.2 = false) (hn : (q.cols.map (·.1)).Nodup) (hg : q.group = [])
    (hd : q.distinct = true) : compileSelect q = compileSelect (asGroup q) := by
  have hadd : addCols q.group [] q.cols = addCols (asGroup q).group [] q.cols := addCols_exprs _ _ _ h []
  have hwhere : whereOf q = whereOf (asGroup q) := rfl
  cases hs : addCols q.group [] q.cols with
  | none => simp only [compileSelect, ← hadd, show (asGroup q).cols = q.cols from rfl, hs, Option.bind_none]
  | some schema =>
    have hb := built_of_addCols q.group q.cols [] schema (by simpa using hn) hs
    have hsc := hb.exprs (fun c hc => by
      obtain ⟨n, it⟩ := c
      cases it with
      | expr e => exact ⟨e, rfl⟩
      | agg _ _ => have := h _ hc; simp [isAgg] at this)
    rw [List.nil_append] at hsc
    have hagg : aggNames schema = [] := by
      apply aggNames_calc
      intro c hc
      rw [hsc, List.mem_map] at hc
      obtain ⟨⟨n, it⟩, _, rfl⟩ := hc
      cases it <;> exact ⟨_, rfl⟩
    have hfin : finish q schema = finish (asGroup q) schema := by
      simp only [finish, hagg, List.isEmpty_nil, if_true, hg, Bool.not_true, Bool.false_eq_true, if_false, hd]
      have hkey : distinctKey schema = q.cols.map fun c => Expr.compile (exprOf c.2) := by
        rw [hsc, distinctKey, List.filterMap_map, ← List.filterMap_eq_map]
        congr 1
        funext c
        obtain ⟨n, it⟩ := c
        cases it <;> rfl
      have hkey' : keyCols schema (asGroup q).group = some (q.cols.map fun c => Expr.compile (exprOf c.2)) := by
        have := keyCols_exprs schema (q.cols.map fun c => exprOf c.2)
        rw [List.map_map, List.map_map] at this
        exact this
      rw [hkey, hkey']
      cases hc : q.cols with
      | nil =>
        rw [hc] at hsc
        simp only [asGroup, hc, hsc]
        cases q.outKey <;> rfl
      | cons c cols =>
        simp only [asGroup, hc, List.map_cons, List.isEmpty_cons, Bool.not_false, if_true, Option.map_some]
    simp only [compileSelect, ← hadd, show (asGroup q).cols = q.cols from rfl, hs, Option.bind_some]
    rw [show (asGroup q).having = q.having from rfl, hwhere, hfin]
    rfl

/-- Values of a column that Python takes to be equal are the same value (not so for 1 and 1.0). -/
def Distinguishable (q : Query S) (rows : List Row) : Prop :=
  ∀ n e, (n, Select.Item.expr e) ∈ q.cols → ∀ r ∈ rows, ∀ r' ∈ rows,
    Agg.keyOf (sem text py.cmp calls r e) = Agg.keyOf (sem text py.cmp calls r' e) → sem text py.cmp calls r e = sem text py.cmp calls r' e

/-- **C59**: SELECT DISTINCT returns every row of the result once, in the order of ORDER BY, and of these the part LIMIT and OFFSET ask
for. -/
theorem C59_distinct_partial (en : Engine) (ht : ∀ x y, en.le x y = true ∨ en.le y x = true)
    (htr : ∀ x y z, en.le x y = true → en.le y z = true → en.le x z = true) (hf : Faithful py en.src)
    (hchunk : ∀ l, (en.chunk l).flatMap (·.1) = l) (q : Query S) (p : Plan S) (hp : compileSelect q = some p)
    (hcols : ∀ c ∈ q.cols, ∃ e, c.2 = .expr e ∧ scalarOk e = true) (hnames : (q.cols.map (·.1)).Nodup) (hne : q.cols ≠ [])
    (hg : q.group = []) (hd : q.distinct = true) (hl : q.limit ≠ some 0)
    (hlim : q.limit = none ∨ p.predicate.isSome ∨ p.intercept.isSome ∨ p.sort.isSome)
    (rows : List Row) (hw : WhereOk text py calls q rows) (hh : ∀ e ∈ q.having, havingOk e = true)
    (hdist : Distinguishable text py calls q rows) (ho : GroupOrderOk q) :
    DistinctResult text py.cmp calls en.le q rows (Select.run py calls en p rows) := by
  have hagg : ∀ c ∈ q.cols, isAgg c.2 = false := by
    intro c hc
    obtain ⟨e, he, _⟩ := hcols c hc
    rw [he]; rfl
  have hexpr : ∀ n e, (n, Select.Item.expr e) ∈ q.cols → scalarOk e = true := by
    intro n e h
    obtain ⟨e', he', hs⟩ := hcols _ h
    cases he'; exact hs
  rw [compile_asGroup q hagg hnames hg hd] at hp
  have hgroup : ∀ r, ((asGroup q).group.map fun g => Agg.keyOf (groupValue text py.cmp calls (asGroup q).cols g r)) =
      q.cols.map fun c => Agg.keyOf (sem text py.cmp calls r (exprOf c.2)) := by
    intro r
    simp only [asGroup, List.map_map]
    exact List.map_congr_left fun c _ => rfl
  have hsem : ∀ r ∈ rows, ∀ r' ∈ rows,
      (q.cols.map fun c => Agg.keyOf (sem text py.cmp calls r (exprOf c.2))) = (q.cols.map fun c => Agg.keyOf (sem text py.cmp calls r' (exprOf c.2))) →
      ∀ n e, (n, Select.Item.expr e) ∈ q.cols → sem text py.cmp calls r e = sem text py.cmp calls r' e := by
    intro r hr r' hr' h n e he
    apply hdist n e he r hr r' hr'
    rw [List.map_inj_left] at h
    exact h _ he
  have hdep : Dependent text py calls (asGroup q) rows := by
    intro n e he r hr r' hr' h
    rw [hgroup, hgroup] at h
    exact hsem r hr r' hr' h n e he
  have hres := C58_grouped_partial text py calls en ht htr hf hchunk (asGroup q) p hp hexpr
    (by
      intro n args final h
      have := hagg _ h
      simp [isAgg] at this)
    (by
      intro e he
      simp only [asGroup, List.mem_map, GKey.expr.injEq] at he
      obtain ⟨⟨n, it⟩, hc, rfl⟩ := he
      obtain ⟨e, he, hs⟩ := hcols _ hc
      simp only at he
      rw [he]; exact hs)
    hnames hne (Or.inl (by simpa [asGroup] using hne))
    (by
      intro c hc
      simp [asGroup] at hc)
    hl
    (by
      rcases hlim with h | h
      · exact Or.inl h
      · exact Or.inr (Or.inr h))
    rows ⟨hw.tests, hw.shape, hw.swaps, hw.typed⟩ hh
    (by
      intro n args final h
      have := hagg _ h
      simp [isAgg] at this)
    (Or.inl (by simpa [asGroup] using hne)) (fun _ => hdep) ⟨ho.qualified, ho.bare⟩
  obtain ⟨members, sorted, hperm, _, hsp, hpw, hr⟩ := hres
  have hmem : ∀ r, r ∈ members ↔ r ∈ rows ∧ satisfies text py.cmp calls q.cond r = true := by
    intro r
    rw [hperm.mem_iff, List.mem_filter]
    exact Iff.rfl
  have hgroups : groupsOf text py.cmp calls (asGroup q) members =
      (firsts (members.map fun r => q.cols.map fun c => Agg.keyOf (sem text py.cmp calls r (exprOf c.2)))).map fun k =>
        members.filter fun r => decide ((q.cols.map fun c => Agg.keyOf (sem text py.cmp calls r (exprOf c.2))) = k) := by
    rw [groupsOf, if_neg (by simpa [asGroup] using hne), groupBy_map_key]
    simp only [hgroup]
  -- the row of a group is the row of each of its members
  have hrow : ∀ k, ∀ r ∈ members, (q.cols.map fun c => Agg.keyOf (sem text py.cmp calls r (exprOf c.2))) = k →
      project text py.cmp calls q.cols (members.filter fun r => decide ((q.cols.map fun c => Agg.keyOf (sem text py.cmp calls r (exprOf c.2))) = k)) =
        project text py.cmp calls q.cols [r] := by
    intro k r hr hk
    have hne' : members.filter (fun r => decide ((q.cols.map fun c => Agg.keyOf (sem text py.cmp calls r (exprOf c.2))) = k)) ≠ [] :=
      List.ne_nil_of_mem (a := r) (List.mem_filter.2 ⟨hr, by rw [decide_eq_true_iff]; exact hk⟩)
    have hhd := List.head?_eq_some_head hne'
    have hin := List.mem_filter.1 (List.head_mem hne')
    have hk' := hin.2
    rw [decide_eq_true_iff] at hk'
    rw [project, project]
    refine List.map_congr_left fun c hc => ?_
    obtain ⟨e, he, _⟩ := hcols c hc
    obtain ⟨n, it⟩ := c
    simp only at he
    subst he
    simp only [hhd, List.head?_cons]
    congr 1
    exact hsem _ ((hmem _).1 hin.1).1 r ((hmem r).1 hr).1 (hk'.trans hk.symm) n e hc
  -- the key of a row can be read off it
  have hkey : ∀ r, ((project text py.cmp calls q.cols [r]).map fun x => Agg.keyOf x.2) = q.cols.map fun c => Agg.keyOf (sem text py.cmp calls r (exprOf c.2)) := by
    intro r
    rw [project, List.map_map]
    refine List.map_congr_left fun c hc => ?_
    obtain ⟨e, he, _⟩ := hcols c hc
    simp only [Function.comp, he, List.head?_cons, exprOf]
  refine ⟨sorted, ?_, ?_, hpw, hr⟩
  · rw [hsp.nodup_iff]
    refine List.Pairwise.sublist List.filter_sublist ?_
    rw [hgroups, List.map_map, List.pairwise_map]
    refine (nodup_firsts _).imp_of_mem ?_
    intro k k' hk hk' hne' heq
    rw [mem_firsts, List.mem_map] at hk hk'
    obtain ⟨r, hr, hrk⟩ := hk
    obtain ⟨r', hr', hrk'⟩ := hk'
    apply hne'
    simp only [Function.comp] at heq
    have h1 := hrow k r hr hrk
    have h2 := hrow k' r' hr' hrk'
    have heq' : project text py.cmp calls q.cols [r] = project text py.cmp calls q.cols [r'] := h1.symm.trans (heq.trans h2)
    rw [← hrk, ← hrk', ← hkey, ← hkey, heq']
  · intro o
    rw [hsp.mem_iff, List.mem_filter, List.mem_map]
    constructor
    · rintro ⟨⟨g, hg, rfl⟩, hhv⟩
      rw [hgroups, List.mem_map] at hg
      obtain ⟨k, hk, rfl⟩ := hg
      rw [mem_firsts, List.mem_map] at hk
      obtain ⟨r, hr, hrk⟩ := hk
      have h1 := hrow k r hr hrk
      have hproj : project text py.cmp calls (asGroup q).cols = project text py.cmp calls q.cols := rfl
      rw [hproj] at hhv ⊢
      rw [h1] at hhv ⊢
      exact ⟨r, ((hmem r).1 hr).1, ((hmem r).1 hr).2, hhv, rfl⟩
    · rintro ⟨r, hr, hc, hhv, rfl⟩
      have hrm := (hmem r).2 ⟨hr, hc⟩
      refine ⟨⟨members.filter fun r' => decide ((q.cols.map fun c => Agg.keyOf (sem text py.cmp calls r' (exprOf c.2))) =
          q.cols.map fun c => Agg.keyOf (sem text py.cmp calls r (exprOf c.2))), ?_, ?_⟩, hhv⟩
      · rw [hgroups, List.mem_map]
        exact ⟨_, (mem_firsts _ _).2 (List.mem_map.2 ⟨r, hrm, rfl⟩), rfl⟩
      · exact hrow _ r hrm rfl

end
end Verif.Props
