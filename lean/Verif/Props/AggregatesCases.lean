import Verif.Props.Aggregates
import Verif.Props.TreeFunctionsCases
/-! An example for C186. -/
namespace Verif.Props.TreeCases
open Verif.Val Verif.Expr Verif.Sql Verif.Where Verif.SqlOrder Verif.Select Verif.SqlSelect Verif.Tree Verif.SqlTree
open Verif.SqlFunctions Verif.Aggregates Verif.SqlAggregates
open Verif.Nest (Store)
open Verif.SqlNest (rowOfRecord)
open Verif.Props.TreeLemmas
open Verif.Props.Nested (LevelOk)

section
variable (text : Str → Bool) (py : Py) (same : Char → Char → Bool) (other : Str → List Val → Val)

/-- The value of the only aggregate of a column. -/
def one (l : List Val) : Val := l.headD .null

/-- `SELECT a, COUNT(b) AS n, SUM(b) AS s, MAX(b) AS m FROM t GROUP BY a`. -/
def totals : Query Name :=
  { cols := [(['a'], .expr (.col ['a'])), (['n'], .agg [(named .count, .col ['b'])] one), (['s'], .agg [(named .sum, .col ['b'])] one),
      (['m'], .agg [(named .max, .col ['b'])] one)],
    group := [.bare ['a']], table := ['t'], columns := [['a'], ['b']] }

/-- A table with an integer, a number with a fraction and NULL in one group. -/
def totalsDb : Store := fun n => if n = ['t'] then [[(['a'], .int 1), (['b'], .int 5)], [(['a'], .int 2), (['b'], .int 4)],
  [(['a'], .int 1), (['b'], .null)], [(['a'], .int 1), (['b'], .flt (5 / 2))]] else []

def totalsRun : Query State := mapQuery (fun a => program py (nameOf a)) totals

theorem result_totals : Tree.result py (Call.sqlCalls py same other) JoinCases.ops id 5 (oneBatch py) totalsDb
    (.select (.plain (totalsRun py)) (.scan ['t']) .nil) =
    some [[(['a'], .int 1), (['n'], .int 2), (['s'], .flt (15 / 2)), (['m'], .int 5)],
      [(['a'], .int 2), (['n'], .int 1), (['s'], .int 4), (['m'], .int 4)]] := by
  with_unfolding_all rfl

theorem level_totals (calls : Str → List Val → Val) (p : Select.Plan State) (env : Str → List Out) (he : env ['t'] = totalsDb ['t']) :
    LevelOk text py calls (totalsRun py) p ((env ['t']).map rowOfRecord) where
  names := show (totals.cols.map (·.1)).Nodup by decide
  limit := by simp [totalsRun, totals, mapQuery]
  cond := by rw [he]; exact whereOk_none text py calls _ (totalsRun py) rfl _
  having := by intro e he; cases he
  kind := by
    right; right
    refine ⟨Or.inl (by simp [totalsRun, totals, mapQuery]), rfl, by simp [totalsRun, totals, mapQuery], ⟨?_, ?_⟩, ?_, ?_, ?_, ?_, Or.inl rfl, ?_,
      Or.inl (by simp [totalsRun, totals, mapQuery]), ?_⟩
    · intro t n d h; simp [totalsRun, totals, mapQuery] at h
    · intro n d h; simp [totalsRun, totals, mapQuery] at h
    · intro n e h
      simp [totalsRun, totals, mapQuery, mapItem] at h
      rw [h.2]; rfl
    · intro n args final h a ha
      simp [totalsRun, totals, mapQuery, mapItem] at h
      rcases h with ⟨-, rfl, -⟩ | ⟨-, rfl, -⟩ | ⟨-, rfl, -⟩ <;> (simp at ha; rw [ha]; rfl)
    · intro e h; simp [totalsRun, totals, mapQuery] at h
    · intro c hc hx
      simp [totalsRun, totals, mapQuery] at hc
      exact ⟨[], .col ['a'], _, by rw [hc]; rfl, Or.inr (by simp)⟩
    · intro n args final h a ha
      simp [totalsRun, totals, mapQuery, mapItem] at h
      have hb : ∀ r ∈ (env ['t']).map rowOfRecord, AggSpec.NumOrNull (sem text py.cmp calls r (.col ['b'])) := by
        intro r hr
        rw [he] at hr
        simp only [totalsDb, if_true, List.map_cons, List.map_nil, List.mem_cons, List.not_mem_nil, or_false] at hr
        rcases hr with rfl | rfl | rfl | rfl
        · exact Or.inr rfl
        · exact Or.inr rfl
        · exact Or.inl rfl
        · exact Or.inr rfl
      obtain ⟨h1, -, -, h4, h5, -⟩ := C186_combine py
      rcases h with ⟨-, rfl, -⟩ | ⟨-, rfl, -⟩ | ⟨-, rfl, -⟩
      · simp at ha; rw [ha]; exact ⟨_, h1, fun _ _ => trivial⟩
      · simp at ha; rw [ha]; exact ⟨_, h4, hb⟩
      · simp at ha; rw [ha]; exact ⟨_, (h5 .max (by simp)).1, hb⟩
    · intro h
      have := h (['n'], .agg [(program py .count, .col ['b'])] one) (by simp [totalsRun, totals, mapQuery, mapItem, nameOf, named])
      simp [SqlNest.isAggregate] at this

/-- Every group has a row whose `b` is not NULL. -/
theorem totals_group (cmp : Cmp → Val → Val → Val) (sql : Str → List Val → Val) (read : List Row)
    (hr : read.Perm ((totalsDb ['t']).map rowOfRecord)) (members : List Row) (hm : members ∈ groupsOf text cmp sql totals read) :
    (∀ r ∈ members, r ['b'] = .int 5 ∨ r ['b'] = .int 4 ∨ r ['b'] = .null ∨ r ['b'] = .flt (5 / 2)) ∧
    ∃ r ∈ members, r ['b'] ≠ .null := by
  have hrows : ∀ r ∈ read, r = rowOfRecord [(['a'], .int 1), (['b'], .int 5)] ∨ r = rowOfRecord [(['a'], .int 2), (['b'], .int 4)] ∨
      r = rowOfRecord [(['a'], .int 1), (['b'], .null)] ∨ r = rowOfRecord [(['a'], .int 1), (['b'], .flt (5 / 2))] := by
    intro r h
    simpa [totalsDb] using hr.mem_iff.1 h
  refine ⟨fun r h => ?_, ?_⟩
  · rcases hrows r (FunctionsLemmas.groups_mem read members hm r h) with rfl | rfl | rfl | rfl
    · exact Or.inl rfl
    · exact Or.inr (Or.inl rfl)
    · exact Or.inr (Or.inr (Or.inl rfl))
    · exact Or.inr (Or.inr (Or.inr rfl))
  · have hg : groupsOf text cmp sql totals read =
        (GroupSpec.groupBy (read.map fun r => ([Agg.keyOf (r ['a'])], r))).map (·.2) := rfl
    rw [hg] at hm
    simp only [GroupSpec.groupBy, List.map_map, List.mem_map, Function.comp, Reduce.mem_firsts] at hm
    obtain ⟨k, ⟨r0, h0, rfl⟩, rfl⟩ := hm
    have hin : ∀ r ∈ read, Agg.keyOf (r ['a']) = Agg.keyOf (r0 ['a']) → r ∈ GroupSpec.group [Agg.keyOf (r0 ['a'])]
        (read.map fun r => ([Agg.keyOf (r ['a'])], r)) := fun r h e =>
      List.mem_map.2 ⟨(_, r), List.mem_filter.2 ⟨List.mem_map.2 ⟨r, h, rfl⟩, by simp [e]⟩, rfl⟩
    rcases hrows r0 h0 with rfl | rfl | rfl | rfl
    · exact ⟨_, hin _ h0 rfl, by intro h; cases h⟩
    · exact ⟨_, hin _ h0 rfl, by intro h; cases h⟩
    · exact ⟨_, hin (rowOfRecord [(['a'], .int 1), (['b'], .int 5)]) (hr.mem_iff.2 (by simp [totalsDb])) rfl, by intro h; cases h⟩
    · exact ⟨_, hin _ h0 rfl, by intro h; cases h⟩

theorem int_sum (l : List Val) (h : ∀ v ∈ AggSpec.nonNull l, ∃ j, v = .int j) : ∃ i : Int, (i : Rat) = AggSpec.total (AggSpec.numbers l) := by
  induction l with
  | nil => exact ⟨0, rfl⟩
  | cons v l ih =>
    obtain ⟨i, hi⟩ := ih fun w hw => h w (by rw [AggregatesLemmas.nonNull_cons]; split <;> simp [hw])
    by_cases hv : v = .null
    · subst hv; exact ⟨i, hi⟩
    · obtain ⟨j, rfl⟩ := h v (by rw [AggregatesLemmas.nonNull_cons, if_neg hv]; simp)
      refine ⟨j + i, ?_⟩
      rw [Rat.intCast_add, hi]
      rfl

theorem within_totals (cmp : Cmp → Val → Val → Val) (sql : Str → List Val → Val) (agg : Aggregates.Name → List Val → Val) (le : Val → Val → Bool)
    (o : Join.Ops Val) : TreeAggWithin text cmp sql le o agg totalsDb (.select (.plain totals) (.scan ['t']) .nil) := by
  simp only [TreeAggWithin, TreesAggWithin, true_and]
  rintro rows others h -
  rw [mapRel, Means] at h
  subst h
  intro n args final h a ha read hr members hm
  rw [show (((totalsDb ['t']).map rowOfRecord).filter (satisfies text cmp sql totals.cond)) = (totalsDb ['t']).map rowOfRecord from
    List.filter_eq_self.2 fun _ _ => rfl] at hr
  obtain ⟨hb, r0, hr0, hn0⟩ := totals_group text cmp sql read hr members hm
  have hin : ∀ v ∈ AggSpec.nonNull (members.map fun r => r ['b']), v = .int 5 ∨ v = .int 4 ∨ v = .flt (5 / 2) := by
    intro v hv
    unfold AggSpec.nonNull at hv
    obtain ⟨h1, h2⟩ := List.mem_filter.1 hv
    obtain ⟨r, hr, rfl⟩ := List.mem_map.1 h1
    rcases hb r hr with h | h | h | h
    · exact Or.inl h
    · exact Or.inr (Or.inl h)
    · simp [h] at h2
    · exact Or.inr (Or.inr h)
  have hmem : r0 ['b'] ∈ AggSpec.nonNull (members.map fun r => r ['b']) := by
    unfold AggSpec.nonNull
    exact List.mem_filter.2 ⟨List.mem_map.2 ⟨r0, hr0, rfl⟩, by simp [hn0]⟩
  simp [totals] at h
  rcases h with ⟨-, rfl, -⟩ | ⟨-, rfl, -⟩ | ⟨-, rfl, -⟩ <;> (simp only [List.mem_singleton] at ha; subst ha)
  · exact ⟨_, .count (by intro h0; rw [List.map_eq_nil_iff.1 h0] at hr0; simp at hr0)⟩
  · by_cases hq : Val.flt (5 / 2) ∈ members.map fun r => r ['b']
    · refine ⟨_, .sum_fraction (fun v hv => ?_) hq⟩
      rcases hin v hv with rfl | rfl | rfl
      · exact ⟨_, .int 5⟩
      · exact ⟨_, .int 4⟩
      · exact ⟨_, .flt _⟩
    · have hj : ∀ v ∈ AggSpec.nonNull (members.map fun r => r ['b']), ∃ j, v = .int j := by
        intro v hv
        rcases hin v hv with rfl | rfl | rfl
        · exact ⟨_, rfl⟩
        · exact ⟨_, rfl⟩
        · unfold AggSpec.nonNull at hv
          exact absurd (List.mem_filter.1 hv).1 hq
      obtain ⟨i, hi⟩ := int_sum _ hj
      exact ⟨_, .sum hj (List.ne_nil_of_mem hmem) hi⟩
  · have l54 : Less (.int 4) (.int 5) := .num (.int 4) (.int 5) (by decide)
    have l55 : Less (.flt (5 / 2)) (.int 5) := .num (.flt _) (.int 5) (by decide +kernel)
    have l45 : Less (.flt (5 / 2)) (.int 4) := .num (.flt _) (.int 4) (by decide +kernel)
    by_cases h5 : Val.int 5 ∈ AggSpec.nonNull (members.map fun r => r ['b'])
    · refine ⟨_, .max h5 (fun w hw => ?_) (Or.inl ⟨_, .int 5⟩)⟩
      rcases hin w hw with rfl | rfl | rfl
      · exact Or.inl rfl
      · exact Or.inr l54
      · exact Or.inr l55
    · by_cases h4 : Val.int 4 ∈ AggSpec.nonNull (members.map fun r => r ['b'])
      · refine ⟨_, .max h4 (fun w hw => ?_) (Or.inl ⟨_, .int 4⟩)⟩
        rcases hin w hw with rfl | rfl | rfl
        · exact absurd hw h5
        · exact Or.inl rfl
        · exact Or.inr l45
      · refine ⟨_, .max hmem (fun w hw => ?_) ?_⟩
        · rcases hin w hw with rfl | rfl | rfl
          · exact absurd hw h5
          · exact absurd hw h4
          · rcases hin _ hmem with h | h | h
            · rw [h] at hmem; exact absurd hmem h5
            · rw [h] at hmem; exact absurd hmem h4
            · exact Or.inl h.symm
        · rcases hin _ hmem with h | h | h <;> rw [h]
          · exact Or.inl ⟨_, .int 5⟩
          · exact Or.inl ⟨_, .int 4⟩
          · exact Or.inl ⟨_, .flt _⟩

/-- C186 on `totals`. -/
example (cmp : Cmp → Val → Val → Val) (hcmp : ImplementsCmp cmp) (sql : Str → List Val → Val) (hsql : Implements same sql)
    (agg : Aggregates.Name → List Val → Val) (hagg : ImplementsAgg agg) :
    ∃ out, Tree.result py (Call.sqlCalls py same other) JoinCases.ops id 5 (oneBatch py) totalsDb
      (mapRel (fun a => program py (nameOf a)) (.select (.plain totals) (.scan ['t']) .nil)) = some out ∧
    Means text cmp sql rankLe JoinCases.ops totalsDb (mapRel (standard agg) (.select (.plain totals) (.scan ['t']) .nil)) out := by
  refine ⟨_, result_totals py same other, ?_⟩
  apply C186_tree_partial py same other text JoinCases.ops id 5 cmp hcmp sql hsql agg hagg JoinCases.opsSym (fun l => List.Perm.refl l)
    (oneBatch py) rankLe_total rankLe_trans (idealSrc_faithful py) ?_ (.select (.plain totals) (.scan ['t']) .nil) totalsDb _ (result_totals py same other)
  · simp [SqlTree.Scoped, Scopeds, Apart, SqlTree.bound, bounds, frees]
  · simp [SqlTree.Aligned, Aligneds]
  · simp only [mapRel, mapRels, Ok, Oks, true_and]
    intro rows others h _
    rw [Means] at h
    subst h
    intro p hp
    exact level_totals text py _ p totalsDb rfl
  · intro n hn
    simp [SqlTree.bound, bounds] at hn
  · simp only [mapRel, mapRels, TreeWithin, TreesWithin, true_and]
    intro rows others h _
    refine ⟨?_, ?_⟩
    · intro e he r hr
      cases he with
      | column h =>
        simp [totals, mapQuery, mapItem] at h
        rw [h.2]; trivial
      | arg h ha =>
        simp [totals, mapQuery, mapItem] at h
        rcases h with ⟨-, rfl, -⟩ | ⟨-, rfl, -⟩ | ⟨-, rfl, -⟩ <;> (simp at ha; rw [ha]; trivial)
      | key h => simp [totals, mapQuery] at h
      | name h => trivial
      | cond h => cases h
    · intro e he; cases he
  · exact within_totals text cmp sql agg rankLe _
  · intro l
    simp [oneBatch]

end
end Verif.Props.TreeCases
