import Verif.Props.AggregatesCases
/-! A second example for C186: a sum over a window. -/
namespace Verif.Props.TreeCases
open Verif.Val Verif.Expr Verif.Sql Verif.Where Verif.SqlOrder Verif.Select Verif.SqlSelect Verif.Tree Verif.SqlTree
open Verif.SqlFunctions Verif.Aggregates Verif.SqlAggregates
open Verif.Nest (Store)
open Verif.SqlNest (rowOfRecord)
open Verif.Props.TreeLemmas
open Verif.WinSelect (WinQueryOk Plain hiddenOf winsOf)

section
variable (text : Str → Bool) (py : Py) (same : Char → Char → Bool) (other : Str → List Val → Val)

/-- `SUM(b) OVER (PARTITION BY a ORDER BY b)`. -/
def runningWin : WinSelect.Win Aggregates.Name :=
  ⟨.agg (named .sum), .inline ⟨[.bare ['a']], [(.bare ['b'], false)]⟩, .exprs [.col ['b']]⟩

/-- `SELECT a, SUM(b) OVER (PARTITION BY a ORDER BY b) AS s FROM t`. -/
def running : WinSelect.Query Aggregates.Name :=
  { cols := [(['a'], .expr (.col ['a'])), (['s'], .win runningWin)], table := ['t'], columns := [['a'], ['b']] }

def runningDb : Store := fun n => if n = ['t'] then [ab 1 5, ab 2 4, ab 1 2] else []

def runningRun : WinSelect.Query State := mapWinQuery (fun a => program py (nameOf a)) running

theorem result_running : Tree.result py (Call.sqlCalls py same other) JoinCases.ops id 5 (oneBatch py) runningDb
    (.select (.windowed (runningRun py)) (.scan ['t']) .nil) =
    some [[(['a'], .int 1), (['s'], .int 7)], [(['a'], .int 2), (['s'], .int 4)], [(['a'], .int 1), (['s'], .int 2)]] := by
  with_unfolding_all rfl

theorem running_ok : WinQueryOk (runningRun py) := by
  have hplain : ∀ n : Str, n = ['a'] ∨ n = ['b'] → Plain (runningRun py).cols n := by
    intro n hn c hc
    simp only [runningRun, running, mapWinQuery, mapWinItem, List.map_cons, List.map_nil, List.mem_cons, List.not_mem_nil, or_false] at hc
    rcases hn with rfl | rfl <;> rcases hc with rfl | rfl <;> simp [hiddenOf]
  refine ⟨show ([['a'], ['s']] : List Str).Nodup by decide, ?_, ?_, ?_, ?_⟩
  · intro c hc w hw
    simp only [runningRun, running, mapWinQuery, mapWinItem, List.map_cons, List.map_nil, List.mem_cons, List.not_mem_nil, or_false] at hc
    rcases hc with rfl | rfl
    · simp [winsOf] at hw
    · simp only [winsOf, List.mem_singleton] at hw
      subst hw
      refine ⟨?_, ?_⟩
      · intro o ho k hk
        simp only [mapWin, runningWin, SqlWindow.windowOf] at ho
        subst ho
        simp at hk
        rcases hk with rfl | rfl
        · exact ⟨rfl, fun n h => by cases h; exact hplain _ (Or.inl rfl)⟩
        · exact ⟨rfl, fun n h => by cases h; exact hplain _ (Or.inr rfl)⟩
      · intro l h e he
        cases h
        simp at he
        subst he
        rfl
  · intro n e h
    simp [runningRun, running, mapWinQuery, mapWinItem] at h
    rw [h.2]; rfl
  · intro n ws e h
    simp [runningRun, running, mapWinQuery, mapWinItem] at h
  · intro t n d h
    simp [runningRun, running, mapWinQuery] at h

theorem rows_running : (runningDb ['t']).map rowOfRecord = [selRow 1 5, selRow 2 4, selRow 1 2] := by
  show [ab 1 5, ab 2 4, ab 1 2].map rowOfRecord = _
  simp only [List.map_cons, List.map_nil, row_ab]

theorem level_running (calls : Str → List Val → Val) (en : Select.Engine) (hen : en.le = rankLe) :
    WinLevelOk text py calls en (runningRun py) ((runningDb ['t']).map rowOfRecord) where
  query := running_ok py
  win := ⟨(['s'], .win (mapWin (fun a => program py (nameOf a)) runningWin)), by simp [runningRun, running, mapWinQuery, mapWinItem], rfl⟩
  limit := by simp [runningRun, running, mapWinQuery]
  cond := whereOk_none text py calls _ (asSelect (runningRun py)) rfl _
  having := by intro e he; cases he
  order := ⟨by intro t n d h; simp [runningRun, running, mapWinQuery] at h, by intro n d h; simp [runningRun, running, mapWinQuery] at h⟩
  ties := by
    rw [hen, rows_running]
    intro c hc w hw A hA o ho
    simp only [runningRun, running, mapWinQuery, mapWinItem, List.map_cons, List.map_nil, List.mem_cons, List.not_mem_nil, or_false] at hc
    rcases hc with rfl | rfl
    · simp [winsOf] at hw
    · simp only [winsOf, List.mem_singleton] at hw
      subst hw
      simp only [mapWin, runningWin, SqlWindow.windowOf] at ho
      subst ho
      right
      have hne : ∀ a b a' b' : Int, b ≠ b' →
          ¬ WinSelect.Peers text calls py.cmp rankLe ⟨[.bare ['a']], [(.bare ['b'], false)]⟩ (selRow a b) (selRow a' b') := by
        intro a b a' b' hb h
        have := h.2 (.bare ['b'], false) (by simp)
        have h1 : decide (b ≤ b') = true := this.1
        have h2 : decide (b' ≤ b) = true := this.2
        rw [decide_eq_true_eq] at h1 h2
        exact hb (Int.le_antisymm h1 h2)
      simp only [List.pairwise_cons, List.mem_cons, List.not_mem_nil, or_false, forall_eq_or_imp, forall_eq]
      exact ⟨⟨hne _ _ _ _ (by decide), hne _ _ _ _ (by decide)⟩, hne _ _ _ _ (by decide), by simp, List.Pairwise.nil⟩

/-- The aggregate is taken over integers. -/
theorem within_running (cmp : Cmp → Val → Val → Val) (sql : Str → List Val → Val) (agg : Aggregates.Name → List Val → Val) (le : Val → Val → Bool)
    (hle : ∀ x, le x x = true) (o : Join.Ops Val) :
    TreeAggWithin text cmp sql le o agg runningDb (.select (.windowed running) (.scan ['t']) .nil) := by
  simp only [TreeAggWithin, TreesAggWithin, true_and]
  rintro rows others h -
  rw [mapRel, Means] at h
  subst h
  intro w hw A hA read hr i frame hf
  rw [show ((runningDb ['t']).map rowOfRecord).filter (satisfies text cmp sql running.cond) = (runningDb ['t']).map rowOfRecord from
    List.filter_eq_self.2 fun _ _ => rfl, rows_running] at hr
  have hw' : w = runningWin := by
    cases hw with
    | column h => simp [running] at h; exact h.2
    | part h => simp [running] at h
  subst hw'
  cases hA
  have hb : ∀ r ∈ read, ∃ j : Int, r ['b'] = .int j := by
    intro r h
    have := hr.mem_iff.1 h
    simp only [List.mem_cons, List.not_mem_nil, or_false] at this
    rcases this with rfl | rfl | rfl <;> exact ⟨_, rfl⟩
  have hvals : ∀ v ∈ frame.filterMap fun j => (read[j]?).map fun r =>
      WinSelect.argVal (SqlWindow.argument text cmp sql r runningWin.args), ∃ j : Int, v = .int j := by
    intro v hv
    obtain ⟨j, -, hj⟩ := List.mem_filterMap.1 hv
    obtain ⟨r, hrj, rfl⟩ := Option.map_eq_some_iff.1 hj
    exact hb r (List.mem_of_getElem? hrj)
  have hsub : ∀ {l : List Val}, (∀ v ∈ l, ∃ j : Int, v = .int j) → AggSpec.nonNull l = l := by
    intro l h
    unfold AggSpec.nonNull
    refine List.filter_eq_self.2 fun v hv => ?_
    obtain ⟨j, rfl⟩ := h v hv
    rfl
  obtain ⟨ov, part, ho, hs, hi, hsl, hfr⟩ := hf
  have hif : i ∈ frame := (hfr i hi).2 (by
    simp only [runningWin, SqlWindow.windowOf] at ho
    subst ho
    simp only [SqlWindow.windowKeys, List.map_cons, List.map_nil, SqlOrder.Le]
    simp [hle])
  have hlt : i < read.length := by
    have := hs.perm.mem_iff.1 hi
    unfold SqlWindow.partition at this
    exact List.mem_range.1 (List.mem_filter.1 this).1
  have hne : (frame.filterMap fun j => (read[j]?).map fun r =>
      WinSelect.argVal (SqlWindow.argument text cmp sql r runningWin.args)) ≠ [] := by
    refine List.ne_nil_of_mem (a := WinSelect.argVal (SqlWindow.argument text cmp sql read[i] runningWin.args)) (List.mem_filterMap.2 ⟨i, hif, ?_⟩)
    rw [List.getElem?_eq_getElem hlt]; rfl
  obtain ⟨n, hn⟩ := int_sum _ fun v hv => hvals v (by rw [hsub hvals] at hv; exact hv)
  exact ⟨_, .sum (fun v hv => hvals v (by rw [hsub hvals] at hv; exact hv)) (by rw [hsub hvals]; exact hne) hn⟩

/-- C186 on `running`. -/
example (cmp : Cmp → Val → Val → Val) (hcmp : ImplementsCmp cmp) (sql : Str → List Val → Val) (hsql : Implements same sql)
    (agg : Aggregates.Name → List Val → Val) (hagg : ImplementsAgg agg) :
    ∃ out, Tree.result py (Call.sqlCalls py same other) JoinCases.ops id 5 (oneBatch py) runningDb
      (mapRel (fun a => program py (nameOf a)) (.select (.windowed running) (.scan ['t']) .nil)) = some out ∧
    Means text cmp sql rankLe JoinCases.ops runningDb (mapRel (standard agg) (.select (.windowed running) (.scan ['t']) .nil)) out := by
  refine ⟨_, result_running py same other, ?_⟩
  apply C186_tree_partial py same other text JoinCases.ops id 5 cmp hcmp sql hsql agg hagg JoinCases.opsSym (fun l => List.Perm.refl l)
    (oneBatch py) rankLe_total rankLe_trans (idealSrc_faithful py) ?_ (.select (.windowed running) (.scan ['t']) .nil) runningDb _
    (result_running py same other)
  · simp [SqlTree.Scoped, Scopeds, Apart, SqlTree.bound, bounds, frees]
  · simp [SqlTree.Aligned, Aligneds]
  · simp only [mapRel, mapRels, Ok, Oks, true_and]
    intro rows others h _
    rw [Means] at h
    subst h
    exact level_running text py _ _ rfl
  · intro n hn
    simp [SqlTree.bound, bounds] at hn
  · simp only [mapRel, mapRels, TreeWithin, TreesWithin, true_and]
    intro rows others h _
    refine ⟨?_, ?_, ?_, ?_, ?_⟩
    · intro e he; cases he
    · intro n e h r _
      simp [running, mapWinQuery, mapWinItem] at h
      rw [h.2]; trivial
    · intro w hw e he r _
      have hw' : w = mapWin (fun a => program py (nameOf a)) runningWin := by
        cases hw with
        | column h => simp [running, mapWinQuery, mapWinItem] at h; exact h.2
        | part h => simp [running, mapWinQuery, mapWinItem] at h
      subst hw'
      cases he with
      | arg h he => cases h; simp at he; rw [he]; trivial
      | part h he => cases h; simp at he
      | order h he => cases h; simp at he
    · intro n ws e h
      simp [running, mapWinQuery, mapWinItem] at h
    · intro e he; cases he
  · exact within_running text cmp sql agg rankLe (fun x => (rankLe_total x x).elim id id) _
  · intro l
    simp [oneBatch]

end
end Verif.Props.TreeCases
