import Verif.Props.TreeFunctions
import Verif.Props.TreeCases
/-! An example for C185 with a window function. -/
namespace Verif.Props.TreeCases
open Verif.Val Verif.Expr Verif.Sql Verif.Where Verif.Order Verif.SqlOrder Verif.Select Verif.SqlSelect Verif.Tree Verif.SqlTree
open Verif.SqlFunctions
open Verif.Nest (Store)
open Verif.SqlNest (rowOfRecord)
open Verif.Props.TreeLemmas
open Verif.WinSelect (WinQueryOk Plain hiddenOf winsOf)

section
variable (text : Str → Bool) (py : Py) (same : Char → Char → Bool) (other : Str → List Val → Val)

/-- `ABS(a)`. -/
def absA : E := .call "abs".toList (.cons (.col ['a']) .nil)

/-- `ABS(a) > 2`. -/
def bigA : E := .cmp .gt absA (.lit (.int 2))

/-- `SELECT a, ABS(a) > 2 AS x, ROW_NUMBER() OVER (ORDER BY ABS(a)) AS n FROM t`. -/
def byAbs : WinSelect.Query Empty :=
  { cols := [(['a'], .expr (.col ['a'])), (['x'], .expr bigA), (['n'], .win ⟨number, .inline ⟨[], [(.expr absA, false)]⟩, .exprs []⟩)],
    table := ['t'], columns := [['a'], ['v']] }

/-- A table with a negative number and NULL. -/
def absDb : Store := fun n => if n = ['t'] then [[(['a'], .int (-3))], [(['a'], .null)], [(['a'], .int 2)]] else []

theorem byAbs_ok : WinQueryOk byAbs := by
  refine ⟨by decide, ?_, ?_, ?_, ?_⟩
  · intro c hc w hw
    simp only [byAbs, List.mem_cons, List.not_mem_nil, or_false] at hc
    rcases hc with rfl | rfl | rfl
    · simp [winsOf] at hw
    · simp [winsOf] at hw
    · simp only [winsOf, List.mem_singleton] at hw
      subst hw
      refine ⟨?_, ?_⟩
      · intro o ho k hk
        simp only [SqlWindow.windowOf] at ho
        subst ho
        simp at hk
        subst hk
        exact ⟨rfl, fun n h => by cases h⟩
      · intro l h e he
        cases h
        simp at he
  · intro n e h
    simp [byAbs] at h
    rcases h with ⟨_, rfl⟩ | ⟨_, rfl⟩ <;> rfl
  · intro n ws e h
    simp [byAbs] at h
  · intro t n d h
    simp [byAbs] at h

theorem level_abs (calls : Str → List Val → Val) (en : Engine) (rows : List Out) :
    WinLevelOk text py calls en byAbs (rows.map rowOfRecord) where
  query := byAbs_ok
  win := ⟨(['n'], .win ⟨number, .inline ⟨[], [(.expr absA, false)]⟩, .exprs []⟩), by simp [byAbs], rfl⟩
  limit := by decide
  cond := whereOk_none text py calls _ (asSelect byAbs) rfl rows
  having := by intro e he; cases he
  order := ⟨by intro t n d h; simp [byAbs] at h, by intro n d h; simp [byAbs] at h⟩
  ties := by
    intro c hc w hw A hA
    simp only [byAbs, List.mem_cons, List.not_mem_nil, or_false] at hc
    rcases hc with rfl | rfl | rfl
    · simp [winsOf] at hw
    · simp [winsOf] at hw
    · simp only [winsOf, List.mem_singleton] at hw
      subst hw
      cases hA

theorem result_abs : Tree.result py (Call.sqlCalls py same other) JoinCases.ops id 5 (oneBatch py) absDb
    (.select (.windowed byAbs) (.scan ['t']) .nil) =
    some [[(['a'], .int (-3)), (['x'], .int 1), (['n'], .int 3)], [(['a'], .null), (['x'], .null), (['n'], .int 1)],
      [(['a'], .int 2), (['x'], .int 0), (['n'], .int 2)]] := rfl

theorem within_abs (sql : Str → List Val → Val) (hsql : Implements same sql) (cmp : Cmp → Val → Val → Val) (le : Val → Val → Bool) (o : Join.Ops Val) :
    TreeWithin same text cmp sql le o absDb (.select (.windowed byAbs) (.scan ['t']) .nil) := by
  simp only [TreeWithin, TreesWithin, true_and]
  rintro rows others h -
  rw [Means] at h
  subst h
  have ha : ∀ r ∈ (absDb ['t']).map rowOfRecord, Within same text cmp sql r absA := by
    intro r hr
    simp only [absDb, if_true, List.map_cons, List.map_nil, List.mem_cons, List.not_mem_nil, or_false] at hr
    refine ⟨⟨trivial, trivial⟩, ?_⟩
    simp only [semL, sem]
    rcases hr with rfl | rfl | rfl
    · exact ⟨_, .abs_int (-3)⟩
    · exact ⟨_, .unary_null (by simp)⟩
    · exact ⟨_, .abs_int 2⟩
  have hb : ∀ r ∈ (absDb ['t']).map rowOfRecord, Within same text cmp sql r bigA := by
    intro r hr
    refine ⟨ha r hr, trivial, ?_⟩
    obtain ⟨-, v, hv⟩ := ha r hr
    simp only [semL, sem] at hv
    simp only [absA, semL, sem]
    rw [hsql _ _ _ hv]
    simp only [absDb, if_true, List.map_cons, List.map_nil, List.mem_cons, List.not_mem_nil, or_false] at hr
    rcases hr with rfl | rfl | rfl
    · rw [show v = .int 3 from (hsql _ _ _ hv).symm.trans (hsql _ _ _ (.abs_int (-3)))]
      exact ⟨_, .num_yes (.int 3) (.int 2) (show (2 : Rat) < 3 by decide)⟩
    · rw [show v = .null from (hsql _ _ _ hv).symm.trans (hsql _ _ _ (.unary_null (by simp)))]
      exact ⟨_, .null (Or.inl rfl)⟩
    · rw [show v = .int 2 from (hsql _ _ _ hv).symm.trans (hsql _ _ _ (.abs_int 2))]
      exact ⟨_, .num_no (.int 2) (.int 2) (show ¬ (2 : Rat) < 2 by decide)⟩
  refine ⟨?_, ?_, ?_, ?_, ?_⟩
  · intro e he; cases he
  · intro n e h r hr
    simp only [byAbs, List.mem_cons, List.not_mem_nil, or_false, Prod.mk.injEq, WinSelect.Item.expr.injEq, reduceCtorEq, and_false] at h
    rcases h with ⟨-, rfl⟩ | ⟨-, rfl⟩
    · trivial
    · exact hb r hr
  · intro w hw e he r hr
    have hw' : w = ⟨number, .inline ⟨[], [(.expr absA, false)]⟩, .exprs []⟩ := by
      cases hw with
      | column h => simp [byAbs] at h; exact h.2
      | part h => simp [byAbs] at h
    subst hw'
    cases he with
    | arg h he => cases h; simp at he
    | part h he => cases h; simp at he
    | order h he =>
      cases h
      simp at he
      obtain ⟨rfl, -⟩ := he
      exact ha r hr
  · intro n ws e h
    simp [byAbs] at h
  · intro e he; cases he

/-- C185 on `byAbs`. -/
example (cmp : Cmp → Val → Val → Val) (hcmp : ImplementsCmp cmp) (sql : Str → List Val → Val) (hsql : Implements same sql) :
    ∃ out, Tree.result py (Call.sqlCalls py same other) JoinCases.ops id 5 (oneBatch py) absDb (.select (.windowed byAbs) (.scan ['t']) .nil) = some out ∧
    Means text cmp sql rankLe JoinCases.ops absDb (.select (.windowed byAbs) (.scan ['t']) .nil) out := by
  refine ⟨_, result_abs py same other, ?_⟩
  apply C185_tree_partial py same other text JoinCases.ops id 5 cmp hcmp sql hsql JoinCases.opsSym (fun l => List.Perm.refl l) (oneBatch py)
    rankLe_total rankLe_trans (idealSrc_faithful py) ?_ _ absDb _ (result_abs py same other)
  · simp [SqlTree.Scoped, Scopeds, Apart, SqlTree.bound, bounds, frees]
  · simp [SqlTree.Aligned, Aligneds]
  · simp only [Ok, Oks, true_and]
    intro rows others _ _
    exact level_abs text py _ _ rows
  · intro n hn
    simp [SqlTree.bound, bounds] at hn
  · exact within_abs text same sql hsql cmp rankLe _
  · intro l
    simp [oneBatch]

end
end Verif.Props.TreeCases
