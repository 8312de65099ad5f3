import Verif.Props.TreeTotal
import Verif.Props.TotalCases
import Verif.Props.SessionCases
/-! Examples for C165: the statement of the example for C155 and the script of the example for C164. -/
namespace Verif.Props.TreeTotalCases
open Verif.Val Verif.Expr Verif.Sql Verif.Where Verif.Select Verif.Tree Verif.SqlTree Verif.Session Verif.SqlSession Verif.Literal
open Verif.AcceptSpec Verif.TotalSpec Verif.Props.TreeTotal Verif.Props.TreeCases Verif.Props.SessionCases
open Verif.SqlNest (rowOfRecord)

section
variable (text : Str → Bool) (py : Py) (calls : Str → List Val → Val) (minus : Val → Val)

theorem plain_ok (q : Query Empty) (h1 : q.having = none) (h2 : q.order = []) (h3 : q.group = []) : QueryOk q where
  having := by intro e he; rw [h1] at he; cases he
  order := .inl (by intro i hi; rw [h2] at hi; cases hi)
  group := by intro c hc; rw [h3] at hc; cases hc

theorem numbered_accepted : WinOk numbered where
  having := by intro e h; cases h
  order := .inl (by intro i hi; cases hi)
  windows := by
    intro w hw n hn
    cases hw with
    | column h => simp [numbered] at h; obtain ⟨_, rfl⟩ := h; cases hn
    | part h hw => simp [numbered] at h
  names := by
    intro w hw o ho c hc
    have : c = ['a'] := by
      cases hw with
      | column h =>
        simp [numbered] at h; obtain ⟨_, rfl⟩ := h
        rcases ho with ho | ⟨n, ho, _⟩
        · cases ho; simpa using hc
        · cases ho
      | part h hw => simp [numbered] at h
    subst this
    refine ⟨fun w' h => ?_, fun n ws e h hm => ?_⟩
    · simp [numbered] at h
    · simp [numbered] at h

theorem tree_accepted : Accepted py calls JoinCases.ops 5 tree := by
  simp only [tree, Accepted, Accepteds, SelectAccepted, KindAccepted, true_and, and_true]
  exact ⟨numbered_accepted, rfl, ⟨joinCases_accepts.1, joinCases_accepts.2, joinCases_on, by decide, .inl JoinCases.joinsOk⟩, rfl,
    plain_ok subq rfl rfl rfl, rfl⟩

theorem fits_sub (rows : List Out) : PlainFits text py calls subq (rows.map rowOfRecord) where
  names := by decide
  limit := by decide
  cond := whereOk_none text py calls _ subq rfl rows
  having := by intro e he; cases he
  kind := by
    left
    refine ⟨rfl, rfl, ?_, ⟨by intro t n d h; simp [subq] at h, by intro n d h; simp [subq] at h⟩⟩
    intro c hc
    simp only [subq, List.mem_cons, List.not_mem_nil, or_false] at hc
    rcases hc with rfl | rfl <;> exact ⟨_, rfl, rfl⟩

theorem fits_ab (rows : List Out) : PlainFits text py calls abq (rows.map rowOfRecord) where
  names := by decide
  limit := by decide
  cond := whereOk_none text py calls _ abq rfl rows
  having := by intro e he; cases he
  kind := by
    left
    refine ⟨rfl, rfl, ?_, ⟨by intro t n d h; simp [abq] at h, by intro n d h; simp [abq] at h⟩⟩
    intro c hc
    simp only [abq, List.mem_cons, List.not_mem_nil, or_false] at hc
    rcases hc with rfl | rfl <;> exact ⟨_, rfl, rfl⟩

theorem fits_join : JoinFits text py calls JoinCases.ops JoinCases.joins JoinCases.joins JoinCases.q JoinCases.db JoinCases.rows where
  shape := Or.inl ⟨JoinCases.joinsOk, rfl⟩
  one := JoinCases.one
  names := by decide
  limit := by decide
  cond := JoinCases.whereOk text py calls JoinCases.q rfl
  having := by intro e he; cases he
  kind := by
    left
    obtain ⟨p, hp⟩ := C157_join_accepted py calls JoinCases.ops id (fun l => List.Perm.refl l) JoinCases.q JoinCases.joins JoinCases.joinsOk
      (fun j h => (joinCases_on j h).1) (OnAccepted.used joinCases_on _) joinCases_accepts.1 joinCases_accepts.2 5 (by decide)
    rcases (level_join text py calls p).kind with h | ⟨_, h, _⟩ | ⟨h | ⟨c, hc, h⟩, _⟩
    · exact h
    · cases h
    · exact absurd rfl h
    · simp only [JoinCases.q, List.mem_cons, List.not_mem_nil, or_false] at hc
      rcases hc with rfl | rfl <;> cases h

/-- C165 on `tree`. -/
example : ∃ out, Tree.result py calls JoinCases.ops id 5 (oneBatch py) treeDb tree = some out ∧
    Means text py.cmp calls rankLe JoinCases.ops treeDb tree out := by
  apply C165_statement_partial text py calls JoinCases.ops id 5 (oneBatch py) JoinCases.opsSym (fun l => List.Perm.refl l) (oneBatch_ok py)
    (idealSrc_faithful py) tree treeDb (tree_accepted py calls)
  · simp [tree, SqlTree.Scoped, Scopeds, Apart, bound, bounds, free, frees]
  · simp [tree, Aligned, Aligneds]
  · simp only [tree, Fits, Fitss, true_and, and_true]
    refine ⟨⟨fun rows others _ _ => fits_sub text py calls rows, ?_⟩, fun rows others _ _ => level_win text py calls _ rows⟩
    intro rows others h1 h2
    rw [Means] at h1
    rw [MeansAll] at h2
    obtain ⟨out, rest, h2, h3, rfl⟩ := h2
    rw [MeansAll] at h3
    subst h3
    rw [means_sub text py calls out h2]
    simp only [SelectFits, KindFits]
    rw [joined_B _ rfl, h1, rows_t]
    exact ⟨_, fits_join text py calls⟩
  · intro n hn
    simp [tree, bound, bounds] at hn

/-- C165 on `script`. -/
example : ∃ x s' N, Exec.run (machine py calls JoinCases.ops id 5 (oneBatch py) (fun _ v => v) (fun _ => true)) ⟨empty, [], []⟩ script = (x, true) ∧
      Steps text py.cmp calls rankLe JoinCases.ops minus ⟨empty.env, empty.store, empty.printed⟩ script s' ∧
      ∀ n, N ≤ n → ∃ y, Exec.execute (machine py calls JoinCases.ops id 5 (oneBatch py) (fun _ v => v) (fun _ => true)) n x = (y, .returned) ∧
        y.runners = [] ∧ y.world.env = s'.env ∧ y.world.printed = s'.shown ∧
        ∀ k, (∀ st ∈ script, k ∉ binds st) → y.world.store k = s'.tables k := by
  apply C165_script_partial text py calls JoinCases.ops id 5 (oneBatch py) (fun _ v => v) (fun _ => true) minus JoinCases.opsSym
    (fun l => List.Perm.refl l) (oneBatch_ok py) (idealSrc_faithful py) script empty
  · intro st hst
    simp only [script, List.mem_cons, List.not_mem_nil, or_false] at hst
    rcases hst with rfl | rfl | rfl | rfl | rfl
    · trivial
    · exact ⟨by simp, by simp⟩
    · simp only [StmtAccepted, Accepted, Accepteds, SelectAccepted, KindAccepted, true_and, and_true]
      exact ⟨plain_ok abq rfl rfl rfl, rfl⟩
    · intro e he
      cases he
      rfl
    · simp only [StmtAccepted, Accepted, Accepteds, SelectAccepted, KindAccepted, true_and, and_true]
      exact ⟨plain_ok abq rfl rfl rfl, rfl⟩
  · intro pre st post he s' _
    have hst : st ∈ script := by rw [he]; simp
    simp only [script, List.mem_cons, List.not_mem_nil, or_false] at hst
    rcases hst with rfl | rfl | rfl | rfl | rfl
    · trivial
    · refine ⟨by decide, ?_, by intros; rfl⟩
      intro r hr c hc
      simp only [List.mem_cons, List.not_mem_nil, or_false] at hr
      rcases hr with rfl | rfl <;> simp only [List.mem_cons, List.not_mem_nil, or_false] at hc <;> rcases hc with rfl | rfl <;> constructor
    · refine ⟨rfl, by simp [bound, bounds], by simp [SqlTree.Scoped, Scopeds, Apart, bound, bounds, free, frees], by simp [Aligned, Aligneds], ?_⟩
      simp only [Fits, Fitss, true_and]
      exact fun rows others _ _ => fits_ab text py calls rows
    · exact stmts_ok text py calls minus s' (.delete ['t'] (some (.cmp .gt (.col ['b']) (.lit (.int 1))))) (by simp [script])
    · refine ⟨by simp [SqlTree.Scoped, Scopeds, Apart, bound, bounds, free, frees], by simp [Aligned, Aligneds], ?_⟩
      simp only [Fits, Fitss, true_and]
      exact fun rows others _ _ => fits_ab text py calls rows
  · simp [script, SessionLemmas.Separate, Apart, binds, uses, bound, bounds, free, frees]
  · intro st hst n hn; rfl

end
end Verif.Props.TreeTotalCases
