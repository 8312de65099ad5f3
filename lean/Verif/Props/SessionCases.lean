import Verif.Props.Session
import Verif.Props.Value
import Verif.Props.FromCases
/-! An example for C164, and scripts that violate it. -/
namespace Verif.Props.SessionCases
open Verif.Val Verif.Expr Verif.Sql Verif.Where Verif.Select Verif.Tree Verif.SqlTree Verif.Session Verif.SqlSession Verif.Literal
open Verif.Nest (Store append asRow)
open Verif.SqlNest (rowOfRecord QueryResult isAggregate)
open Verif.Props.Nested (LevelOk)
open Verif.Props.TreeLemmas Verif.Props.SessionLemmas Verif.Props.FromCases

section
variable (text : Str → Bool) (py : Py) (calls : Str → List Val → Val) (minus : Val → Val)

/-- `SELECT a, b FROM …`. -/
def abq : Query Empty := { cols := [(['a'], .expr (.col ['a'])), (['b'], .expr (.col ['b']))], table := ['t'], columns := [['a'], ['b']] }

/-- `SET @x = 9; INSERT INTO u (a, b) VALUES (1, @x), (2, 0); INSERT INTO t SELECT a, b FROM u; DELETE FROM t WHERE b > 1; SELECT a, b FROM t`. -/
def script : List (Stmt Empty) :=
  [.set ['@', 'x'] (.int 9),
   .values ['u'] [(['a'], none), (['b'], none)] [[.int 1, .param ['x']], [.int 2, .int 0]],
   .insert ['t'] (.select (.plain abq) (.scan ['u']) .nil),
   .delete ['t'] (some (.cmp .gt (.col ['b']) (.lit (.int 1)))),
   .query (.select (.plain abq) (.scan ['t']) .nil)]

/-- Nothing anywhere. -/
def empty : World := ⟨fun _ => none, fun _ => [], []⟩

theorem level_ab (p : Plan Empty) (rows : List Out) : LevelOk text py calls abq p (rows.map rowOfRecord) where
  names := by decide
  limit := by decide
  cond := whereOk_none text py calls _ abq rfl rows
  having := by intro e he; cases he
  kind := by
    left
    refine ⟨rfl, rfl, ?_, ⟨by intro t n d h; simp [abq] at h, by intro n d h; simp [abq] at h⟩⟩
    intro c hc
    simp only [abq, List.mem_cons, List.not_mem_nil, or_false] at hc
    rcases hc with rfl | rfl <;> exact ⟨_, rfl, rfl⟩

/-- Every statement of the script is covered in every state. -/
theorem stmts_ok (s : SqlSession.State) (x : Stmt Empty) (hx : x ∈ script) :
    StmtOk text py calls JoinCases.ops id 5 (oneBatch py) (fun _ v => v) (fun _ => true) minus s x := by
  simp only [script, List.mem_cons, List.not_mem_nil, or_false] at hx
  rcases hx with rfl | rfl | rfl | rfl | rfl
  · trivial
  · refine ⟨by simp, by decide, by simp, ?_, by intros; rfl⟩
    intro r hr c hc
    simp only [List.mem_cons, List.not_mem_nil, or_false] at hr
    rcases hr with rfl | rfl <;> simp only [List.mem_cons, List.not_mem_nil, or_false] at hc <;> rcases hc with rfl | rfl <;> constructor
  · refine ⟨rfl, by simp [bound, bounds], by simp [SqlTree.Scoped, Scopeds, Apart, bound, bounds, free, frees], by simp [Aligned, Aligneds], ?_⟩
    simp only [Ok, Oks, true_and, and_true]
    exact fun rows others _ _ p _ => level_ab text py calls p rows
  · refine ⟨rfl, rfl, ?_, fun _ _ => trivial⟩
    intro k hk k' hk' _
    rw [show operandCols (.cmp .gt (.col ['b']) (.lit (.int 1))) = [['b']] from rfl] at hk hk'
    simp only [List.mem_singleton] at hk hk'
    rw [hk, hk']
  · refine ⟨by simp [SqlTree.Scoped, Scopeds, Apart, bound, bounds, free, frees], by simp [Aligned, Aligneds], ?_⟩
    simp only [Ok, Oks, true_and, and_true]
    exact fun rows others _ _ p _ => level_ab text py calls p rows

/-- C164 on `script`: it compiles, meets the hypotheses, and five iterations execute it. -/
example : ∃ (x : Exec.State World (Job Empty)) (s' : SqlSession.State), Exec.run (machine py calls JoinCases.ops id 5 (oneBatch py) (fun _ v => v)
      (fun _ => true)) ⟨empty, [], []⟩ script = (x, true) ∧
    Steps text py.cmp calls rankLe JoinCases.ops minus ⟨empty.env, empty.store, empty.printed⟩ script s' ∧
    ∃ y, Exec.execute (machine py calls JoinCases.ops id 5 (oneBatch py) (fun _ v => v) (fun _ => true)) 5 x = (y, .returned) ∧
      y.runners = [] ∧ y.world.env = s'.env ∧ y.world.printed = s'.shown ∧ ∀ k, y.world.store k = s'.tables k := by
  have h := C164_script_partial text py calls JoinCases.ops id 5 (oneBatch py) (fun _ v => v) (fun _ => true) minus JoinCases.opsSym
    (fun l => List.Perm.refl l) rankLe_total rankLe_trans (idealSrc_faithful py) (by intro l; simp [oneBatch]) script empty
    (x := (Exec.run (machine py calls JoinCases.ops id 5 (oneBatch py) (fun _ v => v) (fun _ => true)) ⟨empty, [], []⟩ script).1) rfl
    (fun pre st post he s' _ => stmts_ok text py calls minus s' st (by rw [he]; simp))
    (by simp [script, Separate, Apart, binds, uses, bound, bounds, free, frees])
    (by intro st hst n hn; rfl)
  obtain ⟨s', h1, h2⟩ := h
  obtain ⟨y, h3, h4, h5, h6, h7⟩ := h2 5 (Nat.lt_succ_self 4)
  refine ⟨_, s', rfl, h1, y, h3, h4, h5, h6, fun k => h7 k ?_⟩
  simp [script, binds, bound, bounds]

end

/-- What the script shows, with a comparison that compares numbers. -/
example : ((Exec.execute (machine plainPy noCalls JoinCases.ops id 5 (oneBatch plainPy) (fun _ v => v) (fun _ => true)) 5
    (Exec.run (machine plainPy noCalls JoinCases.ops id 5 (oneBatch plainPy) (fun _ v => v) (fun _ => true)) ⟨empty, [], []⟩ script).1).1.world.printed)
    = [[[(['a'], .int 2), (['b'], .int 0)]]] := by
  decide +kernel

/-! ### Violations -/

/-- `WITH w AS (SELECT a, b FROM t) SELECT a, b FROM w`. -/
def withStmt : Stmt Empty := .query (.withq ['w'] (.select (.plain abq) (.scan ['t']) .nil) (.select (.plain abq) (.scan ['w']) .nil))

/-- One row in `t`. -/
def oneRow : World := ⟨fun _ => none, fun n => if n = ['t'] then [ab 1 5] else [], []⟩

section
variable (text : Str → Bool) (py : Py) (calls : Str → List Val → Val) (minus : Val → Val)

theorem means_ab (db : Store) (t : Str) (rows : List Out)
    (h : Means text py.cmp calls rankLe JoinCases.ops db (.select (.plain abq) (.scan t) .nil : Tree.Rel Empty) rows)
    (hd : db t = [ab 1 5]) : rows = [ab 1 5] := by
  rw [Means] at h
  obtain ⟨r, _, hr, _, h⟩ := h
  rw [Means] at hr
  subst hr
  simp only [SelectResult, KindResult] at h
  unfold QueryResult at h
  rw [if_neg (by simp [abq, isAggregate]), if_neg (by decide)] at h
  obtain ⟨sorted, hs, rfl⟩ := h
  have h1 := hs.stable (fun _ => true) fun a b _ _ => by simp only [abq, List.map_nil, SqlOrder.Le]
  rw [List.filter_eq_self.2 (fun _ _ => rfl), List.filter_eq_self.2 (fun _ _ => rfl)] at h1
  rw [h1, hd]
  rfl

/-- C164, first violation: the same statement with a WITH twice in a script shows its row once, then twice, where SQL shows it once each
time: the rows of the named query are still there (C115). -/
theorem C164_with_violated : ∃ (ss : List (Stmt Empty)) (w : World) (x y : Exec.State World (Job Empty)),
    Exec.run (machine py calls JoinCases.ops id 5 (oneBatch py) (fun _ v => v) (fun _ => true)) ⟨w, [], []⟩ ss = (x, true) ∧
    Exec.execute (machine py calls JoinCases.ops id 5 (oneBatch py) (fun _ v => v) (fun _ => true)) 3 x = (y, .returned) ∧
    y.world.printed = [[ab 1 5], [ab 1 5, ab 1 5]] ∧
    ∀ s', Steps text py.cmp calls rankLe JoinCases.ops minus ⟨w.env, w.store, w.printed⟩ ss s' → s'.shown = [[ab 1 5], [ab 1 5]] := by
  refine ⟨[withStmt, withStmt], oneRow, _, _, rfl, rfl, rfl, ?_⟩
  intro s' h
  cases h with
  | cons _ s1 _ _ _ h1 h2 =>
    cases h2 with
    | cons _ s2 _ _ _ h2 h3 =>
      cases h3
      cases h1 with
      | query _ out1 m1 =>
        cases h2 with
        | query _ out2 m2 =>
          have key : ∀ out, Means text py.cmp calls rankLe JoinCases.ops oneRow.store
              (.withq ['w'] (.select (.plain abq) (.scan ['t']) .nil) (.select (.plain abq) (.scan ['w']) .nil) : Tree.Rel Empty) out → out = [ab 1 5] := by
            intro out h
            rw [Means] at h
            obtain ⟨rows, ha, hb⟩ := h
            have := means_ab text py calls _ _ _ ha rfl
            subst this
            exact means_ab text py calls _ _ _ hb rfl
          rw [key out1 m1, key out2 m2]
          rfl

end
end Verif.Props.SessionCases
