import Verif.Props.VarScript
import Verif.Props.SessionCases
/-! Examples for C175, and scripts that violate it. -/
namespace Verif.Props.VarCases
open Verif.Val Verif.Expr Verif.Sql Verif.Where Verif.Select Verif.Tree Verif.SqlTree Verif.VarScript Verif.SqlVarScript
open Verif.Into (Stored)
open Verif.SqlNest (rowOfRecord QueryResult isAggregate)
open Verif.Props.Nested (LevelOk)
open Verif.Props.TreeLemmas Verif.Props.VarLemmas Verif.Props.FromCases

section
variable (image : Stored Val → Val) (text : Str → Bool) (py : Py) (calls : Str → List Val → Val) (minus : Val → Val)

/-- `SELECT a, @v AS b FROM …`. -/
def withVar (v : Str) : Query Empty := { cols := [(['a'], .expr (.col ['a'])), (['b'], .expr (varE v))], table := ['t'], columns := [['a'], ['b']] }

def ask (v : Str) : Tree.Rel Empty := .select (.plain (withVar v)) (.scan ['t']) .nil

/-- `SET @x = 9; INSERT INTO t (a, b) VALUES (1, @x); SELECT a, @x AS b FROM t INTO @y; SELECT a, @y AS b FROM t`. -/
def script : List (Stmt Empty) :=
  [.plain (.set ['@', 'x'] (.int 9)),
   .plain (.values ['t'] [(['a'], none), (['b'], none)] [[.int 1, .param ['x']]]),
   .into (ask ['x']) ['@', 'y'],
   .plain (.query (ask ['y']))]

def empty : World := ⟨[], fun _ => [], []⟩

theorem level_var (v : Str) (p : Plan Empty) (rows : List Out) : LevelOk text py calls (withVar v) p (rows.map rowOfRecord) where
  names := by show [['a'], ['b']].Nodup; decide
  limit := by intro h; cases h
  cond := whereOk_none text py calls _ (withVar v) rfl rows
  having := by intro e he; cases he
  kind := by
    left
    refine ⟨rfl, rfl, ?_, ⟨by intro t n d h; simp [withVar] at h, by intro n d h; simp [withVar] at h⟩⟩
    intro c hc
    simp only [withVar, List.mem_cons, List.not_mem_nil, or_false] at hc
    rcases hc with rfl | rfl <;> exact ⟨_, rfl, rfl⟩

theorem ask_ok (v : Str) (tables : Str → List Out) : TreeLemmas.Ok text py calls JoinCases.ops id 5 (oneBatch py) tables (ask v) := by
  simp only [ask, Ok, Oks, true_and]
  exact fun rows others _ _ p _ => level_var text py calls v p rows

theorem stmts_ok (s : SqlVarScript.State) (x : Stmt Empty) (hx : x ∈ script) :
    StmtOk image (fun _ => false) text py calls JoinCases.ops id 5 (oneBatch py) (fun _ v => v) (fun _ => true) minus s x := by
  simp only [script, List.mem_cons, List.not_mem_nil, or_false] at hx
  rcases hx with rfl | rfl | rfl | rfl
  · trivial
  · refine ⟨by simp, by decide, by simp, ?_, by intros; rfl⟩
    intro r hr c hc
    simp only [List.mem_cons, List.not_mem_nil, or_false] at hr
    subst hr
    simp only [List.mem_cons, List.not_mem_nil, or_false] at hc
    rcases hc with rfl | rfl <;> constructor
  · exact ⟨rfl, by simp [ask, header, Kind.names, withVar], rfl, by simp [ask, SqlTree.Scoped, Scopeds, Apart, bound, bounds, free, frees],
      by simp [ask, Aligned, Aligneds], ask_ok text py _ _ _⟩
  · exact ⟨by simp [ask, SqlTree.Scoped, Scopeds, Apart, bound, bounds, free, frees], by simp [ask, Aligned, Aligneds], ask_ok text py _ _ _⟩

/-- C175 on `script`. -/
example (himage : ∀ v, image (.scalar v) = v) : ∃ (x : Exec.State World (Job Empty)) (s' : SqlVarScript.State) (y : Exec.State World (Job Empty)),
    Exec.run (machine image (fun _ => false) py calls JoinCases.ops id 5 (oneBatch py) (fun _ v => v) (fun _ => true)) ⟨empty, [], []⟩ script =
      (x, true) ∧
    Steps image text py.cmp calls rankLe JoinCases.ops minus ⟨fun n => empty.env.get? n, empty.store, empty.printed⟩ script s' ∧
    Exec.execute (machine image (fun _ => false) py calls JoinCases.ops id 5 (oneBatch py) (fun _ v => v) (fun _ => true)) 4 x = (y, .returned) ∧
    y.runners = [] ∧ y.world.printed = s'.shown ∧ (∀ v, held (fun n => y.world.env.get? n) v = held s'.env v) ∧
      ∀ k, y.world.store k = s'.tables k := by
  obtain ⟨s', y, h1, h2, h3, h4, h5, h6⟩ := C175_script_partial image (fun _ => false) text py calls JoinCases.ops id 5 (oneBatch py) (fun _ v => v)
    (fun _ => true) minus himage JoinCases.opsSym (fun l => List.Perm.refl l) rankLe_total rankLe_trans (idealSrc_faithful py)
    (by intro l; simp [oneBatch]) script empty
    (x := (Exec.run (machine image (fun _ => false) py calls JoinCases.ops id 5 (oneBatch py) (fun _ v => v) (fun _ => true)) ⟨empty, [], []⟩ script).1)
    rfl (by simp [script, Ordered, isSet, isValues, fills, reads])
    (fun pre st post he s' _ => stmts_ok image text py calls minus s' st (by rw [he]; simp))
    (by simp [script, Separate, Apart, binds, uses, ask, SqlSession.binds, SqlSession.uses, bound, bounds, free, frees])
    (by intro st hst n hn; rfl) 4 (Nat.lt_succ_self 3)
  refine ⟨_, s', y, rfl, h1, h2, h3, h4, h5, fun k => h6 k ?_⟩
  simp [script, binds, SqlSession.binds, ask, bound, bounds]

end

/-- Every container as NULL. -/
def nullImage : Stored Val → Val
  | .scalar v => v
  | _ => .null

/-- The variables after the script. -/
example : ((Exec.execute (machine nullImage (fun _ => false) plainPy noCalls JoinCases.ops id 5 (oneBatch plainPy) (fun _ v => v) (fun _ => true)) 5
    (Exec.run (machine nullImage (fun _ => false) plainPy noCalls JoinCases.ops id 5 (oneBatch plainPy) (fun _ v => v) (fun _ => true))
      ⟨empty, [], []⟩ script).1).1.world.env)
    = [(['@', 'x'], .scalar (.int 9)), (['@', 'y'], .row [(['a'], .int 1), (['b'], .int 9)])] := by
  decide +kernel

/-! ### Violations -/

/-- `SELECT @v AS b FROM …`. -/
def varOnly (v : Str) : Query Empty := { cols := [(['b'], .expr (varE v))], table := ['t'], columns := [['a'], ['b']] }

def askOnly (v : Str) : Tree.Rel Empty := .select (.plain (varOnly v)) (.scan ['t']) .nil

/-- One row in `t`, and `@x` is 1. -/
def oneRow : World := ⟨[(['@', 'x'], .scalar (.int 1))], fun n => if n = ['t'] then [ab 1 5] else [], []⟩

/-- The machine of the examples. -/
abbrev exMachine : Exec.Machine World (Stmt Empty) (Job Empty) :=
  machine nullImage (fun _ => false) plainPy noCalls JoinCases.ops id 5 (oneBatch plainPy) (fun _ v => v) (fun _ => true)

theorem means_only (text : Str → Bool) (v : Str) (env : Str → Option (Stored Val)) (db : Str → List Out) (rows : List Out)
    (h : Means text plainPy.cmp (functions nullImage noCalls env) rankLe JoinCases.ops db (askOnly v) rows) (hd : db ['t'] = [ab 1 5]) :
    rows = [[(['b'], nullImage (held env ('@' :: v)))]] := by
  rw [askOnly, Means] at h
  obtain ⟨r, _, hr, _, h⟩ := h
  rw [Means] at hr
  subst hr
  simp only [SelectResult, KindResult] at h
  unfold QueryResult at h
  rw [if_neg (by simp [varOnly, isAggregate]), if_neg (by rw [varOnly]; simp)] at h
  obtain ⟨sorted, hs, rfl⟩ := h
  have h1 := hs.stable (fun _ => true) fun a b _ _ => by simp only [varOnly, List.map_nil, SqlOrder.Le]
  rw [List.filter_eq_self.2 (fun _ _ => rfl), List.filter_eq_self.2 (fun _ _ => rfl)] at h1
  rw [h1, hd]
  have hv : functions nullImage noCalls env getter [.str ('@' :: v)] = nullImage (held env ('@' :: v)) := by
    rw [functions, if_pos rfl]
  rw [← hv]
  rfl

/-- C175, first violation: `SELECT @x AS b FROM t; SET @x = 2` in one script shows 2, where SQL shows the 1 that the variable is when the
SELECT is done. -/
theorem C175_set_after_violated (text : Str → Bool) (minus : Val → Val) : ∃ (ss : List (Stmt Empty)) (w : World) (x : Exec.State World (Job Empty)),
    Exec.run exMachine ⟨w, [], []⟩ ss = (x, true) ∧
    (Exec.execute exMachine 2 x).2 = .returned ∧ (Exec.execute exMachine 2 x).1.world.printed = [[[(['b'], .int 2)]]] ∧
    ∀ s', Steps nullImage text plainPy.cmp noCalls rankLe JoinCases.ops minus ⟨fun n => w.env.get? n, w.store, w.printed⟩ ss s' →
      s'.shown = [[[(['b'], .int 1)]]] := by
  refine ⟨[.plain (.query (askOnly ['x'])), .plain (.set ['@', 'x'] (.int 2))], oneRow, _, rfl, by decide +kernel, by decide +kernel, ?_⟩
  intro s' h
  cases h with
  | cons _ s1 _ _ _ h1 h2 =>
    cases h2 with
    | cons _ s2 _ _ _ h2 h3 =>
      cases h3
      cases h1 with
      | other _ s0 _ h1 =>
        cases h1 with
        | query _ out m =>
          have := means_only text ['x'] _ _ out m rfl
          subst this
          cases h2 with
          | set _ _ => rfl
          | other _ _ hne _ => exact absurd rfl (hne _ _)

/-- C175, second violation: `SELECT @x AS b FROM t INTO @y; INSERT INTO u (b) VALUES (@y)` in one script inserts NULL, where SQL inserts
the 1 that INTO has stored. -/
theorem C175_values_violated (text : Str → Bool) (minus : Val → Val) : ∃ (ss : List (Stmt Empty)) (w : World) (x : Exec.State World (Job Empty)),
    Exec.run exMachine ⟨w, [], []⟩ ss = (x, true) ∧
    (Exec.execute exMachine 3 x).2 = .returned ∧ (Exec.execute exMachine 3 x).1.world.store ['u'] = [[(['b'], .null)]] ∧
    ∀ s', Steps nullImage text plainPy.cmp noCalls rankLe JoinCases.ops minus ⟨fun n => w.env.get? n, w.store, w.printed⟩ ss s' →
      s'.tables ['u'] = [[(['b'], .int 1)]] := by
  refine ⟨[.into (askOnly ['x']) ['@', 'y'], .plain (.values ['u'] [(['b'], none)] [[.param ['y']]])], oneRow, _, rfl, by decide +kernel,
    by decide +kernel, ?_⟩
  intro s' h
  cases h with
  | cons _ s1 _ _ _ h1 h2 =>
    cases h2 with
    | cons _ s2 _ _ _ h2 h3 =>
      cases h3
      cases h1 with
      | into _ _ out m =>
        have := means_only text ['x'] _ _ out m rfl
        subst this
        cases h2 with
        | other _ s0 _ h2 =>
          cases h2 with
          | values _ _ _ => rfl

end Verif.Props.VarCases
