import Verif.Props.TreeTotalCases
import Verif.Props.FromCases
/-! C168: statements whose SELECTs have subqueries in WHERE. -/
namespace Verif.Props
open Verif.Val Verif.Expr Verif.Sql Verif.Where Verif.Select Verif.SqlSelect Verif.Tree Verif.SqlTree Verif.Session
open Verif.Nest (Store append)
open Verif.SqlNest (rowOfRecord)
open Verif.Props.TreeLemmas
open Verif.AcceptSpec Verif.TotalSpec Verif.Props.TreeTotal

namespace TreeSub
section
variable {S : Type} (py : Py) (calls : Str → List Val → Val) (o : Join.Ops Val) (order : List Join.Name → List Join.Name) (fuel : Nat) (en : Engine)

mutual
theorem exec_compiles (e : Tree.Rel S) (st : Store) (x : Store × List (Union.Branch Out Val)) (h : exec py calls o order fuel en st e = some x) :
    compiles py calls o order fuel e = true := by
  match e with
  | .scan t => rfl
  | .select k src more =>
    rw [exec, Option.bind_eq_some_iff] at h
    obtain ⟨y, hy, h⟩ := h
    rw [Option.bind_eq_some_iff] at h
    obtain ⟨z, hz, h⟩ := h
    split at h
    · rename_i hl
      rw [Option.map_eq_some_iff] at h
      obtain ⟨out, ho, _⟩ := h
      simp only [compiles, Bool.and_eq_true, decide_eq_true_eq]
      refine ⟨⟨⟨exec_compiles src st y hy, execs_compiles more y.1 z hz⟩, hl⟩, ?_⟩
      rw [← SessionLemmas.compilesKind_run py calls o order fuel en, ho]
      rfl
    · cases h
  | .union l r =>
    rw [exec, Option.bind_eq_some_iff] at h
    obtain ⟨y, hy, h⟩ := h
    rw [Option.map_eq_some_iff] at h
    obtain ⟨z, hz, _⟩ := h
    simp only [compiles, Bool.and_eq_true]
    exact ⟨exec_compiles l st y hy, exec_compiles r y.1 z hz⟩
  | .withq n d b =>
    rw [exec] at h
    split at h
    · cases h
    · rename_i hl
      rw [Option.bind_eq_some_iff] at h
      obtain ⟨y, hy, h⟩ := h
      simp only [compiles, Bool.and_eq_true]
      exact ⟨⟨by simpa using hl, exec_compiles d st y hy⟩, exec_compiles b _ x h⟩
theorem execs_compiles (l : Rels S) (st : Store) (x : Store × List (List (Union.Branch Out Val))) (h : execs py calls o order fuel en st l = some x) :
    compileds py calls o order fuel l = true := by
  match l with
  | .nil => rfl
  | .cons e l =>
    rw [execs, Option.bind_eq_some_iff] at h
    obtain ⟨y, hy, h⟩ := h
    rw [Option.map_eq_some_iff] at h
    obtain ⟨z, hz, _⟩ := h
    simp only [compileds, Bool.and_eq_true]
    exact ⟨exec_compiles e st y hy, execs_compiles l y.1 z hz⟩
end
end
end TreeSub
open TreeSub

section
variable {S : Type} (text : Str → Bool) (py : Py) (calls : Str → List Val → Val) (o : Join.Ops Val)
  (order : List Join.Name → List Join.Name) (fuel : Nat) (en : Engine)

/-- **C168**.  Whether a statement is accepted, subqueries in WHERE and all, does not depend on what the tables hold. -/
theorem C168_accepted (e : Tree.Rel S) (db db' : Store) :
    (Tree.result py calls o order fuel en db e).isSome = (Tree.result py calls o order fuel en db' e).isSome := by
  suffices h : ∀ db, (Tree.result py calls o order fuel en db e).isSome = compiles py calls o order fuel e by rw [h, h]
  intro db
  cases hc : compiles py calls o order fuel e with
  | true =>
    obtain ⟨x, hx⟩ := SessionLemmas.exec_some py calls o order fuel en e hc db
    rw [Tree.result, hx]; rfl
  | false =>
    rw [Tree.result]
    cases hx : exec py calls o order fuel en db e with
    | none => rfl
    | some x => rw [exec_compiles py calls o order fuel en e db x hx] at hc; cases hc

/-- **C168**.  The WHERE clause of a SELECT in a statement is compiled as `C167` says, with the rows its subqueries have by then. -/
theorem C168_compiled (prim : Str → Bool) (heads : List (List Str)) (others : List (List Row)) (w : Cond) (q : Query S)
    (h : Single (fun i => firstColumn heads others i) w) :
    ∃ c, Kind.fill heads others (.sub w (.plain q)) = .plain { q with cond := some c } ∧
      Where.compileWhere prim c = SubOperand.compileWhere prim (w.toS fun i => subOf heads others i) := by
  refine ⟨_, rfl, ?_⟩
  simp only [Kind.joins, List.length_nil, Nat.zero_add]
  apply asE_compile
  induction w with
  | and a b iha ihb => exact ⟨iha h.1, ihb h.2⟩
  | or a b iha ihb => exact ⟨iha h.1, ihb h.2⟩
  | not a ih => exact ih h
  | paren a ih => exact ih h
  | cmpSub op a i => simpa [Cond.toS, Singles, subOf, Single, firstColumn] using h
  | subCmp op i a => simpa [Cond.toS, Singles, subOf, Single, firstColumn] using h
  | _ => trivial

/-- **C168** (partial).  A SELECT with subqueries in its WHERE clause, in a statement in the supported form, is accepted and has SQL's
result: that of the SELECT whose WHERE clause has in the places of the subqueries what they give by themselves. -/
theorem C168_statement_partial (hsym : ∀ a b, o.truthy (o.cmp .eq a b) = o.truthy (o.cmp .eq b a)) (hperm : ∀ l, (order l).Perm l)
    (hen : EngineOk en) (hf : Faithful py en.src) (w : Cond) (k : Kind S) (src : Tree.Rel S) (more : Rels S) (db : Store)
    (hacc : Accepted py calls o fuel (.select (.sub w k) src more)) (hs : SqlTree.Scoped (.select (.sub w k) src more))
    (ha : Aligned (.select (.sub w k) src more)) (hfit : Fits text py calls o en db (.select (.sub w k) src more))
    (hfresh : ∀ n ∈ bound (.select (.sub w k) src more), db n = []) :
    ∃ out rows others, Tree.result py calls o order fuel en db (.select (.sub w k) src more) = some out ∧
      Means text py.cmp calls en.le o db src rows ∧ MeansAll text py.cmp calls en.le o db more others ∧
      KindResult text py.cmp calls en.le o (rows.map rowOfRecord) (others.map (·.map rowOfRecord)) out
        (withWhere (given (fun i => firstColumn (headers more) (others.map (·.map rowOfRecord)) (k.joins.length + i)) w) k) := by
  obtain ⟨out, h1, h2⟩ := C165_statement_partial text py calls o order fuel en hsym hperm hen hf _ db hacc hs ha hfit hfresh
  rw [Means] at h2
  obtain ⟨rows, others, h3, h4, _, h5⟩ := h2
  exact ⟨out, rows, others, h1, h3, h4, h5⟩

namespace TreeSubCases
open Verif.Props.TreeCases Verif.Props.TreeTotalCases Verif.Props.SessionCases Verif.Props.FromCases

/-- `SELECT i FROM s`. -/
def keys : Query Empty := { cols := [(['i'], .expr (.col ['i']))], table := ['s'], columns := [['i']] }

/-- `SELECT v FROM s LIMIT 1`. -/
def oneV : Query Empty := { cols := [(['v'], .expr (.col ['v']))], table := ['s'], columns := [['v']], limit := some 1, offset := 1 }

/-- `a IN (…) AND b > (…)`. -/
def clause : Cond := .and (.inSub (.col ['a']) 0) (.cmpSub .gt (.col ['b']) 1)

/-- `SELECT a, b FROM t WHERE a IN (SELECT i FROM s) AND b > (SELECT v FROM s LIMIT 1 OFFSET 1)`. -/
def stmt : Tree.Rel Empty :=
  .select (.sub clause (.plain abq)) (.scan ['t']) (.cons (.select (.plain keys) (.scan ['s']) .nil) (.cons (.select (.plain oneV) (.scan ['s']) .nil) .nil))

theorem subquery (q : Query Empty) (hq : q = keys ∨ q = oneV) (rows : List Out)
    (h : Means text py.cmp calls rankLe JoinCases.ops treeDb (.select (.plain q) (.scan ['s']) .nil) rows) : q = keys ∨ rows.length ≤ 1 := by
  rcases hq with rfl | rfl
  · exact .inl rfl
  · right
    rw [Means] at h
    obtain ⟨r, _, hr, _, h⟩ := h
    simp only [SelectResult, KindResult] at h
    unfold SqlNest.QueryResult at h
    rw [if_neg (by simp [oneV, SqlNest.isAggregate]), if_neg (by decide)] at h
    obtain ⟨sorted, hs, rfl⟩ := h
    simp [pageOf, oneV]
    omega

theorem fits_one (q : Query Empty) (hq : q = keys ∨ q = oneV) (rows : List Out) : PlainFits text py calls q (rows.map rowOfRecord) where
  names := by rcases hq with rfl | rfl <;> decide
  limit := by rcases hq with rfl | rfl <;> decide
  cond := by rcases hq with rfl | rfl <;> exact whereOk_none text py calls _ _ rfl rows
  having := by rcases hq with rfl | rfl <;> (intro e he; cases he)
  kind := by
    left
    rcases hq with rfl | rfl <;> refine ⟨rfl, rfl, ?_, ⟨by intro t n d h; simp [keys, oneV] at h, by intro n d h; simp [keys, oneV] at h⟩⟩ <;>
      intro c hc <;> simp only [keys, oneV, List.mem_cons, List.not_mem_nil, or_false] at hc <;> subst hc <;> exact ⟨_, rfl, rfl⟩

theorem lits_ok (l : List Val) : scalarOkL (lits l) = true ∧ hasColL (lits l) = false := by
  induction l with
  | nil => exact ⟨rfl, rfl⟩
  | cons v l ih => simp [lits, scalarOkL, scalarOk, hasColL, hasCol, ih]

theorem fits_clause (l : List Val) (v : Val) (rows : List Out) :
    PlainFits text py calls { abq with cond := some (.and (.inl (.col ['a']) (lits l)) (.cmp .gt (.col ['b']) (known v))) } (rows.map rowOfRecord) where
  names := (by decide : (abq.cols.map (·.1)).Nodup)
  limit := (by decide : abq.limit ≠ some 0)
  cond := by
    refine ⟨?_, ?_, ?_, rowOfRecord_typed rows⟩
    · intro e he
      simp only [Option.mem_def, Option.some.injEq] at he
      subst he
      exact ⟨trivial, trivial⟩
    · intro e he
      simp only [Option.mem_def, Option.some.injEq] at he
      subst he
      refine ⟨?_, ?_, ?_⟩
      · simp [tested, condOk, scalarOk, lits_ok, known, boolShape]
      · simp [tested, inListsConst, lits_ok]
      · intro k hk k' hk' h
        have hc : operandCols (tested (.and (.inl (.col ['a']) (lits l)) (.cmp .gt (.col ['b']) (known v)))) = [['a'], ['b']] := rfl
        rw [hc] at hk hk'
        simp only [List.mem_cons, List.not_mem_nil, or_false] at hk hk'
        rcases hk with rfl | rfl <;> rcases hk' with rfl | rfl <;> first | rfl | (revert h; decide)
    · intro e he r _
      simp only [Option.mem_def, Option.some.injEq] at he
      subst he
      exact ⟨trivial, trivial⟩
  having := by intro e he; cases he
  kind := by
    left
    refine ⟨rfl, rfl, ?_, ⟨by intro t n d h; simp [abq] at h, by intro n d h; simp [abq] at h⟩⟩
    intro c hc
    simp only [abq, List.mem_cons, List.not_mem_nil, or_false] at hc
    rcases hc with rfl | rfl <;> exact ⟨_, rfl, rfl⟩

/-- C168 on `stmt`. -/
example : ∃ out rows others, Tree.result py calls JoinCases.ops id 5 (oneBatch py) treeDb stmt = some out ∧
    Means text py.cmp calls rankLe JoinCases.ops treeDb (.scan ['t'] : Tree.Rel Empty) rows ∧
    MeansAll text py.cmp calls rankLe JoinCases.ops treeDb
      (.cons (.select (.plain keys) (.scan ['s']) .nil) (.cons (.select (.plain oneV) (.scan ['s']) .nil) .nil)) others ∧
    KindResult text py.cmp calls rankLe JoinCases.ops (rows.map rowOfRecord) (others.map (·.map rowOfRecord)) out
      (.plain { abq with cond := some (given (fun i => firstColumn [[['i']], [['v']]] (others.map (·.map rowOfRecord)) (0 + i)) clause) }) := by
  apply C168_statement_partial text py calls JoinCases.ops id 5 (oneBatch py) JoinCases.opsSym (fun l => List.Perm.refl l) (oneBatch_ok py)
    (idealSrc_faithful py) clause (.plain abq)
  · simp only [Accepted, Accepteds, SelectAccepted, KindAccepted, withWhere, true_and, and_true]
    exact ⟨⟨by simp [clause, compared, Where.baseName], plain_ok _ rfl rfl rfl⟩, rfl, ⟨plain_ok keys rfl rfl rfl, rfl⟩, plain_ok oneV rfl rfl rfl, rfl⟩
  · simp [SqlTree.Scoped, Scopeds, Apart, bound, bounds, free, frees]
  · simp [Aligned, Aligneds]
  · simp only [Fits, Fitss, true_and, and_true]
    refine ⟨⟨fun rows others _ _ => fits_one text py calls _ (.inl rfl) rows, fun rows others _ _ => fits_one text py calls _ (.inr rfl) rows⟩, ?_⟩
    intro rows others h1 h2
    rw [MeansAll] at h2
    obtain ⟨o1, rest, _, h2, rfl⟩ := h2
    rw [MeansAll] at h2
    obtain ⟨o2, rest, h3, h2, rfl⟩ := h2
    rw [MeansAll] at h2
    subst h2
    have hl : o2.length ≤ 1 := by
      rcases subquery text py calls oneV (.inr rfl) o2 h3 with h | h
      · cases h
      · exact h
    refine ⟨⟨trivial, by simpa [Single, firstColumn, Kind.joins] using hl⟩, fits_clause text py calls _ _ rows⟩
  · intro n hn
    simp [bound, bounds] at hn

example : Tree.result plainPy noCalls JoinCases.ops id 5 (oneBatch plainPy) treeDb stmt = some [ab 1 5] := by decide +kernel
end TreeSubCases
end
end Verif.Props
