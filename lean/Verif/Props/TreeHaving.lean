import Verif.Props.TreeSub
import Verif.Props.HavingSub
/-! C169: statements whose SELECTs have subqueries in HAVING. -/
namespace Verif.Props
open Verif.Val Verif.Expr Verif.Sql Verif.Where Verif.Select Verif.SqlSelect Verif.Tree Verif.SqlTree Verif.Session
open Verif.Nest (Store append)
open Verif.SqlNest (rowOfRecord)
open Verif.Props.TreeLemmas
open Verif.AcceptSpec Verif.TotalSpec Verif.Props.TreeTotal

section
variable {S : Type} (text : Str → Bool) (py : Py) (calls : Str → List Val → Val) (o : Join.Ops Val)
  (order : List Join.Name → List Join.Name) (fuel : Nat) (en : Engine)

/-- **C169**.  The HAVING clause of a SELECT in a statement has the value of what `C169_having_partial` is about, with the rows its subqueries
have by then. -/
theorem C169_compiled (heads : List (List Str)) (others : List (List Row)) (h : HCond) (q : Query S)
    (hs : SingleHaving (fun i => firstColumn heads others i) h) (t : T)
    (ht : HavingSub.compileH (h.toH fun i => subOf heads others i) = some t) :
    ∃ c t', Kind.fill heads others (.hav h (.plain q)) = .plain { q with having := some c } ∧ compileHaving c = some t' ∧
      ∀ row, eval py calls row t' = eval py calls row t := by
  have hs' : SinglesH (h.toH fun i => subOf heads others i) := by
    clear ht
    induction h with
    | and a b iha ihb => exact ⟨iha hs.1, ihb hs.2⟩
    | or a b iha ihb => exact ⟨iha hs.1, ihb hs.2⟩
    | paren a ih => exact ih hs
    | cmpSub op a i => simpa [HCond.toH, SinglesH, subOf, SingleHaving, firstColumn] using hs
    | _ => trivial
  obtain ⟨t', h1, _⟩ := asH_eval py calls (fun _ => .null) _ hs' t ht
  refine ⟨_, t', rfl, ?_, fun row => ?_⟩
  · simpa only [Kind.joins, Kind.subs, List.length_nil, Nat.zero_add] using h1
  · obtain ⟨t'', g1, g2⟩ := asH_eval py calls row _ hs' t ht
    rw [h1] at g1
    cases g1
    exact g2

/-- **C169** (partial).  A SELECT with subqueries in its HAVING clause (and perhaps in WHERE), in a statement in the supported form, is
accepted and has SQL's result: that of the SELECT whose clauses have in the places of the subqueries what they give by themselves. -/
theorem C169_statement_partial (hsym : ∀ a b, o.truthy (o.cmp .eq a b) = o.truthy (o.cmp .eq b a)) (hperm : ∀ l, (order l).Perm l)
    (hen : EngineOk en) (hf : Faithful py en.src) (h : HCond) (k : Kind S) (src : Tree.Rel S) (more : Rels S) (db : Store)
    (hacc : Accepted py calls o fuel (.select (.hav h k) src more)) (hs : SqlTree.Scoped (.select (.hav h k) src more))
    (ha : Aligned (.select (.hav h k) src more)) (hfit : Fits text py calls o en db (.select (.hav h k) src more))
    (hfresh : ∀ n ∈ bound (.select (.hav h k) src more), db n = []) :
    ∃ out rows others, Tree.result py calls o order fuel en db (.select (.hav h k) src more) = some out ∧
      Means text py.cmp calls en.le o db src rows ∧ MeansAll text py.cmp calls en.le o db more others ∧
      KindResult text py.cmp calls en.le o (rows.map rowOfRecord) (others.map (·.map rowOfRecord)) out
        (havingThis (givenHaving (fun i => firstColumn (headers more) (others.map (·.map rowOfRecord)) (k.joins.length + k.subs + i)) h)
          (placed (headers more) (others.map (·.map rowOfRecord)) k)) := by
  obtain ⟨out, h1, h2⟩ := C165_statement_partial text py calls o order fuel en hsym hperm hen hf _ db hacc hs ha hfit hfresh
  rw [Means] at h2
  obtain ⟨rows, others, h3, h4, _, _, h5⟩ := h2
  exact ⟨out, rows, others, h1, h3, h4, h5⟩

namespace TreeHavingCases
open Verif.Props.TreeCases Verif.Props.TreeTotalCases Verif.Props.SessionCases Verif.Props.FromCases Verif.Props.TreeSubCases

/-- `b > (…) AND EXISTS (…)`. -/
def having : HCond := .and (.cmpSub .gt (.col ['b']) 0) (.exist 1)

/-- `SELECT a, b FROM t WHERE a IN (SELECT i FROM s) HAVING b > (SELECT v FROM s LIMIT 1 OFFSET 1) AND EXISTS (SELECT i FROM s)`. -/
def stmt : Tree.Rel Empty :=
  .select (.hav having (.sub (.inSub (.col ['a']) 0) (.plain abq))) (.scan ['t'])
    (.cons (.select (.plain keys) (.scan ['s']) .nil) (.cons (.select (.plain oneV) (.scan ['s']) .nil)
      (.cons (.select (.plain keys) (.scan ['s']) .nil) .nil)))

theorem fits_having (l : List Val) (v w : Val) (rows : List Out) :
    PlainFits text py calls
      { abq with
        cond := some (.inl (.col ['a']) (lits l))
        having := some (.and (.cmp .gt (.col ['b']) (known v)) (.cmp .eq (.lit (.int 1)) (.lit w))) } (rows.map rowOfRecord) where
  names := (by decide : (abq.cols.map (·.1)).Nodup)
  limit := (by decide : abq.limit ≠ some 0)
  cond := by
    refine ⟨?_, ?_, ?_, rowOfRecord_typed rows⟩
    · intro e he
      simp only [Option.mem_def, Option.some.injEq] at he
      subst he
      exact trivial
    · intro e he
      simp only [Option.mem_def, Option.some.injEq] at he
      subst he
      refine ⟨?_, ?_, ?_⟩
      · simp [tested, condOk, scalarOk, lits_ok, boolShape]
      · simp [tested, inListsConst, lits_ok]
      · intro k hk k' hk' h
        have hc : operandCols (tested (.inl (.col ['a']) (lits l))) = [['a']] := rfl
        rw [hc] at hk hk'
        simp only [List.mem_cons, List.not_mem_nil, or_false] at hk hk'
        rw [hk, hk']
    · intro e he r _
      simp only [Option.mem_def, Option.some.injEq] at he
      subst he
      exact trivial
  having := by
    intro e he
    simp only [Option.mem_def, Option.some.injEq] at he
    subst he
    simp [havingOk, scalarOk, known, condOk, boolShape]
  kind := by
    left
    refine ⟨rfl, rfl, ?_, ⟨by intro t n d h; simp [abq] at h, by intro n d h; simp [abq] at h⟩⟩
    intro c hc
    simp only [abq, List.mem_cons, List.not_mem_nil, or_false] at hc
    rcases hc with rfl | rfl <;> exact ⟨_, rfl, rfl⟩

example : ∃ out rows others, Tree.result py calls JoinCases.ops id 5 (oneBatch py) treeDb stmt = some out ∧
    Means text py.cmp calls rankLe JoinCases.ops treeDb (.scan ['t'] : Tree.Rel Empty) rows ∧
    MeansAll text py.cmp calls rankLe JoinCases.ops treeDb
      (.cons (.select (.plain keys) (.scan ['s']) .nil) (.cons (.select (.plain oneV) (.scan ['s']) .nil)
        (.cons (.select (.plain keys) (.scan ['s']) .nil) .nil))) others ∧
    KindResult text py.cmp calls rankLe JoinCases.ops (rows.map rowOfRecord) (others.map (·.map rowOfRecord)) out
      (.plain
        { abq with
          cond := some (given (fun i => firstColumn [[['i']], [['v']], [['i']]] (others.map (·.map rowOfRecord)) (0 + i)) (.inSub (.col ['a']) 0))
          having := some (givenHaving (fun i => firstColumn [[['i']], [['v']], [['i']]] (others.map (·.map rowOfRecord)) (0 + 1 + i)) having) }) := by
  apply C169_statement_partial text py calls JoinCases.ops id 5 (oneBatch py) JoinCases.opsSym (fun l => List.Perm.refl l) (oneBatch_ok py)
    (idealSrc_faithful py) having (.sub (.inSub (.col ['a']) 0) (.plain abq))
  · simp only [Accepted, Accepteds, SelectAccepted, KindAccepted, withWhere, havingThis, placed, Untyped, true_and, and_true]
    refine ⟨⟨by simp [having, comparedHaving, Where.baseName], by simp [compared, Where.baseName], ?_⟩, rfl, ⟨plain_ok keys rfl rfl rfl, rfl⟩,
      ⟨plain_ok oneV rfl rfl rfl, rfl⟩, plain_ok keys rfl rfl rfl, rfl⟩
    refine ⟨?_, .inl (by intro i hi; cases hi), by intro c hc; cases hc⟩
    intro e he
    simp only [Option.some.injEq] at he
    subst he
    refine ⟨.and (.cmp _ _ _) (.cmp _ _ _), ?_⟩
    intro c hc
    simp [having, emptyHaving, parts] at hc
    subst hc
    simp [names, abq]
  · simp [SqlTree.Scoped, Scopeds, Apart, bound, bounds, free, frees]
  · simp [Aligned, Aligneds]
  · simp only [Fits, Fitss, true_and, and_true]
    refine ⟨⟨fun rows others _ _ => fits_one text py calls _ (.inl rfl) rows, fun rows others _ _ => fits_one text py calls _ (.inr rfl) rows,
      fun rows others _ _ => fits_one text py calls _ (.inl rfl) rows⟩, ?_⟩
    intro rows others h1 h2
    rw [MeansAll] at h2
    obtain ⟨o1, rest, _, h2, rfl⟩ := h2
    rw [MeansAll] at h2
    obtain ⟨o2, rest, h3, h2, rfl⟩ := h2
    rw [MeansAll] at h2
    obtain ⟨o3, rest, _, h2, rfl⟩ := h2
    rw [MeansAll] at h2
    subst h2
    have hl : o2.length ≤ 1 := by
      rcases subquery text py calls oneV (.inr rfl) o2 h3 with h | h
      · cases h
      · exact h
    refine ⟨trivial, ⟨by simpa [SingleHaving, firstColumn, Kind.joins, Kind.subs, Cond.subs] using hl, trivial⟩, fits_having text py calls _ _ _ rows⟩
  · intro n hn
    simp [bound, bounds] at hn

example : Tree.result plainPy noCalls JoinCases.ops id 5 (oneBatch plainPy) treeDb stmt = some [ab 1 5] := by decide +kernel
end TreeHavingCases
end
end Verif.Props
