import Verif.Props.Nest
import Verif.Props.JoinDistinct
import Verif.Props.JoinInner
import Verif.Props.FromList
import Verif.Props.WinCases
import Verif.Spec.Tree
import Verif.Proofs.TreeSub
/-! C155: statements made of several SELECTs with joins and windows, to any depth. -/
namespace Verif.Props.TreeLemmas
open Verif.Val Verif.Expr Verif.Sql Verif.Where Verif.Order Verif.SqlOrder Verif.Select Verif.SqlSelect Verif.Tree Verif.SqlTree
open Verif.Nest (Store append asRow)
open Verif.SqlNest (rowOfRecord QueryResult isAggregate)
open Verif.Proofs.JoinSelect (JoinsOk asLeft)
open Verif.Props.Nested (LevelOk IsBranch asRow_eq isAggregate_eq collect_flat result_names project_names mem_pageOf)
open Verif.WinSelect (WinQueryOk isWin winNames)
open Verif.Props.FromList (FromOk)

section
variable {S : Type} (text : Str → Bool) (py : Py) (calls : Str → List Val → Val) (o : Join.Ops Val)
  (order : List Join.Name → List Join.Name) (fuel : Nat) (en : Engine)

/-- What C132–C136 ask of one SELECT with LEFT JOINs or INNER JOINs and the rows it reads; `eff` are the joins as LEFT JOINs. -/
structure JoinLevelOk (joins eff : List (Join.Join Val)) (q : Query S) (p : JoinSelect.Plan (Join.C Val) S)
    (db : Join.Name → List (Join.Row Val)) (rows : List Row) : Prop where
  shape : (JoinsOk o (String.ofList q.table) joins ∧ eff = joins) ∨ (InnerOk o (String.ofList q.table) joins ∧ eff = asLeft joins)
  one : OneMatch o (String.ofList q.table) db eff rows
  names : (q.cols.map (·.1)).Nodup
  limit : q.limit ≠ some 0
  cond : WhereOk text py calls { q with prim := JoinSelect.isPrim } (joinedRows o (String.ofList q.table) db eff rows)
  having : ∀ e ∈ q.having, havingOk e = true
  kind :
    (q.group = [] ∧ q.distinct = false ∧ (∀ c ∈ q.cols, ∃ e, c.2 = .expr e ∧ scalarOk e = true) ∧ JoinOrderOk q) ∨
    (q.group = [] ∧ q.distinct = true ∧ (∀ c ∈ q.cols, ∃ e, c.2 = .expr e ∧ scalarOk e = true) ∧ q.cols ≠ [] ∧ JoinGroupOrderOk q ∧
      (q.limit = none ∨ p.predicate.isSome ∨ p.intercept.isSome ∨ p.sort.isSome) ∧
      Distinguishable text py calls q (joinedRows o (String.ofList q.table) db eff rows)) ∨
    ((q.group ≠ [] ∨ ∃ c ∈ q.cols, isAggregate c.2 = true) ∧ q.cols ≠ [] ∧ JoinGroupOrderOk q ∧
      (∀ n e, (n, Select.Item.expr e) ∈ q.cols → scalarOk e = true) ∧
      (∀ n args final, (n, Select.Item.agg args final) ∈ q.cols → ∀ a ∈ args, scalarOk a.2 = true) ∧
      (∀ e, GKey.expr e ∈ q.group → scalarOk e = true) ∧ GroupNamesOk q.cols q.group ∧
      (q.limit = none ∨ (∃ c ∈ q.cols, isAggregate c.2 = true) ∨ p.predicate.isSome ∨ p.intercept.isSome ∨ p.sort.isSome) ∧
      (∀ n args final, (n, Select.Item.agg args final) ∈ q.cols → ∀ a ∈ args, ∃ good : Val → Prop,
        a.1.fold.Law good ∧ ∀ r ∈ joinedRows o (String.ofList q.table) db eff rows, good (sem text py.cmp calls r a.2)) ∧
      (q.group ≠ [] ∨ ∃ r ∈ joinedRows o (String.ofList q.table) db joins rows, satisfies text py.cmp calls q.cond r = true) ∧
      ((∀ c ∈ q.cols, isAggregate c.2 = false) → Dependent text py calls q (joinedRows o (String.ofList q.table) db eff rows)))

theorem compileJoins_left (joins : List (Join.Join Val)) (q : Query S) (h : ∀ j ∈ joins, j.kind = .left) :
    JoinSelect.compileJoins py calls o order fuel joins q = JoinSelect.compile py calls o order fuel joins q := by
  have hany : (joins.any fun j => decide (j.kind = .inner)) = false := by
    rw [List.any_eq_false]
    intro j hj
    rw [h j hj]; decide
  have hr : JoinSelect.rewriteInner joins q = (joins, q) := by
    rw [JoinSelect.rewriteInner, hany]; rfl
  rw [JoinSelect.compileJoins, hr]
  simp only [hany]
  rfl

theorem join_level (hsym : ∀ a b, o.truthy (o.cmp .eq a b) = o.truthy (o.cmp .eq b a)) (hperm : ∀ l, (order l).Perm l)
    (ht : ∀ x y, en.le x y = true ∨ en.le y x = true)
    (htr : ∀ x y z, en.le x y = true → en.le y z = true → en.le x z = true) (hf : Faithful py en.src)
    (hchunk : ∀ l, (en.chunk l).flatMap (·.1) = l) (db : Join.Name → List (Join.Row Val)) (joins eff : List (Join.Join Val)) (q : Query S)
    (p : JoinSelect.Plan (Join.C Val) S) (hp : JoinSelect.compileJoins py calls o order fuel joins q = some p) (rows : List Row)
    (h : JoinLevelOk text py calls o joins eff q p db rows) :
    JoinQueryResult text py.cmp calls en.le q (joinedRows o (String.ofList q.table) db joins rows) (JoinSelect.run py calls o db en p rows) := by
  have nogrp : q.group = [] → (∀ c ∈ q.cols, ∃ e, c.2 = .expr e ∧ scalarOk e = true) →
      ¬ (q.group ≠ [] ∨ ∃ c ∈ q.cols, isAggregate c.2 = true) := by
    rintro hg hc (h | ⟨c, hm, ha⟩)
    · exact h hg
    · obtain ⟨e, he, _⟩ := hc c hm
      rw [he] at ha; cases ha
  unfold JoinQueryResult
  rcases h.kind with ⟨hg, hd, hc, ho⟩ | ⟨hg, hd, hc, hne, ho, hlim, hdist⟩ | ⟨hgrp, hne, ho, he, ha, hge, hok, hlim, hlaw, hsome, hdep⟩
  · rw [if_neg (nogrp hg hc), if_neg (by rw [hd]; decide)]
    rcases h.shape with ⟨hj, rfl⟩ | ⟨hj, rfl⟩
    · rw [compileJoins_left py calls o order fuel _ q hj.left] at hp
      exact C132_join_select_partial text py calls o hsym order hperm fuel db en ht htr hf q _ hj p hp hc h.names hg hd h.limit rows h.one
        h.cond h.having ho
    · exact C134_inner_select_partial text py calls o hsym order hperm fuel db en ht htr hf q _ hj p hp hc h.names hg hd h.limit rows h.one
        h.cond h.having ho
  · rw [if_neg (nogrp hg hc), if_pos hd]
    rcases h.shape with ⟨hj, rfl⟩ | ⟨hj, rfl⟩
    · rw [compileJoins_left py calls o order fuel _ q hj.left] at hp
      exact C136_left_distinct_partial text py calls o hsym order hperm fuel db en ht htr hf hchunk q _ hj p hp hc h.names hne hg hd h.limit
        hlim rows h.one h.cond h.having hdist ho
    · exact C136_inner_distinct_partial text py calls o hsym order hperm fuel db en ht htr hf hchunk q _ hj p hp hc h.names hne hg hd h.limit
        hlim rows h.one h.cond h.having hdist ho
  · rw [if_pos hgrp]
    simp only [isAggregate_eq] at hgrp hlim hdep
    rcases h.shape with ⟨hj, rfl⟩ | ⟨hj, rfl⟩
    · rw [compileJoins_left py calls o order fuel _ q hj.left] at hp
      exact C133_join_grouped_partial text py calls o hsym order hperm fuel db en ht htr hf hchunk q _ hj p hp he ha hge h.names hne hgrp hok
        h.limit hlim rows h.one h.cond h.having hlaw hsome hdep ho
    · exact C135_inner_grouped_partial text py calls o hsym order hperm fuel db en ht htr hf hchunk q _ hj p hp he ha hge h.names hne hgrp hok
        h.limit hlim rows h.one h.cond h.having hlaw hsome hdep ho

/-- The LEFT JOINs a list of tables becomes. -/
def listJoins (ts : List Join.Name) (w : List JoinSelect.Conj) (q : Query S) : List (Join.Join Val) :=
  Join.multiJoins (w.map (JoinSelect.Conj.toCond py calls)) [String.ofList q.table] ts

/-- What C147 asks of the WHERE clause of a SELECT from several tables and the rows it reads. -/
structure ListOk (ts : List Join.Name) (w : List JoinSelect.Conj) (q : Query S) (db : Join.Name → List (Join.Row Val)) (rows : List Row) :
    Prop where
  several : ts ≠ []
  tied : FromOk py calls o (String.ofList q.table) ts w
  agree : ∀ r ∈ joinedRows o (String.ofList q.table) db (listJoins py calls ts w q) rows ++ crossRows (String.ofList q.table) db ts rows,
    FromList.Agree text py calls o (String.ofList q.table) w r

/-- Only the rows that satisfy WHERE matter. -/
theorem joinResult_filter (cmp : Cmp → Val → Val → Val) (le : Val → Val → Bool) (q : Query S) (rows rows' : List Row) (out : List Out)
    (h : rows.filter (satisfies text cmp calls q.cond) = rows'.filter (satisfies text cmp calls q.cond))
    (hr : JoinQueryResult text cmp calls le q rows out) : JoinQueryResult text cmp calls le q rows' out := by
  unfold JoinQueryResult at hr ⊢
  have hm : ∀ r, (r ∈ rows ∧ satisfies text cmp calls q.cond r = true) ↔ (r ∈ rows' ∧ satisfies text cmp calls q.cond r = true) := by
    intro r
    rw [← List.mem_filter, h, List.mem_filter]
  split
  · rename_i hg
    rw [if_pos hg] at hr
    obtain ⟨members, sorted, m1, m2, m3⟩ := hr
    exact ⟨members, sorted, h ▸ m1, h ▸ m2, m3⟩
  · rename_i hg
    rw [if_neg hg] at hr
    split
    · rename_i hd
      rw [if_pos hd] at hr
      obtain ⟨sorted, m1, m2, m3⟩ := hr
      refine ⟨sorted, m1, fun x => (m2 x).trans ?_, m3⟩
      constructor
      · rintro ⟨r, a, b, c⟩
        exact ⟨r, ((hm r).1 ⟨a, b⟩).1, b, c⟩
      · rintro ⟨r, a, b, c⟩
        exact ⟨r, ((hm r).2 ⟨a, b⟩).1, b, c⟩
    · rename_i hd
      rw [if_neg hd] at hr
      obtain ⟨sorted, m1, m2⟩ := hr
      refine ⟨sorted, ?_, m2⟩
      refine Eq.mp (congrArg (fun l => SqlOrder.Sorted le _ l sorted) ?_) m1
      have e : ∀ l : List Row, (l.filter fun r => satisfies text cmp calls q.cond r &&
          satisfies text cmp calls q.having (fun n => colVal n (project text cmp calls q.cols [r])))
          = (l.filter (satisfies text cmp calls q.cond)).filter fun r =>
            satisfies text cmp calls q.having (fun n => colVal n (project text cmp calls q.cols [r])) := by
        intro l
        rw [List.filter_filter]
        exact List.filter_congr fun r _ => Bool.and_comm _ _
      rw [e, e, h]

theorem list_level (hsym : ∀ a b, o.truthy (o.cmp .eq a b) = o.truthy (o.cmp .eq b a)) (hperm : ∀ l, (order l).Perm l)
    (ht : ∀ x y, en.le x y = true ∨ en.le y x = true)
    (htr : ∀ x y z, en.le x y = true → en.le y z = true → en.le x z = true) (hf : Faithful py en.src)
    (hchunk : ∀ l, (en.chunk l).flatMap (·.1) = l) (db : Join.Name → List (Join.Row Val)) (ts : List Join.Name) (w : List JoinSelect.Conj)
    (q : Query S) (p : JoinSelect.Plan (Join.C Val) S) (hp : JoinSelect.compileFrom py calls o order fuel ts [] w q = some p) (rows : List Row)
    (hl : ListOk text py calls o ts w q db rows)
    (h : JoinLevelOk text py calls o (listJoins py calls ts w q) (listJoins py calls ts w q)
      { q with cond := JoinSelect.whereE (String.ofList q.table) w } p db rows) :
    JoinQueryResult text py.cmp calls en.le { q with cond := JoinSelect.whereE (String.ofList q.table) w }
      (crossRows (String.ofList q.table) db ts rows) (JoinSelect.run py calls o db en p rows) := by
  rw [JoinSelect.compileFrom, if_neg hl.several] at hp
  exact joinResult_filter text calls _ _ _ _ _ _ (FromList.filter_cross text py calls hl.tied db rows hl.agree)
    (join_level text py calls o order fuel en hsym hperm ht htr hf hchunk db _ _ { q with cond := JoinSelect.whereE (String.ofList q.table) w }
      p hp rows h)

/-- What C65 asks of one SELECT with window columns. -/
structure WinLevelOk (q : WinSelect.Query S) (rows : List Row) : Prop where
  query : WinQueryOk q
  win : ∃ c ∈ q.cols, isWin c.2 = true
  limit : q.limit ≠ some 0
  cond : WhereOk text py calls (asSelect q) rows
  having : ∀ e ∈ q.having, havingOk e = true
  order : WinOrderOk q
  ties : NoTies text py calls en.le q rows

/-- What is asked of one SELECT, for the rows of its sources. -/
def KindOk (rows : List Row) (others : List (List Row)) : Kind S → Prop
  | .plain q => ∀ p, compileSelect q = some p → LevelOk text py calls q p rows
  | .joined joins q => ∀ p, JoinSelect.compileJoins py calls o order fuel joins q = some p →
      ∃ eff, JoinLevelOk text py calls o joins eff q p (joinedTable joins others) rows
  | .comma ts w q => ListOk text py calls o ts w q (listedTable ts others) rows ∧
      ∀ p, JoinSelect.compileFrom py calls o order fuel ts [] w q = some p →
        JoinLevelOk text py calls o (listJoins py calls ts w q) (listJoins py calls ts w q)
          { q with cond := JoinSelect.whereE (String.ofList q.table) w } p (listedTable ts others) rows
  | .windowed q => WinLevelOk text py calls en q rows
  | .sub _ _ => False
  | .hav _ _ => False

/-- What is asked of one SELECT whose WHERE and HAVING clauses may have subqueries. -/
def SelectOk (rows : List Row) (heads : List (List Str)) (others : List (List Row)) : Kind S → Prop
  | .sub w k => Single (fun i => firstColumn heads others (k.joins.length + i)) w ∧
      KindOk text py calls o order fuel en rows others (Kind.fill heads others (.sub w k))
  | .plain q => KindOk text py calls o order fuel en rows others (.plain q)
  | .joined joins q => KindOk text py calls o order fuel en rows others (.joined joins q)
  | .comma ts w q => KindOk text py calls o order fuel en rows others (.comma ts w q)
  | .windowed q => KindOk text py calls o order fuel en rows others (.windowed q)
  | .hav h k => SingleWhere heads others k ∧ SingleHaving (fun i => firstColumn heads others (k.joins.length + k.subs + i)) h ∧
      KindOk text py calls o order fuel en rows others (Kind.fill heads others (.hav h k))

theorem tables_eq (joins : List (Join.Join Val)) (others : List (List Row)) : tables (joins.map (·.name)) others = joinedTable joins others := by
  induction joins generalizing others with
  | nil => cases others <;> rfl
  | cons j joins ih =>
    cases others with
    | nil => rfl
    | cons t ts =>
      funext n
      rw [joinedTable, List.map_cons, tables, ih]
      rfl

theorem listed_eq (ts : List Join.Name) (others : List (List Row)) : tables ts others = listedTable ts others := by
  induction ts generalizing others with
  | nil => cases others <;> rfl
  | cons t ts ih =>
    cases others with
    | nil => rfl
    | cons r rs =>
      funext n
      rw [listedTable, tables, ih]
      rfl

/-- One SELECT. -/
theorem kind_level (hsym : ∀ a b, o.truthy (o.cmp .eq a b) = o.truthy (o.cmp .eq b a)) (hperm : ∀ l, (order l).Perm l)
    (ht : ∀ x y, en.le x y = true ∨ en.le y x = true)
    (htr : ∀ x y z, en.le x y = true → en.le y z = true → en.le x z = true) (hf : Faithful py en.src)
    (hchunk : ∀ l, (en.chunk l).flatMap (·.1) = l) (rows : List Row) (others : List (List Row)) (k : Kind S) (out : List Out)
    (hr : runKind py calls o order fuel en rows others k = some out) (h : KindOk text py calls o order fuel en rows others k) :
    KindResult text py.cmp calls en.le o rows others out k := by
  cases k with
  | plain q =>
    simp only [runKind, Option.map_eq_some_iff] at hr
    obtain ⟨p, hp, rfl⟩ := hr
    exact Nested.level text py calls en ht htr hf hchunk q p hp rows (h p hp)
  | joined joins q =>
    simp only [runKind, Option.map_eq_some_iff] at hr
    obtain ⟨p, hp, rfl⟩ := hr
    obtain ⟨eff, h⟩ := h p hp
    rw [KindResult, tables_eq]
    exact join_level text py calls o order fuel en hsym hperm ht htr hf hchunk _ joins eff q p hp rows h
  | comma ts w q =>
    simp only [runKind, Option.map_eq_some_iff] at hr
    obtain ⟨p, hp, rfl⟩ := hr
    rw [KindResult, listed_eq]
    exact list_level text py calls o order fuel en hsym hperm ht htr hf hchunk _ ts w q p hp rows h.1 (h.2 p hp)
  | windowed q =>
    simp only [runKind, Option.map_eq_some_iff] at hr
    obtain ⟨p, hp, rfl⟩ := hr
    exact C65_window_partial text py calls en.src en.le ht htr hf q p hp h.query h.win h.limit rows h.cond h.having h.order h.ties
  | sub w k => exact h.elim
  | hav h' k => exact h.elim

/-! ### Subqueries in WHERE -/

/-- The clause of the model and that of the specification have the same truth value. -/
theorem asE_given (row : Row) (sub : Nat → SubOperand.Sub) (vals : Nat → List Val) (hv : ∀ i, (sub i).values = vals i) (w : Cond) :
    tv text (sem text py.cmp calls row (asE (w.toS sub))) = tv text (sem text py.cmp calls row (given vals w)) := by
  have hl : ∀ l : List Val, semL text py.cmp calls row (lits l) = semL text py.cmp calls row (listOf l) := by
    intro l
    induction l with
    | nil => rfl
    | cons v l ih => simp only [lits, listOf, semL, ih]
  have hk : ∀ v, sem text py.cmp calls row (known v) = v := by
    intro v
    simp [known, sem, tv]
  have he : ∀ i, (sub i).rows.isEmpty = (vals i).isEmpty := by
    intro i
    rw [← hv i, SubOperand.Sub.values, List.isEmpty_map]
  induction w with
  | e x => rfl
  | and a b iha ihb => simp only [Cond.toS, asE, given, sem, iha, ihb]
  | or a b iha ihb => simp only [Cond.toS, asE, given, sem, iha, ihb]
  | not a ih => simp only [Cond.toS, asE, given, sem, ih]
  | paren a ih => simpa only [Cond.toS, asE, given, sem] using ih
  | cmpSub op a i => simp only [Cond.toS, asE, given, sem, hk, hv]
  | subCmp op i a => simp only [Cond.toS, asE, given, sem, hk, hv]
  | inSub a i => simp only [Cond.toS, asE, given, sem, hl, hv]
  | exist i =>
    simp only [Cond.toS, asE, given, sem, he]
    cases (vals i).isEmpty <;> simp [tv]

/-- Only the truth of WHERE matters. -/
theorem result_congr (cmp : Cmp → Val → Val → Val) (le : Val → Val → Bool) (c c' : E)
    (h : ∀ row, tv text (sem text cmp calls row c) = tv text (sem text cmp calls row c'))
    (rows : List Row) (others : List (List Row)) (out : List Out) (k : Kind S)
    (hr : KindResult text cmp calls le o rows others out (k.withCond c)) : KindResult text cmp calls le o rows others out (withWhere c' k) := by
  have hs : satisfies text cmp calls (some c) = satisfies text cmp calls (some c') := by
    funext r
    simp only [satisfies, h]
  induction k with
  | plain q =>
    simp only [Kind.withCond, withWhere, KindResult, QueryResult, GroupResult, DistinctResult, RowResult, hs] at hr ⊢
    exact hr
  | joined joins q =>
    simp only [Kind.withCond, withWhere, KindResult, JoinQueryResult, GroupResult, DistinctResult, JoinRowResult, hs] at hr ⊢
    exact hr
  | comma ts w q =>
    have hs' : satisfies text cmp calls (JoinSelect.whereE (String.ofList q.table) (w ++ [.other c]))
        = satisfies text cmp calls (JoinSelect.whereE (String.ofList q.table) (w ++ [.other c'])) := by
      funext r
      rw [where_snoc, where_snoc]
      cases JoinSelect.whereE (String.ofList q.table) w with
      | none => simp only [satisfies, h]
      | some a =>
        have ha : tv text (sem text cmp calls r (.and a c)) = tv text (sem text cmp calls r (.and a c')) := by
          simp only [sem, h]
        show decide (_ = _) = decide (_ = _)
        exact decide_eq_decide.2 (by rw [show tv text (sem text cmp calls r (.and a c)) = _ from ha])
    simp only [Kind.withCond, withWhere, KindResult, JoinQueryResult, GroupResult, DistinctResult, JoinRowResult, hs'] at hr ⊢
    exact hr
  | windowed q =>
    simp only [Kind.withCond, withWhere, KindResult, SqlWindow.WinResult, hs] at hr ⊢
    obtain ⟨rows', outs, sorted, h1, h2, h3, h4, h5⟩ := hr
    exact ⟨rows', outs, sorted, h1, h2, h3, fun i r o a b => ⟨(h4 i r o a b).names, (h4 i r o a b).values⟩, h5⟩
  | sub w k ih => exact ih hr
  | hav h' k ih => exact hr.elim

/-- Only the truth of HAVING matters. -/
theorem having_congr (cmp : Cmp → Val → Val → Val) (le : Val → Val → Bool) (c c' : E)
    (h : ∀ row, tv text (sem text cmp calls row c) = tv text (sem text cmp calls row c'))
    (rows : List Row) (others : List (List Row)) (out : List Out) (k : Kind S)
    (hr : KindResult text cmp calls le o rows others out (k.withHaving c)) : KindResult text cmp calls le o rows others out (k.withHaving c') := by
  have hs : satisfies text cmp calls (some c) = satisfies text cmp calls (some c') := by
    funext r
    simp only [satisfies, h]
  cases k with
  | plain q =>
    simp only [Kind.withHaving, KindResult, QueryResult, GroupResult, DistinctResult, RowResult, hs] at hr ⊢
    exact hr
  | joined joins q =>
    simp only [Kind.withHaving, KindResult, JoinQueryResult, GroupResult, DistinctResult, JoinRowResult, hs] at hr ⊢
    exact hr
  | comma ts w q =>
    simp only [Kind.withHaving, KindResult, JoinQueryResult, GroupResult, DistinctResult, JoinRowResult, hs] at hr ⊢
    exact hr
  | windowed q =>
    simp only [Kind.withHaving, KindResult, SqlWindow.WinResult, hs] at hr ⊢
    obtain ⟨rows', outs, sorted, h1, h2, h3, h4, h5⟩ := hr
    exact ⟨rows', outs, sorted, h1, h2, h3, fun i r o a b => ⟨(h4 i r o a b).names, (h4 i r o a b).values⟩, h5⟩
  | sub w k => exact hr.elim
  | hav h' k => exact hr.elim

/-- The HAVING clause of the model and that of the specification have the same truth value. -/
theorem asH_given (row : Row) (sub : Nat → SubOperand.Sub) (vals : Nat → List Val) (hv : ∀ i, (sub i).values = vals i) (w : HCond) :
    tv text (sem text py.cmp calls row (asH (w.toH sub))) = tv text (sem text py.cmp calls row (givenHaving vals w)) := by
  have hk : ∀ v, sem text py.cmp calls row (known v) = v := by
    intro v
    simp [known, sem, tv]
  have he : ∀ i, (sub i).rows.isEmpty = (vals i).isEmpty := by
    intro i
    rw [← hv i, SubOperand.Sub.values, List.isEmpty_map]
  induction w with
  | e x => rfl
  | and a b iha ihb => simp only [HCond.toH, asH, givenHaving, sem, iha, ihb]
  | or a b iha ihb => simp only [HCond.toH, asH, givenHaving, sem, iha, ihb]
  | paren a ih => simpa only [HCond.toH, asH, givenHaving, sem] using ih
  | cmpSub op a i => simp only [HCond.toH, asH, givenHaving, sem, hk, hv]
  | inSub a i => simp only [HCond.toH, asH, givenHaving, sem, hv, listOf_eq]
  | notIn a i => simp only [HCond.toH, asH, givenHaving, sem, hv, listOf_eq]
  | exist i =>
    simp only [HCond.toH, asH, givenHaving, sem, he]
    cases (vals i).isEmpty
    · have : py.cmp .eq (.int 1) (.int 1) = .int 1 := rfl
      simp [this, tv]
    · have : py.cmp .eq (.int 1) (.int 0) = .int 0 := rfl
      simp [this, tv]

theorem subOf_values (heads : List (List Str)) (others : List (List Row)) (i : Nat) : (subOf heads others i).values = firstColumn heads others i := by
  simp only [SubOperand.Sub.values, firstColumn, subOf, SubOperand.Sub.columnName]
  cases (heads[i]?.getD []).head? <;> rfl

theorem asE_congr (s s' : Nat → SubOperand.Sub) (hv : ∀ i, (s i).values = (s' i).values) (w : Cond) : asE (w.toS s) = asE (w.toS s') := by
  have he : ∀ i, (s i).rows.isEmpty = (s' i).rows.isEmpty := by
    intro i
    have := congrArg List.isEmpty (hv i)
    simpa only [SubOperand.Sub.values, List.isEmpty_map] using this
  induction w with
  | e x => rfl
  | and a b iha ihb => simp only [Cond.toS, asE, iha, ihb]
  | or a b iha ihb => simp only [Cond.toS, asE, iha, ihb]
  | not a ih => simp only [Cond.toS, asE, ih]
  | paren a ih => simp only [Cond.toS, asE, ih]
  | cmpSub op a i => simp only [Cond.toS, asE, hv]
  | subCmp op i a => simp only [Cond.toS, asE, hv]
  | inSub a i => simp only [Cond.toS, asE, hv]
  | exist i => simp only [Cond.toS, asE, he]

theorem asH_congr (s s' : Nat → SubOperand.Sub) (hv : ∀ i, (s i).values = (s' i).values) (w : HCond) : asH (w.toH s) = asH (w.toH s') := by
  have he : ∀ i, (s i).rows.isEmpty = (s' i).rows.isEmpty := by
    intro i
    have := congrArg List.isEmpty (hv i)
    simpa only [SubOperand.Sub.values, List.isEmpty_map] using this
  induction w with
  | e x => rfl
  | and a b iha ihb => simp only [HCond.toH, asH, iha, ihb]
  | or a b iha ihb => simp only [HCond.toH, asH, iha, ihb]
  | paren a ih => simp only [HCond.toH, asH, ih]
  | cmpSub op a i => simp only [HCond.toH, asH, hv]
  | inSub a i => simp only [HCond.toH, asH, hv]
  | notIn a i => simp only [HCond.toH, asH, hv]
  | exist i => simp only [HCond.toH, asH, he]

theorem fillWhere_congr (h h' : List (List Str)) (hh : ∀ i : Nat, (h[i]?.getD []).head? = (h'[i]?.getD []).head?) (others : List (List Row))
    (k : Kind S) : k.fillWhere h others = k.fillWhere h' others := by
  cases k with
  | sub w k =>
    simp only [Kind.fillWhere]
    rw [asE_congr _ _ (fun i => ?_) w]
    simp only [subOf_values, firstColumn, hh]
  | _ => rfl

/-- Only the first column of a subquery matters. -/
theorem fill_congr (h h' : List (List Str)) (hh : ∀ i : Nat, (h[i]?.getD []).head? = (h'[i]?.getD []).head?) (others : List (List Row)) (k : Kind S) :
    k.fill h others = k.fill h' others := by
  cases k with
  | sub w k => exact fillWhere_congr h h' hh others (.sub w k)
  | hav w k =>
    simp only [Kind.fill]
    rw [asH_congr _ _ (fun i => ?_) w, fillWhere_congr h h' hh others k]
    simp only [subOf_values, firstColumn, hh]
  | _ => rfl

mutual
theorem head_eq (e : Rel S) (h : Aligned e) : (headOf e).head? = (header e).head? := by
  match e with
  | .scan _ => rfl
  | .select _ _ _ => rfl
  | .union l r =>
    rw [Aligned] at h
    have hl := head_eq l h.1
    have hr := head_eq r h.2.1
    rw [headOf, header]
    cases hd : headOf l with
    | nil =>
      rw [hd] at hl
      rw [← hl, List.head?_nil]
      have : (headOf r).head? = none := by rw [hr, ← h.2.2.2.2, ← hl]; rfl
      rw [List.head?_eq_none_iff] at this
      simp [this]
    | cons a b => rw [← hl, hd]; rfl
  | .withq n d b =>
    rw [Aligned] at h
    rw [headOf, header]
    exact head_eq b h.2
theorem heads_eq (l : Rels S) (h : Aligneds l) (i : Nat) : ((headsOf l)[i]?.getD []).head? = ((headers l)[i]?.getD []).head? := by
  match l with
  | .nil => rfl
  | .cons e l =>
    rw [Aligneds] at h
    cases i with
    | zero => simpa [headsOf, headers] using head_eq e h.1
    | succ i => simpa [headsOf, headers] using heads_eq l h.2 i
end

/-- One SELECT with its WHERE clause. -/
theorem select_level (hsym : ∀ a b, o.truthy (o.cmp .eq a b) = o.truthy (o.cmp .eq b a)) (hperm : ∀ l, (order l).Perm l)
    (ht : ∀ x y, en.le x y = true ∨ en.le y x = true)
    (htr : ∀ x y z, en.le x y = true → en.le y z = true → en.le x z = true) (hf : Faithful py en.src)
    (hchunk : ∀ l, (en.chunk l).flatMap (·.1) = l) (rows : List Row) (heads : List (List Str)) (others : List (List Row)) (k : Kind S)
    (out : List Out) (hr : runKind py calls o order fuel en rows others (k.fill heads others) = some out)
    (h : SelectOk text py calls o order fuel en rows heads others k) : SelectResult text py.cmp calls en.le o rows heads others out k := by
  cases k with
  | sub w k =>
    obtain ⟨h1, h2⟩ := h
    refine ⟨h1, result_congr text calls o _ _ _ _ (fun row => ?_) rows others out k
      (kind_level text py calls o order fuel en hsym hperm ht htr hf hchunk rows others _ out hr h2)⟩
    exact asE_given text py calls row _ _ (fun i => subOf_values heads others _) w
  | hav w k =>
    obtain ⟨h1, h2, h3⟩ := h
    refine ⟨h1, h2, ?_⟩
    have := having_congr text calls o _ _ _ _ (fun row => asH_given text py calls row _ _ (fun i => subOf_values heads others _) w) rows others out
      (k.fillWhere heads others) (kind_level text py calls o order fuel en hsym hperm ht htr hf hchunk rows others _ out hr h3)
    rw [havingThis_eq]
    cases k with
    | sub w' k =>
      simp only [Kind.fillWhere, having_cond] at this
      have := result_congr text calls o _ _ _ _ (fun row => asE_given text py calls row _ _ (fun i => subOf_values heads others _) w')
        rows others out _ this
      rw [withWhere_eq, ← having_cond] at this
      rw [placed, withWhere_eq]
      exact this
    | _ => exact this
  | plain q => exact kind_level text py calls o order fuel en hsym hperm ht htr hf hchunk rows others _ out hr h
  | joined joins q => exact kind_level text py calls o order fuel en hsym hperm ht htr hf hchunk rows others _ out hr h
  | comma ts w q => exact kind_level text py calls o order fuel en hsym hperm ht htr hf hchunk rows others _ out hr h
  | windowed q => exact kind_level text py calls o order fuel en hsym hperm ht htr hf hchunk rows others _ out hr h

theorem withCond_names (c : E) (k : Kind S) : (k.withCond c).names = k.names := by
  induction k with
  | sub w k ih => exact ih
  | hav h k ih => exact ih
  | _ => rfl

theorem withCond_keepsOrder (c : E) (k : Kind S) : keepsOrder (k.withCond c) = keepsOrder k := by
  induction k with
  | sub w k ih => exact ih
  | hav h k ih => exact ih
  | _ => rfl

theorem withHaving_names (c : E) (k : Kind S) : (k.withHaving c).names = k.names := by
  induction k with
  | sub w k ih => exact ih
  | _ => rfl

theorem withHaving_keepsOrder (c : E) (k : Kind S) : keepsOrder (k.withHaving c) = keepsOrder k := by
  induction k with
  | sub w k ih => exact ih
  | _ => rfl

theorem fill_names (heads : List (List Str)) (others : List (List Row)) (k : Kind S) : (k.fill heads others).names = k.names := by
  cases k with
  | sub w k => exact withCond_names _ k
  | hav h k =>
    rw [Kind.fill, withHaving_names]
    cases k with
    | sub w k => exact withCond_names _ k
    | _ => rfl
  | _ => rfl

theorem fill_keepsOrder (heads : List (List Str)) (others : List (List Row)) (k : Kind S) : keepsOrder (k.fill heads others) = keepsOrder k := by
  cases k with
  | sub w k => exact withCond_keepsOrder _ k
  | hav h k =>
    rw [Kind.fill, withHaving_keepsOrder]
    cases k with
    | sub w k => exact withCond_keepsOrder _ k
    | _ => rfl
  | _ => rfl

theorem selectOk_kind (rows : List Row) (heads : List (List Str)) (others : List (List Row)) (k : Kind S)
    (h : SelectOk text py calls o order fuel en rows heads others k) : KindOk text py calls o order fuel en rows others (k.fill heads others) := by
  cases k with
  | sub w k => exact h.2
  | hav w k => exact h.2.2
  | _ => exact h

theorem join_names (cmp : Cmp → Val → Val → Val) (le : Val → Val → Bool) (q : Query S) (rows : List Row) (out : List Out)
    (h : JoinQueryResult text cmp calls le q rows out) : ∀ o ∈ out, o.map (·.1) = q.cols.map (·.1) := by
  intro o ho
  unfold JoinQueryResult at h
  split at h
  · obtain ⟨members, sorted, _, _, hs, _, rfl⟩ := h
    have := hs.mem_iff.1 (mem_pageOf ho)
    obtain ⟨g, _, rfl⟩ := List.mem_map.1 (List.mem_filter.1 this).1
    exact project_names text calls cmp q.cols g
  · split at h
    · obtain ⟨sorted, _, hm, _, rfl⟩ := h
      obtain ⟨r, _, _, _, rfl⟩ := (hm o).1 (mem_pageOf ho)
      exact project_names text calls cmp q.cols [r]
    · obtain ⟨sorted, _, rfl⟩ := h
      obtain ⟨r, _, rfl⟩ := List.mem_map.1 (mem_pageOf ho)
      exact project_names text calls cmp q.cols [r]

theorem winNames_nodup (cols : List (Str × WinSelect.Item S)) (h : (winNames cols).Nodup) : (cols.map (·.1)).Nodup := by
  refine h.sublist ?_
  unfold winNames
  induction cols with
  | nil => exact .slnil
  | cons c cols ih =>
    have ih := ih (by
      rw [winNames, List.flatMap_cons] at h
      exact (List.nodup_append.1 h).2.1)
    simp only [List.map_cons, List.flatMap_cons, List.append_assoc, List.singleton_append]
    exact List.Sublist.trans (List.Sublist.cons_cons _ ih) (List.sublist_append_right _ _)

/-- A SELECT is a branch of a UNION. -/
theorem kind_branch (rows : List Row) (others : List (List Row)) (k : Kind S) (out : List Out)
    (hr : runKind py calls o order fuel en rows others k = some out) (h : KindOk text py calls o order fuel en rows others k)
    (hres : KindResult text py.cmp calls en.le o rows others out k)
    (hq : keepsOrder k = true) : IsBranch k.names ⟨k.names.map (fun n => (n, field n)), out⟩ := by
  refine ⟨rfl, ?_⟩
  cases k with
  | plain q =>
    simp only [runKind, Option.map_eq_some_iff] at hr
    obtain ⟨p, hp, rfl⟩ := hr
    exact ⟨(h p hp).names, result_names text calls py.cmp en.le q _ _ hres⟩
  | joined joins q =>
    simp only [runKind, Option.map_eq_some_iff] at hr
    obtain ⟨p, hp, rfl⟩ := hr
    obtain ⟨eff, h⟩ := h p hp
    exact ⟨h.names, join_names text calls py.cmp en.le q _ _ hres⟩
  | comma ts w q =>
    simp only [runKind, Option.map_eq_some_iff] at hr
    obtain ⟨p, hp, rfl⟩ := hr
    exact ⟨(h.2 p hp).names, join_names text calls py.cmp en.le
      { q with cond := JoinSelect.whereE (String.ofList q.table) w } _ _ hres⟩
  | windowed q =>
    simp only [runKind, Option.map_eq_some_iff] at hr
    obtain ⟨p, hp, rfl⟩ := hr
    refine ⟨winNames_nodup q.cols h.query.names, C65_column_order_partial py calls en.src en.le q p hp h.query (fun n ws e hm => ?_) rows⟩
    have := List.all_eq_true.1 hq _ hm
    cases this
  | sub w k => exact h.elim
  | hav w k => exact h.elim

mutual
/-- What is asked, of every SELECT in it, for the rows that SELECT reads in SQL. -/
def Ok (env : Str → List Out) : Rel S → Prop
  | .scan _ => True
  | .select k src more => Ok env src ∧ Oks env more ∧ ∀ rows others, Means text py.cmp calls en.le o env src rows →
      MeansAll text py.cmp calls en.le o env more others →
      SelectOk text py calls o order fuel en (rows.map rowOfRecord) (headers more) (others.map (·.map rowOfRecord)) k
  | .union l r => Ok env l ∧ Ok env r
  | .withq n d b => Ok env d ∧ ∀ rows, Means text py.cmp calls en.le o env d rows → Ok (fun m => if m = n then rows else env m) b
def Oks (env : Str → List Out) : Rels S → Prop
  | .nil => True
  | .cons e l => Ok env e ∧ Oks env l
end

theorem collect_query (st : Store) (e : Rel S) (bs : List (Union.Branch Out Val)) (hq : isQuery e = true) (hne : bs ≠ [])
    (h : ∀ b ∈ bs, IsBranch (header e) b) : collect st e bs = bs.flatMap (·.rows) := by
  cases e with
  | scan t => cases hq
  | select q s m => simp only [collect]
  | union l r => rw [collect]; exact collect_flat _ bs hne h
  | withq n d b => cases hq

theorem isAnswer_query {e : Rel S} (h : isQuery e = true) : isAnswer e = true := by
  cases e with
  | withq n d b => cases h
  | _ => exact h

theorem collect_answer (st : Store) (e : Rel S) (bs : List (Union.Branch Out Val)) (hq : isAnswer e = true) (hne : bs ≠ [])
    (h : ∀ b ∈ bs, IsBranch (header e) b) : collect st e bs = bs.flatMap (·.rows) := by
  match e with
  | .withq n d b => rw [collect]; exact collect_answer st b bs hq hne h
  | .scan t => cases hq
  | .select k s m => exact collect_query st _ bs hq hne h
  | .union l r => exact collect_query st _ bs hq hne h

theorem rows_eq (l : List Out) : l.map asRow = l.map rowOfRecord := List.map_congr_left fun o _ => asRow_eq o

theorem others_eq (l : List (List Out)) : l.map (·.map asRow) = l.map (·.map rowOfRecord) := List.map_congr_left fun x _ => rows_eq x

mutual
theorem exec_means (hsym : ∀ a b, o.truthy (o.cmp .eq a b) = o.truthy (o.cmp .eq b a)) (hperm : ∀ l, (order l).Perm l)
    (ht : ∀ x y, en.le x y = true ∨ en.le y x = true)
    (htr : ∀ x y z, en.le x y = true → en.le y z = true → en.le x z = true) (hf : Faithful py en.src)
    (hchunk : ∀ l, (en.chunk l).flatMap (·.1) = l) (e : Rel S)
    (env : Str → List Out) (st st' : Store) (bs : List (Union.Branch Out Val))
    (h : exec py calls o order fuel en st e = some (st', bs)) (hsc : SqlTree.Scoped e) (hal : Aligned e) (hok : Ok text py calls o order fuel en env e)
    (hfree : ∀ n ∈ free e, st n = env n) (hb : ∀ n ∈ bound e, st n = []) :
    (∀ st'' : Store, (∀ n, n ∈ free e ∨ n ∈ bound e → st'' n = st' n) → Means text py.cmp calls en.le o env e (collect st'' e bs)) ∧
      (∀ n, n ∉ bound e → st' n = st n) ∧ (isAnswer e = true → bs ≠ [] ∧ ∀ b ∈ bs, IsBranch (header e) b) := by
  match e with
  | .scan t =>
    simp only [exec] at h
    cases h
    refine ⟨fun st'' hs => ?_, fun _ _ => rfl, fun hq => by cases hq⟩
    rw [Means, collect, hs t (by simp [free])]
    exact hfree t (by simp [free])
  | .select k src more =>
    simp only [exec, Option.bind_eq_some_iff] at h
    obtain ⟨⟨s1, bs1⟩, h1, ⟨s2, bss⟩, h2, h⟩ := h
    split at h
    · simp only [Option.map_eq_some_iff] at h
      obtain ⟨out, hrun, h⟩ := h
      cases h
      simp only [SqlTree.Scoped, Apart] at hsc
      simp only [Aligned] at hal
      simp only [Ok] at hok
      obtain ⟨sc1, sc2, ap1, ap2⟩ := hsc
      obtain ⟨m1, a1, _⟩ := exec_means hsym hperm ht htr hf hchunk src env st s1 bs1 h1 sc1 hal.1 hok.1
        (fun n hn => hfree n (by simp [free, hn])) (fun n hn => hb n (by simp [bound, hn]))
      obtain ⟨m2, a2⟩ := execs_means hsym hperm ht htr hf hchunk more env s1 st' bss h2 sc2 hal.2 hok.2.1
        (fun n hn => by
          rw [a1 n fun hc => (ap1 n hc).1 hn]
          exact hfree n (by simp [free, hn]))
        (fun n hn => by
          rw [a1 n fun hc => (ap1 n hc).2 hn]
          exact hb n (by simp [bound, hn]))
      have m1 := m1 st' fun n hn => a2 n fun hc => by
        rcases hn with hn | hn
        · exact (ap2 n hc).1 hn
        · exact (ap2 n hc).2 hn
      have m2 := m2 st' fun _ _ => rfl
      rw [rows_eq, others_eq, fill_congr _ _ (heads_eq more hal.2)] at hrun
      have hk := hok.2.2 _ _ m1 m2
      have hres := select_level text py calls o order fuel en hsym hperm ht htr hf hchunk _ _ _ k out hrun hk
      refine ⟨fun st'' _ => ?_, ?_, fun hq => ⟨by simp, ?_⟩⟩
      · rw [Means, collect]
        simp only [List.flatMap_cons, List.flatMap_nil, List.append_nil]
        exact ⟨_, _, m1, m2, hres⟩
      · intro n hn
        simp only [bound, List.mem_append, not_or] at hn
        rw [a2 n hn.2, a1 n hn.1]
      · intro b hb
        cases List.mem_singleton.1 hb
        have hq : keepsOrder k = true := hq
        rw [← fill_keepsOrder (headers more) ((collects st' more bss).map (·.map rowOfRecord))] at hq
        have hk := selectOk_kind text py calls o order fuel en _ _ _ k hk
        have := kind_branch text py calls o order fuel en _ _ _ out hrun hk
          (kind_level text py calls o order fuel en hsym hperm ht htr hf hchunk _ _ _ out hrun hk) hq
        rw [fill_names] at this
        rw [header]
        exact this
    · cases h
  | .union l r =>
    simp only [exec, Option.bind_eq_some_iff, Option.map_eq_some_iff] at h
    obtain ⟨⟨s1, b1⟩, h1, ⟨s2, b2⟩, h2, h3⟩ := h
    cases h3
    simp only [SqlTree.Scoped, Apart] at hsc
    simp only [Aligned] at hal
    simp only [Ok] at hok
    obtain ⟨scl, scr, sep, _⟩ := hsc
    obtain ⟨all, alr, ql, qr, hhd⟩ := hal
    obtain ⟨ml, al, bl⟩ := exec_means hsym hperm ht htr hf hchunk l env st s1 b1 h1 scl all hok.1
      (fun n hn => hfree n (by simp [free, hn])) (fun n hn => hb n (by simp [bound, hn]))
    obtain ⟨mr, ar, br⟩ := exec_means hsym hperm ht htr hf hchunk r env s1 s2 b2 h2 scr alr hok.2
      (fun n hn => by
        rw [al n fun hc => (sep n hc).1 hn]
        exact hfree n (by simp [free, hn]))
      (fun n hn => by
        rw [al n fun hc => (sep n hc).2 hn]
        exact hb n (by simp [bound, hn]))
    obtain ⟨nel, bl⟩ := bl (isAnswer_query ql)
    obtain ⟨ner, br⟩ := br (isAnswer_query qr)
    have hall : ∀ b ∈ b1 ++ b2, IsBranch (header l) b := by
      intro b hb
      rcases List.mem_append.1 hb with hb | hb
      · exact bl b hb
      · rw [hhd]; exact br b hb
    have hne : b1 ++ b2 ≠ [] := by simp [nel]
    refine ⟨fun st'' hs => ?_, ?_, fun _ => ⟨hne, by rw [header]; exact hall⟩⟩
    · have ml := ml s1 fun _ _ => rfl
      have mr := mr s2 fun _ _ => rfl
      rw [collect_query _ l b1 ql nel bl] at ml
      rw [collect_query _ r b2 qr ner br] at mr
      rw [Means]
      refine ⟨_, _, ml, mr, ?_⟩
      rw [collect, collect_flat _ _ hne hall, List.flatMap_append]
    · intro n hn
      simp only [bound, List.mem_append, not_or] at hn
      show s2 n = st n
      rw [ar n hn.2, al n hn.1]
  | .withq n d b =>
    simp only [exec] at h
    split at h
    · cases h
    simp only [Option.bind_eq_some_iff] at h
    obtain ⟨⟨s1, b1⟩, h1, h2⟩ := h
    simp only [SqlTree.Scoped, Apart] at hsc
    simp only [Aligned] at hal
    simp only [Ok] at hok
    obtain ⟨scd, scb, nd, nb, sep, _⟩ := hsc
    obtain ⟨md, ad, _⟩ := exec_means hsym hperm ht htr hf hchunk d env st s1 b1 h1 scd hal.1 hok.1
      (fun m hm => hfree m (by simp [free, hm])) (fun m hm => hb m (by simp [bound, hm]))
    have md := md s1 fun _ _ => rfl
    have hn0 : s1 n = [] := by rw [ad n nd]; exact hb n (by simp [bound])
    obtain ⟨mb, ab, bb⟩ := exec_means hsym hperm ht htr hf hchunk b (fun m => if m = n then collect s1 d b1 else env m)
      (append s1 n (collect s1 d b1)) st' bs h2 scb hal.2 (hok.2 _ md)
      (fun m hm => by
        simp only [append]
        by_cases hmn : m = n
        · rw [if_pos hmn, if_pos hmn, hn0, List.nil_append]
        · rw [if_neg hmn, if_neg hmn, ad m fun hc => (sep m hc).1 hm]
          exact hfree m (by simp [free, hm, hmn]))
      (fun m hm => by
        simp only [append]
        have hmn : m ≠ n := by rintro rfl; exact nb hm
        rw [if_neg hmn, ad m fun hc => (sep m hc).2 hm]
        exact hb m (by simp [bound, hm]))
    refine ⟨fun st'' hs => ?_, ?_, fun hq => bb hq⟩
    · rw [Means, collect]
      refine ⟨_, md, mb st'' fun m hm => hs m ?_⟩
      rcases hm with hm | hm
      · by_cases hmn : m = n
        · exact Or.inr (by simp [bound, hmn])
        · exact Or.inl (by simp [free, hm, hmn])
      · exact Or.inr (by simp [bound, hm])
    · intro m hm
      simp only [bound, List.mem_append, List.mem_cons, not_or] at hm
      rw [ab m hm.2.2]
      simp only [append]
      rw [if_neg hm.2.1, ad m hm.1]
theorem execs_means (hsym : ∀ a b, o.truthy (o.cmp .eq a b) = o.truthy (o.cmp .eq b a)) (hperm : ∀ l, (order l).Perm l)
    (ht : ∀ x y, en.le x y = true ∨ en.le y x = true)
    (htr : ∀ x y z, en.le x y = true → en.le y z = true → en.le x z = true) (hf : Faithful py en.src)
    (hchunk : ∀ l, (en.chunk l).flatMap (·.1) = l) (l : Rels S)
    (env : Str → List Out) (st st' : Store) (bss : List (List (Union.Branch Out Val)))
    (h : execs py calls o order fuel en st l = some (st', bss)) (hsc : Scopeds l) (hal : Aligneds l) (hok : Oks text py calls o order fuel en env l)
    (hfree : ∀ n ∈ frees l, st n = env n) (hb : ∀ n ∈ bounds l, st n = []) :
    (∀ st'' : Store, (∀ n, n ∈ frees l ∨ n ∈ bounds l → st'' n = st' n) →
        MeansAll text py.cmp calls en.le o env l (collects st'' l bss)) ∧
      (∀ n, n ∉ bounds l → st' n = st n) := by
  match l with
  | .nil =>
    simp only [execs] at h
    cases h
    exact ⟨fun _ _ => by rw [MeansAll]; rfl, fun _ _ => rfl⟩
  | .cons e l =>
    simp only [execs, Option.bind_eq_some_iff, Option.map_eq_some_iff] at h
    obtain ⟨⟨s1, b1⟩, h1, ⟨s2, b2⟩, h2, h3⟩ := h
    cases h3
    simp only [Scopeds, Apart] at hsc
    simp only [Aligneds] at hal
    simp only [Oks] at hok
    obtain ⟨sc1, sc2, ap1, ap2⟩ := hsc
    obtain ⟨m1, a1, _⟩ := exec_means hsym hperm ht htr hf hchunk e env st s1 b1 h1 sc1 hal.1 hok.1
      (fun n hn => hfree n (by simp [frees, hn])) (fun n hn => hb n (by simp [bounds, hn]))
    obtain ⟨m2, a2⟩ := execs_means hsym hperm ht htr hf hchunk l env s1 s2 b2 h2 sc2 hal.2 hok.2
      (fun n hn => by
        rw [a1 n fun hc => (ap1 n hc).1 hn]
        exact hfree n (by simp [frees, hn]))
      (fun n hn => by
        rw [a1 n fun hc => (ap1 n hc).2 hn]
        exact hb n (by simp [bounds, hn]))
    refine ⟨fun st'' hs => ?_, ?_⟩
    · rw [MeansAll, collects]
      refine ⟨_, _, m1 st'' fun n hn => ?_, m2 st'' fun n hn => hs n (by rcases hn with hn | hn <;> simp [frees, bounds, hn]), rfl⟩
      · rw [hs n (by rcases hn with hn | hn <;> simp [frees, bounds, hn])]
        refine a2 n fun hc => ?_
        rcases hn with hn | hn
        · exact (ap2 n hc).1 hn
        · exact (ap2 n hc).2 hn
    · intro n hn
      simp only [bounds, List.mem_append, not_or] at hn
      show s2 n = st n
      rw [a2 n hn.2, a1 n hn.1]
end

mutual
theorem kept (e : Rel S) (db st' : Store) (bs : List (Union.Branch Out Val))
    (h : exec py calls o order fuel en db e = some (st', bs)) (n : Str) (hn : n ∉ bound e) : st' n = db n := by
  match e with
  | .scan t => simp only [exec] at h; cases h; rfl
  | .select k src more =>
    simp only [exec, Option.bind_eq_some_iff] at h
    obtain ⟨⟨s1, bs1⟩, h1, ⟨s2, bss⟩, h2, h⟩ := h
    split at h
    · simp only [Option.map_eq_some_iff] at h
      obtain ⟨out, hrun, h⟩ := h
      cases h
      simp only [bound, List.mem_append, not_or] at hn
      rw [kepts more s1 st' bss h2 n hn.2, kept src db s1 bs1 h1 n hn.1]
    · cases h
  | .union l r =>
    simp only [exec, Option.bind_eq_some_iff, Option.map_eq_some_iff] at h
    obtain ⟨⟨s1, b1⟩, h1, ⟨s2, b2⟩, h2, h3⟩ := h
    cases h3
    simp only [bound, List.mem_append, not_or] at hn
    show s2 n = db n
    rw [kept r s1 s2 b2 h2 n hn.2, kept l db s1 b1 h1 n hn.1]
  | .withq m d b =>
    simp only [exec] at h
    split at h
    · cases h
    simp only [Option.bind_eq_some_iff] at h
    obtain ⟨⟨s1, b1⟩, h1, h2⟩ := h
    simp only [bound, List.mem_append, List.mem_cons, not_or] at hn
    rw [kept b _ st' bs h2 n hn.2.2]
    simp only [append]
    rw [if_neg hn.2.1, kept d db s1 b1 h1 n hn.1]
theorem kepts (l : Rels S) (db st' : Store) (bss : List (List (Union.Branch Out Val)))
    (h : execs py calls o order fuel en db l = some (st', bss)) (n : Str) (hn : n ∉ bounds l) : st' n = db n := by
  match l with
  | .nil => simp only [execs] at h; cases h; rfl
  | .cons e l =>
    simp only [execs, Option.bind_eq_some_iff, Option.map_eq_some_iff] at h
    obtain ⟨⟨s1, b1⟩, h1, ⟨s2, b2⟩, h2, h3⟩ := h
    cases h3
    simp only [bounds, List.mem_append, not_or] at hn
    show s2 n = db n
    rw [kepts l s1 s2 b2 h2 n hn.2, kept e db s1 b1 h1 n hn.1]
end

end
end Verif.Props.TreeLemmas

namespace Verif.Props
open Verif.Val Verif.Expr Verif.Sql Verif.Where Verif.Select Verif.SqlSelect Verif.Tree Verif.SqlTree
open Verif.Nest (Store)
open Verif.Props.TreeLemmas (Ok)

section
variable {S : Type} (text : Str → Bool) (py : Py) (calls : Str → List Val → Val) (o : Join.Ops Val)
  (order : List Join.Name → List Join.Name) (fuel : Nat)

/-- **C155**: a statement made of SELECTs — with LEFT JOINs, INNER JOINs of tables and subqueries, aggregates, GROUP BY, DISTINCT or
window functions —, subqueries in FROM, UNION ALL and WITH, to any depth, returns SQL's result: every part by itself, a name of WITH
standing for the rows of its query. -/
theorem C155_statement_partial (hsym : ∀ a b, o.truthy (o.cmp .eq a b) = o.truthy (o.cmp .eq b a)) (hperm : ∀ l, (order l).Perm l)
    (en : Engine) (ht : ∀ x y, en.le x y = true ∨ en.le y x = true)
    (htr : ∀ x y z, en.le x y = true → en.le y z = true → en.le x z = true) (hf : Faithful py en.src)
    (hchunk : ∀ l, (en.chunk l).flatMap (·.1) = l) (e : Rel S) (db : Store) (out : List Out)
    (h : Tree.result py calls o order fuel en db e = some out) (hs : SqlTree.Scoped e) (ha : Aligned e)
    (hok : Ok text py calls o order fuel en db e) (hfresh : ∀ n ∈ bound e, db n = []) :
    Means text py.cmp calls en.le o db e out := by
  simp only [Tree.result, Option.map_eq_some_iff] at h
  obtain ⟨⟨st', bs⟩, h, rfl⟩ := h
  exact (TreeLemmas.exec_means text py calls o order fuel en hsym hperm ht htr hf hchunk e db db st' bs h hs ha hok (fun _ _ => rfl)
    hfresh).1 st' fun _ _ => rfl

/-- **C155** Nothing but the names of WITH is changed by it. -/
theorem C155_tables_kept (en : Engine) (e : Rel S) (db st' : Store) (bs : List (Union.Branch Out Val))
    (h : exec py calls o order fuel en db e = some (st', bs)) : ∀ n, n ∉ bound e → st' n = db n :=
  fun n hn => TreeLemmas.kept py calls o order fuel en e db st' bs h n hn

end
end Verif.Props
