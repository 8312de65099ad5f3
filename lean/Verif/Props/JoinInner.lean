import Verif.Model.JoinInner
import Verif.Props.JoinSelect
/-! C134 and C135: a SELECT with INNER JOINs as a whole. -/
namespace Verif.Proofs.JoinSelect
open Verif.Val Verif.Expr Verif.Sql Verif.Where Verif.Reduce Verif.Select Verif.Props Verif.SqlSelect Verif.JoinSelect

variable {S : Type} (text : Str → Bool) (py : Py) (calls : Str → List Val → Val)

/-- The joins as LEFT JOINs. -/
def asLeft (joins : List (Join.Join Val)) : List (Join.Join Val) := joins.map fun j => { j with kind := .left }

/-- The name of a column in expressions. -/
def refName (r : Join.Ref) : Str := (r.table.getD "").toList ++ '.' :: r.col.toList

theorem takeWhile_pre (p : Char → Bool) (a b : Str) (c : Char) (h : ∀ x ∈ a, p x = true) (hc : p c = false) :
    (a ++ c :: b).takeWhile p = a ∧ (a ++ c :: b).dropWhile p = c :: b := by
  induction a with
  | nil => simp [List.takeWhile_cons, List.dropWhile_cons, hc]
  | cons x a ih =>
    obtain ⟨h1, h2⟩ := ih fun y hy => h y (by simp [hy])
    simp [List.takeWhile_cons, List.dropWhile_cons, h x (by simp), h1, h2]

theorem refOf_name (r : Join.Ref) (t : Join.Name) (ht : r.table = some t) (h1 : '.' ∉ t.toList) (h2 : '|' ∉ t.toList) :
    refOf (refName r) = r := by
  obtain ⟨tab, col⟩ := r
  simp only at ht
  subst ht
  have hdot : '.' ∈ baseName (refName ⟨some t, col⟩) := by
    unfold baseName refName
    rw [List.takeWhile_append_of_pos (by intro x hx; simp only [decide_eq_true_eq]; rintro rfl; exact h2 hx), List.takeWhile_cons_of_pos (by decide)]
    simp
  unfold refOf
  rw [if_pos hdot]
  obtain ⟨e1, e2⟩ := takeWhile_pre (· ≠ '.') t.toList col.toList '.' (by intro x hx; simp only [decide_eq_true_eq]; rintro rfl; exact h1 hx) (by decide)
  simp only [refName, Option.getD_some]
  rw [e1, e2]
  simp

theorem tv_and (a b : E) (r : Row) :
    decide (tv text (sem text py.cmp calls r (.and a b)) = some true)
      = (decide (tv text (sem text py.cmp calls r a) = some true) && decide (tv text (sem text py.cmp calls r b) = some true)) := by
  simp only [sem, tv_ofTri]
  rcases tv text (sem text py.cmp calls r a) with _ | _ | _ <;> rcases tv text (sem text py.cmp calls r b) with _ | _ | _ <;> rfl

theorem tv_notNull (ref : Join.Ref) (r : Row) :
    decide (tv text (sem text py.cmp calls r (notNull ref)) = some true) = decide (r (refName ref) ≠ .null) := by
  have h0 : sem text py.cmp calls r (.is (.col (refName ref)) .null) = ofTri (some (decide (r (refName ref) = .null))) := rfl
  have h1 : sem text py.cmp calls r (notNull ref) = ofTri (not3 (tv text (sem text py.cmp calls r (.is (.col (refName ref)) .null)))) := rfl
  rw [h1, h0, tv_ofTri, tv_ofTri]
  by_cases h : r (refName ref) = .null
  · rw [h]; rfl
  · rw [decide_eq_false h, decide_eq_true h]; rfl

theorem tv_andAll (rs : List Join.Ref) (e : E) (r : Row) :
    decide (tv text (sem text py.cmp calls r (andAll e rs)) = some true)
      = (decide (tv text (sem text py.cmp calls r e) = some true) && rs.all fun f => decide (r (refName f) ≠ .null)) := by
  unfold andAll
  induction rs generalizing e with
  | nil => rw [List.foldl_nil, List.all_nil, Bool.and_true]
  | cons f rs ih =>
    rw [List.foldl_cons, ih, tv_and, tv_notNull, List.all_cons, Bool.and_assoc]

theorem satisfies_inner (cond : Option E) (rs : List Join.Ref) (hne : rs ≠ []) (r : Row) :
    satisfies text py.cmp calls (innerWhere cond rs) r
      = (satisfies text py.cmp calls cond r && rs.all fun f => decide (r (refName f) ≠ .null)) := by
  unfold innerWhere
  split
  · next a b => simp only [satisfies]; rw [tv_andAll]; rfl
  · next e _ => simp only [satisfies]; rw [tv_andAll]
  · cases rs with
    | nil => exact absurd rfl hne
    | cons f rs => simp only [satisfies]; rw [tv_andAll, tv_notNull, List.all_cons, Bool.true_and]

theorem ok_andAll (rs : List Join.Ref) (e : E) : condOk (andAll e rs) = condOk e ∧ inListsConst (andAll e rs) = inListsConst e ∧
    operandCols (andAll e rs) = operandCols e ∧ ∀ prim r, swapsHarmless text py calls r prim (andAll e rs) ↔ swapsHarmless text py calls r prim e := by
  unfold andAll
  induction rs generalizing e with
  | nil => exact ⟨rfl, rfl, rfl, fun _ _ => Iff.rfl⟩
  | cons f rs ih =>
    obtain ⟨h1, h2, h3, h4⟩ := ih (.and e (notNull f))
    rw [List.foldl_cons]
    refine ⟨?_, ?_, ?_, fun prim r => (h4 prim r).trans ?_⟩
    · rw [h1]; simp [condOk, notNull, scalarOk, boolShape]
    · rw [h2]; simp [inListsConst, notNull]
    · rw [h3]; simp [operandCols, notNull]
    · simp [swapsHarmless, notNull]

theorem tested_andAll (rs : List Join.Ref) (e : E) : tested (andAll e rs) = andAll (tested e) rs := by
  unfold andAll
  induction rs generalizing e with
  | nil => rfl
  | cons f rs ih => rw [List.foldl_cons, List.foldl_cons, ih]; rfl

theorem testsOk_andAll (rs : List Join.Ref) (e : E) : TestsOk calls (andAll e rs) ↔ TestsOk calls e := by
  unfold andAll
  induction rs generalizing e with
  | nil => exact Iff.rfl
  | cons f rs ih => rw [List.foldl_cons, ih]; exact ⟨fun h => h.1, fun h => ⟨h, trivial⟩⟩

theorem whereOk_inner (q : Query S) (rs : List Join.Ref) (rows : List Row) (h : WhereOk text py calls q rows) :
    WhereOk text py calls { q with cond := innerWhere q.cond rs } rows := by
  obtain ⟨h0, h1, h2, h3⟩ := h
  have key : ∀ e, innerWhere q.cond rs = some e → TestsOk calls e ∧
      (condOk (tested e) = true ∧ inListsConst (tested e) = true ∧ NoClash (operandCols (tested e))) ∧
      ∀ r ∈ rows, swapsHarmless text py calls r q.prim (tested e) := by
    intro e he
    unfold innerWhere at he
    split at he
    · next a b hc =>
      obtain ⟨k1, k2, k3, k4⟩ := ok_andAll text py calls rs (tested (.paren (.or a b)))
      obtain ⟨i1, i2, i3⟩ := h1 _ hc
      cases he
      rw [tested_andAll, testsOk_andAll]
      exact ⟨(h0 _ hc : TestsOk calls (.or a b)), ⟨by rw [k1]; simpa [condOk, tested] using i1, by rw [k2]; rfl, by rw [k3]; simpa [operandCols, tested] using i3⟩,
        fun r hr => (k4 _ r).2 trivial⟩
    · next e' _ hc =>
      obtain ⟨k1, k2, k3, k4⟩ := ok_andAll text py calls rs (tested e')
      obtain ⟨i1, i2, i3⟩ := h1 _ hc
      cases he
      rw [tested_andAll, testsOk_andAll]
      exact ⟨h0 _ hc, ⟨by rw [k1]; exact i1, by rw [k2]; exact i2, by rw [k3]; exact i3⟩, fun r hr => (k4 _ r).2 (h2 _ hc r hr)⟩
    · split at he
      · cases he
      · next f rs =>
        obtain ⟨k1, k2, k3, k4⟩ := ok_andAll text py calls rs (notNull f)
        cases he
        rw [tested_andAll, testsOk_andAll]
        exact ⟨trivial, ⟨by rw [show tested (notNull f) = notNull f from rfl, k1]; rfl, by rw [show tested (notNull f) = notNull f from rfl, k2]; rfl,
          by rw [show tested (notNull f) = notNull f from rfl, k3]; intro k hk; cases hk⟩, fun r hr => (k4 _ r).2 trivial⟩
  exact ⟨fun e he => (key e he).1, fun e he => (key e he).2.1, fun e he => (key e he).2.2, h3⟩

/-! ## The rows -/

theorem leftAll_asLeft (o : Join.Ops Val) (primary : Join.Name) (db : Join.Name → List (Join.Row Val)) (joins : List (Join.Join Val))
    (e : Join.Env Val) : Join.leftAll .null o primary db joins e = SqlJoin.rows .null o primary db (asLeft joins) e := by
  induction joins generalizing e with
  | nil => rfl
  | cons j joins ih =>
    show (Join.leftStep .null o primary db j e).flatMap (Join.leftAll .null o primary db joins)
      = (Join.leftStep .null o primary db j e).flatMap (SqlJoin.rows .null o primary db (asLeft joins))
    congr 1
    funext e'
    exact ih e'

theorem innerFields_table (primary : Join.Name) (joins : List (Join.Join Val))
    (known : ∀ j ∈ joins, ∀ c ∈ j.on, ∀ r ∈ Join.condFields c, ∀ t, r.table = some t → t = primary ∨ t ∈ joins.map (·.name))
    (r : Join.Ref) (h : r ∈ Join.innerFields primary joins) : ∃ t ∈ joins.map (·.name), r.table = some t := by
  unfold Join.innerFields at h
  simp only [List.mem_filter, List.mem_flatMap] at h
  obtain ⟨⟨j, hj, hr⟩, ht⟩ := h
  split at hr
  · obtain ⟨c, hc, hr⟩ := List.mem_flatMap.1 hr
    cases hrt : r.table with
    | none => simp [hrt] at ht
    | some t =>
      simp only [hrt, decide_eq_true_eq] at ht
      exact ⟨t, (known j hj c (List.mem_filter.1 hc).1 r hr t hrt).resolve_left ht, rfl⟩
  · cases hr

theorem filter_joined (o : Join.Ops Val) (primary : Join.Name) (db : Join.Name → List (Join.Row Val)) (joins : List (Join.Join Val))
    (hk : ∀ j ∈ joins, j.kind = .inner) (hl : ∀ j ∈ joins, Linked primary j) (hst : ∀ j ∈ joins, Strict .null o primary j)
    (hsc : Scoped primary joins)
    (known : ∀ j ∈ joins, ∀ c ∈ j.on, ∀ r ∈ Join.condFields c, ∀ t, r.table = some t → t = primary ∨ t ∈ joins.map (·.name))
    (hplain : ∀ j ∈ joins, '.' ∉ j.name.toList ∧ '|' ∉ j.name.toList) (rows : List Row) (f : Row → Bool) :
    (joinedRows o primary db (asLeft joins) rows).filter
        (fun r => f r && (Join.innerFields primary joins).all fun x => decide (r (refName x) ≠ .null))
      = (joinedRows o primary db joins rows).filter f := by
  unfold joinedRows
  rw [List.filter_flatMap, List.filter_flatMap]
  congr 1
  funext r
  rw [List.filter_map, List.filter_map]
  congr 1
  rw [← filter_leftAll .null o primary db joins hk hl hst hsc, leftAll_asLeft]
  refine List.filter_congr fun e _ => ?_
  simp only [Function.comp]
  congr 1
  rw [Bool.eq_iff_iff, List.all_eq_true, List.all_eq_true]
  refine forall_congr' fun x => forall_congr' fun hx => ?_
  obtain ⟨t, ht, hxt⟩ := innerFields_table primary joins known x hx
  obtain ⟨j, hj, rfl⟩ := List.mem_map.1 ht
  unfold joinedRow Join.refVal
  rw [refOf_name x j.name hxt (hplain j hj).1 (hplain j hj).2]

end Verif.Proofs.JoinSelect

namespace Verif.Props
open Verif.Val Verif.Expr Verif.Sql Verif.Where Verif.Order Verif.SqlOrder Verif.Select Verif.SqlSelect Verif.Proofs.JoinSelect

section
variable {S : Type} (text : Str → Bool) (py : Py) (calls : Str → List Val → Val)

/-- INNER JOINs this is about: each ON compares a column of its table with an expression that has columns of the primary table; a true
comparison has no NULL among its columns; table names have no `.` and `|`. -/
structure InnerOk (o : Join.Ops Val) (primary : Join.Name) (joins : List (Join.Join Val)) : Prop where
  some : joins ≠ []
  inner : ∀ j ∈ joins, j.kind = .inner
  linked : ∀ j ∈ joins, Linked primary j
  strict : ∀ j ∈ joins, Strict .null o primary j
  plain : ∀ j ∈ joins, '.' ∉ j.name.toList ∧ '|' ∉ j.name.toList
  left : JoinsOk o primary (asLeft joins)

theorem innerOk_scoped {o : Join.Ops Val} {primary : Join.Name} {joins : List (Join.Join Val)} (h : Scoped primary (asLeft joins)) :
    Scoped primary joins := by
  induction joins with
  | nil => trivial
  | cons j joins ih =>
    obtain ⟨h1, h2, h3⟩ := h
    refine ⟨h1, fun k hk => ?_, ih h3⟩
    exact h2 { k with kind := .left } (List.mem_map.2 ⟨k, hk, rfl⟩)

theorem innerOk_known {o : Join.Ops Val} {primary : Join.Name} {joins : List (Join.Join Val)} (h : InnerOk o primary joins) :
    ∀ j ∈ joins, ∀ c ∈ j.on, ∀ r ∈ Join.condFields c, ∀ t, r.table = some t → t = primary ∨ t ∈ joins.map (·.name) := by
  intro j hj c hc r hr t ht
  have := h.left.known { j with kind := .left } (List.mem_map.2 ⟨j, hj, rfl⟩) c hc r hr t ht
  simpa [asLeft] using this

theorem innerOk_fields {o : Join.Ops Val} {primary : Join.Name} {joins : List (Join.Join Val)} (h : InnerOk o primary joins) :
    Join.innerFields primary joins ≠ [] := by
  cases joins with
  | nil => exact absurd rfl h.some
  | cons j js =>
    obtain ⟨k, hk'⟩ := fieldsOf_own primary j (innerOk_scoped (o := o) h.left.names).1 (h.linked j (by simp))
    intro hn
    rw [innerFields_cons] at hn
    rw [(List.append_eq_nil_iff.1 hn).1] at hk'
    cases hk'

theorem rewrite_inner {o : Join.Ops Val} {q : Query S} {joins : List (Join.Join Val)} (h : InnerOk o (String.ofList q.table) joins) :
    JoinSelect.rewriteInner joins q
      = (asLeft joins, { q with cond := JoinSelect.innerWhere q.cond (Join.innerFields (String.ofList q.table) joins) }) := by
  have hany : (joins.any fun j => decide (j.kind = .inner)) = true := by
    rcases hj : joins with _ | ⟨j, js⟩
    · exact absurd hj h.some
    · rw [List.any_cons, decide_eq_true (h.inner j (by simp [hj])), Bool.true_or]
  unfold JoinSelect.rewriteInner
  rw [if_pos hany, if_neg (innerOk_fields h)]
  rfl

theorem compile_inner {o : Join.Ops Val} {order : List Join.Name → List Join.Name} {fuel : Nat} {q : Query S}
    {joins : List (Join.Join Val)} (h : InnerOk o (String.ofList q.table) joins) :
    JoinSelect.compileJoins py calls o order fuel joins q = JoinSelect.compile py calls o order fuel (asLeft joins)
      { q with cond := JoinSelect.innerWhere q.cond (Join.innerFields (String.ofList q.table) joins) } := by
  have hany : ((asLeft joins).any fun j => decide (j.kind = .inner)) = false := by
    rw [List.any_eq_false]
    intro j hj
    rw [h.left.left j hj]; decide
  unfold JoinSelect.compileJoins
  rw [rewrite_inner h]
  simp only [hany, Bool.false_eq_true, if_false]

/-- **C134**: a SELECT with INNER JOINs and without grouping returns SQL's result: of the rows of the joins those that satisfy WHERE and
HAVING, each turned into a result row, in the order of ORDER BY, and of these the part LIMIT and OFFSET ask for; when each row of the
primary table has at most one match in each joined table. -/
theorem C134_inner_select_partial (o : Join.Ops Val) (hsym : ∀ a b, o.truthy (o.cmp .eq a b) = o.truthy (o.cmp .eq b a))
    (order : List Join.Name → List Join.Name) (hperm : ∀ l, (order l).Perm l) (fuel : Nat) (db : Join.Name → List (Join.Row Val))
    (en : Engine) (ht : ∀ x y, en.le x y = true ∨ en.le y x = true)
    (htr : ∀ x y z, en.le x y = true → en.le y z = true → en.le x z = true) (hf : Faithful py en.src) (q : Query S)
    (joins : List (Join.Join Val)) (hj : InnerOk o (String.ofList q.table) joins) (p : JoinSelect.Plan (Join.C Val) S)
    (hp : JoinSelect.compileJoins py calls o order fuel joins q = some p) (hcols : ∀ c ∈ q.cols, ∃ e, c.2 = .expr e ∧ scalarOk e = true)
    (hnames : (q.cols.map (·.1)).Nodup) (hg : q.group = []) (hd : q.distinct = false) (hl : q.limit ≠ some 0) (rows : List Row)
    (h1 : OneMatch o (String.ofList q.table) db (asLeft joins) rows)
    (hw : WhereOk text py calls { q with prim := JoinSelect.isPrim } (joinedRows o (String.ofList q.table) db (asLeft joins) rows))
    (hh : ∀ e ∈ q.having, havingOk e = true) (ho : JoinOrderOk q) :
    JoinRowResult text py.cmp calls en.le q (joinedRows o (String.ofList q.table) db joins rows) (JoinSelect.run py calls o db en p rows) := by
  rw [compile_inner py calls hj] at hp
  obtain ⟨sorted, hs, hr⟩ := C132_join_select_partial text py calls o hsym order hperm fuel db en ht htr hf
    { q with cond := JoinSelect.innerWhere q.cond (Join.innerFields (String.ofList q.table) joins) } (asLeft joins) hj.left p hp hcols hnames hg hd
    hl rows h1 (whereOk_inner text py calls { q with prim := JoinSelect.isPrim } _ _ hw) hh ⟨ho.plain, ho.primary, ho.joined, ho.bare⟩
  refine ⟨sorted, ?_, hr⟩
  rw [← filter_joined o (String.ofList q.table) db joins hj.inner hj.linked hj.strict (innerOk_scoped (o := o) hj.left.names) (innerOk_known hj) hj.plain]
  refine Eq.mp (congrArg (fun l => SqlOrder.Sorted en.le _ l sorted) (List.filter_congr fun r _ => ?_)) hs
  rw [satisfies_inner text py calls q.cond _ (innerOk_fields hj)]
  simp only [Bool.and_assoc]
  congr 1
  exact Bool.and_comm _ _

/-- **C135**: a SELECT with INNER JOINs and with aggregates or GROUP BY returns SQL's result: one row for each group of the rows of the
joins that satisfy WHERE that satisfies HAVING, in the order of ORDER BY, and of these the part LIMIT and OFFSET ask for, whatever the
batches are; when each row of the primary table has at most one match in each joined table. -/
theorem C135_inner_grouped_partial (o : Join.Ops Val) (hsym : ∀ a b, o.truthy (o.cmp .eq a b) = o.truthy (o.cmp .eq b a))
    (order : List Join.Name → List Join.Name) (hperm : ∀ l, (order l).Perm l) (fuel : Nat) (db : Join.Name → List (Join.Row Val))
    (en : Engine) (ht : ∀ x y, en.le x y = true ∨ en.le y x = true)
    (htr : ∀ x y z, en.le x y = true → en.le y z = true → en.le x z = true) (hf : Faithful py en.src)
    (hchunk : ∀ l, (en.chunk l).flatMap (·.1) = l) (q : Query S)
    (joins : List (Join.Join Val)) (hj : InnerOk o (String.ofList q.table) joins) (p : JoinSelect.Plan (Join.C Val) S)
    (hp : JoinSelect.compileJoins py calls o order fuel joins q = some p)
    (hexpr : ∀ n e, (n, Select.Item.expr e) ∈ q.cols → scalarOk e = true)
    (hagg : ∀ n args final, (n, Select.Item.agg args final) ∈ q.cols → ∀ a ∈ args, scalarOk a.2 = true)
    (hge : ∀ e, GKey.expr e ∈ q.group → scalarOk e = true) (hnames : (q.cols.map (·.1)).Nodup) (hne : q.cols ≠ [])
    (hgrp : q.group ≠ [] ∨ ∃ c ∈ q.cols, isAgg c.2 = true) (hok : GroupNamesOk q.cols q.group) (hl : q.limit ≠ some 0)
    (hlim : q.limit = none ∨ (∃ c ∈ q.cols, isAgg c.2 = true) ∨ p.predicate.isSome ∨ p.intercept.isSome ∨ p.sort.isSome)
    (rows : List Row) (h1 : OneMatch o (String.ofList q.table) db (asLeft joins) rows)
    (hw : WhereOk text py calls { q with prim := JoinSelect.isPrim } (joinedRows o (String.ofList q.table) db (asLeft joins) rows))
    (hh : ∀ e ∈ q.having, havingOk e = true)
    (hlaw : ∀ n args final, (n, Select.Item.agg args final) ∈ q.cols → ∀ a ∈ args, ∃ good : Val → Prop,
      a.1.fold.Law good ∧ ∀ r ∈ joinedRows o (String.ofList q.table) db (asLeft joins) rows, good (sem text py.cmp calls r a.2))
    (hsome : q.group ≠ [] ∨ ∃ r ∈ joinedRows o (String.ofList q.table) db joins rows, satisfies text py.cmp calls q.cond r = true)
    (hdep : (∀ c ∈ q.cols, isAgg c.2 = false) → Dependent text py calls q (joinedRows o (String.ofList q.table) db (asLeft joins) rows))
    (ho : JoinGroupOrderOk q) :
    GroupResult text py.cmp calls en.le q (joinedRows o (String.ofList q.table) db joins rows) (JoinSelect.run py calls o db en p rows) := by
  rw [compile_inner py calls hj] at hp
  have hfilter : (joinedRows o (String.ofList q.table) db (asLeft joins) rows).filter
        (satisfies text py.cmp calls (JoinSelect.innerWhere q.cond (Join.innerFields (String.ofList q.table) joins)))
      = (joinedRows o (String.ofList q.table) db joins rows).filter (satisfies text py.cmp calls q.cond) := by
    rw [← filter_joined o (String.ofList q.table) db joins hj.inner hj.linked hj.strict (innerOk_scoped (o := o) hj.left.names) (innerOk_known hj) hj.plain]
    exact List.filter_congr fun r _ => satisfies_inner text py calls q.cond _ (innerOk_fields hj) r
  obtain ⟨members, sorted, m1, m2, m3, m4, m5⟩ := C133_join_grouped_partial text py calls o hsym order hperm fuel db en ht htr hf hchunk
    { q with cond := JoinSelect.innerWhere q.cond (Join.innerFields (String.ofList q.table) joins) } (asLeft joins) hj.left p hp hexpr hagg hge hnames
    hne hgrp hok hl hlim rows h1 (whereOk_inner text py calls { q with prim := JoinSelect.isPrim } _ _ hw) hh hlaw
    (hsome.imp id fun ⟨r, hr, hs⟩ => by
      have : r ∈ (joinedRows o (String.ofList q.table) db joins rows).filter (satisfies text py.cmp calls q.cond) := List.mem_filter.2 ⟨hr, hs⟩
      rw [← hfilter, List.mem_filter] at this
      exact ⟨r, this.1, this.2⟩) hdep ⟨ho.plain, ho.primary, ho.joined, ho.bare⟩
  refine ⟨members, sorted, ?_, ?_, m3, m4, m5⟩
  · rw [← hfilter]; exact m1
  · rw [← hfilter]; exact m2

/-- **C134**: a query whose INNER JOINs have no comparison that ties them to the primary table is refused. -/
theorem C134_refused (o : Join.Ops Val) (order : List Join.Name → List Join.Name) (fuel : Nat) (q : Query S)
    (joins : List (Join.Join Val)) (hi : ∃ j ∈ joins, j.kind = .inner)
    (h : ∀ j ∈ joins, ∀ c ∈ j.on, ∀ x, SqlJoin.ComparesOwn j.name c x → ∀ r ∈ Join.fields x, r.table ≠ some (String.ofList q.table)) :
    JoinSelect.compileJoins py calls o order fuel joins q = none := by
  have hany : (joins.any fun j => decide (j.kind = .inner)) = true := by
    obtain ⟨j, hj, hk⟩ := hi
    exact List.any_eq_true.2 ⟨j, hj, decide_eq_true hk⟩
  have hf : Join.innerFields (String.ofList q.table) joins = [] := by
    have : ∀ j ∈ joins, ((j.on.filter fun c => (Join.onExpr j.name c).isSome).any fun c =>
        ((Join.onExpr j.name c).getD []).contains (some (String.ofList q.table))) = false := by
      intro j hj
      rw [List.any_eq_false]
      intro c hc
      obtain ⟨hc, hs⟩ := List.mem_filter.1 hc
      obtain ⟨ts, hts⟩ := Option.isSome_iff_exists.1 hs
      rw [hts]
      simp only [Option.getD_some, List.contains_iff_mem]
      intro hm
      have : ∃ x, SqlJoin.ComparesOwn j.name c x ∧ ∃ r ∈ Join.fields x, r.table = some (String.ofList q.table) := by
        cases c with
        | isin l vs => cases hts
        | other x => cases hts
        | cmp op l r =>
          simp only [Join.onExpr] at hts
          split at hts
          · next hl =>
            obtain ⟨k, hk⟩ := Option.isSome_iff_exists.1 hl
            have := ownCol_some j.name l k hk
            subst this
            split at hts
            · cases hts
            · cases hts
              obtain ⟨r', hr', e⟩ := List.mem_map.1 hm
              exact ⟨r, .left op k r, r', hr', e⟩
          · split at hts
            · next hr =>
              obtain ⟨k, hk⟩ := Option.isSome_iff_exists.1 hr
              have := ownCol_some j.name r k hk
              subst this
              split at hts
              · cases hts
              · cases hts
                obtain ⟨r', hr', e⟩ := List.mem_map.1 hm
                exact ⟨l, .right op k l, r', hr', e⟩
            · cases hts
      obtain ⟨x, hx, r, hr, ht⟩ := this
      exact h j hj c hc x hx r hr ht
    unfold Join.innerFields
    rw [List.filter_eq_nil_iff]
    intro r hr
    obtain ⟨j, hj, hr⟩ := List.mem_flatMap.1 hr
    simp only [this j hj, Bool.false_eq_true, if_false, List.not_mem_nil] at hr
  unfold JoinSelect.compileJoins JoinSelect.rewriteInner
  rw [if_pos hany, if_pos hf, if_pos hany]

end
end Verif.Props
