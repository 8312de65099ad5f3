import Verif.Props.SelectDistinct
import Verif.Props.Limit
import Verif.Spec.Nest
/-! C144: statements made of several SELECTs, to any depth. -/
namespace Verif.Props.Nested
open Verif.Val Verif.Expr Verif.Sql Verif.Where Verif.Order Verif.SqlOrder Verif.Select Verif.SqlSelect Verif.Nest Verif.SqlNest

section
variable {S : Type} (text : Str → Bool) (py : Py) (calls : Str → List Val → Val) (en : Engine)

theorem asRow_eq (o : Out) : asRow o = rowOfRecord o := by
  funext c; rw [asRow, rowOfRecord, colVal_eq_field]

theorem isAggregate_eq (i : Select.Item S) : isAggregate i = isAgg i := by cases i <;> rfl

/-- What C57, C58 and C59 ask of one SELECT and the rows it reads. -/
structure LevelOk (q : Query S) (p : Plan S) (rows : List Row) : Prop where
  names : (q.cols.map (·.1)).Nodup
  limit : q.limit ≠ some 0
  cond : WhereOk text py calls q rows
  having : ∀ e ∈ q.having, havingOk e = true
  kind :
    (q.group = [] ∧ q.distinct = false ∧ (∀ c ∈ q.cols, ∃ e, c.2 = .expr e ∧ scalarOk e = true) ∧ OrderOk q) ∨
    (q.group = [] ∧ q.distinct = true ∧ (∀ c ∈ q.cols, ∃ e, c.2 = .expr e ∧ scalarOk e = true) ∧ q.cols ≠ [] ∧ GroupOrderOk q ∧
      (q.limit = none ∨ p.predicate.isSome ∨ p.intercept.isSome ∨ p.sort.isSome) ∧ Distinguishable text py calls q rows) ∨
    ((q.group ≠ [] ∨ ∃ c ∈ q.cols, isAggregate c.2 = true) ∧ q.distinct = false ∧ q.cols ≠ [] ∧ GroupOrderOk q ∧
      (∀ n e, (n, Select.Item.expr e) ∈ q.cols → scalarOk e = true) ∧
      (∀ n args final, (n, Select.Item.agg args final) ∈ q.cols → ∀ a ∈ args, scalarOk a.2 = true) ∧
      (∀ e, GKey.expr e ∈ q.group → scalarOk e = true) ∧ GroupNamesOk q.cols q.group ∧
      (q.limit = none ∨ (∃ c ∈ q.cols, isAggregate c.2 = true) ∨ p.predicate.isSome ∨ p.intercept.isSome ∨ p.sort.isSome) ∧
      (∀ n args final, (n, Select.Item.agg args final) ∈ q.cols → ∀ a ∈ args, ∃ good : Val → Prop,
        a.1.fold.Law good ∧ ∀ r ∈ rows, good (sem text py.cmp calls r a.2)) ∧
      (q.group ≠ [] ∨ ∃ r ∈ rows, satisfies text py.cmp calls q.cond r = true) ∧
      ((∀ c ∈ q.cols, isAggregate c.2 = false) → Dependent text py calls q rows))

/-- One SELECT. -/
theorem level (ht : ∀ x y, en.le x y = true ∨ en.le y x = true)
    (htr : ∀ x y z, en.le x y = true → en.le y z = true → en.le x z = true) (hf : Faithful py en.src)
    (hchunk : ∀ l, (en.chunk l).flatMap (·.1) = l) (q : Query S) (p : Plan S) (hp : compileSelect q = some p) (rows : List Row)
    (h : LevelOk text py calls q p rows) :
    QueryResult text py.cmp calls en.le q rows (Select.run py calls en p rows) := by
  have nogrp : q.group = [] → (∀ c ∈ q.cols, ∃ e, c.2 = .expr e ∧ scalarOk e = true) →
      ¬ (q.group ≠ [] ∨ ∃ c ∈ q.cols, isAggregate c.2 = true) := by
    rintro hg hc (h | ⟨c, hm, ha⟩)
    · exact h hg
    · obtain ⟨e, he, _⟩ := hc c hm
      rw [he] at ha; cases ha
  unfold QueryResult
  rcases h.kind with ⟨hg, hd, hc, ho⟩ | ⟨hg, hd, hc, hne, ho, hlim, hdist⟩ | ⟨hgrp, hd, hne, ho, he, ha, hge, hok, hlim, hlaw, hsome, hdep⟩
  · rw [if_neg (nogrp hg hc), if_neg (by rw [hd]; decide)]
    exact C57_select_partial text py calls en ht htr hf q p hp hc h.names hg hd h.limit rows h.cond h.having ho
  · rw [if_neg (nogrp hg hc), if_pos hd]
    exact C59_distinct_partial text py calls en ht htr hf hchunk q p hp hc h.names hne hg hd h.limit hlim rows h.cond h.having hdist ho
  · rw [if_pos hgrp]
    simp only [isAggregate_eq] at hgrp hlim hdep
    exact C58_grouped_partial text py calls en ht htr hf hchunk q p hp he ha hge h.names hne hgrp hok h.limit hlim rows h.cond h.having
      hlaw hsome hdep ho

theorem project_names (cmp : Cmp → Val → Val → Val) (cols : List (Str × Select.Item S)) (l : List Row) :
    (project text cmp calls cols l).map (·.1) = cols.map (·.1) := by
  rw [project, List.map_map]; rfl

theorem mem_pageOf {β : Type} {limit : Option Nat} {offset : Nat} {l : List β} {x : β} (h : x ∈ pageOf limit offset l) : x ∈ l := by
  unfold pageOf at h
  split at h
  · exact List.mem_of_mem_drop (List.mem_of_mem_take h)
  · exact List.mem_of_mem_drop h

/-- The rows of a result have the columns of the select list. -/
theorem result_names (cmp : Cmp → Val → Val → Val) (le : Val → Val → Bool) (q : Query S) (rows : List Row) (out : List Out)
    (h : QueryResult text cmp calls le q rows out) : ∀ o ∈ out, o.map (·.1) = q.cols.map (·.1) := by
  intro o ho
  unfold QueryResult at h
  split at h
  · obtain ⟨members, sorted, _, _, hs, _, rfl⟩ := h
    have := hs.mem_iff.1 (mem_pageOf ho)
    obtain ⟨g, _, rfl⟩ := List.mem_map.1 (List.mem_filter.1 this).1
    exact project_names text calls cmp q.cols g
  · split at h
    · obtain ⟨sorted, _, hm, _, rfl⟩ := h
      obtain ⟨r, _, _, _, rfl⟩ := (hm o).1 (mem_pageOf ho)
      exact project_names text calls cmp q.cols [r]
    · obtain ⟨sorted, _, rfl⟩ := h
      obtain ⟨r, _, rfl⟩ := List.mem_map.1 (mem_pageOf ho)
      exact project_names text calls cmp q.cols [r]

/-- The branch a SELECT is in a UNION. -/
def IsBranch (ns : List Str) (b : Union.Branch Out Val) : Prop :=
  b.schema = ns.map (fun n => (n, field n)) ∧ ns.Nodup ∧ ∀ o ∈ b.rows, o.map (·.1) = ns

theorem zip_field (o : Out) (h : (o.map (·.1)).Nodup) : List.zip (o.map (·.1)) ((o.map (·.1)).map fun n => field n o) = o := by
  have key : ∀ (l : Out), (∀ x ∈ l, field x.1 o = x.2) → List.zip (l.map (·.1)) ((l.map (·.1)).map fun n => field n o) = l := by
    intro l
    induction l with
    | nil => intro _; rfl
    | cons x l ih =>
      intro hl
      simp only [List.map_cons, List.zip_cons_cons]
      rw [ih fun y hy => hl y (List.mem_cons_of_mem _ hy), hl x (by simp)]
  refine key o ?_
  clear key
  induction o with
  | nil => simp
  | cons x o ih =>
    obtain ⟨k, v⟩ := x
    simp only [List.map_cons, List.nodup_cons] at h
    intro y hy
    rcases List.mem_cons.1 hy with rfl | hy
    · simp [field, Select.get]
    · rw [← ih h.2 y hy]
      have : k ≠ y.1 := fun hk => h.1 (List.mem_map.2 ⟨y, hy, hk.symm⟩)
      simp [field, Select.get, this]

theorem collect_flat (ns : List Str) (bs : List (Union.Branch Out Val)) (hne : bs ≠ []) (h : ∀ b ∈ bs, IsBranch ns b) :
    (Union.union Val.null bs).2.map (fun v => List.zip (Union.union Val.null bs).1 v) = bs.flatMap (·.rows) := by
  cases bs with
  | nil => exact absurd rfl hne
  | cons b bs =>
    have hn : ∀ b' ∈ b :: bs, Union.names b' = ns := by
      intro b' hb'
      rw [Union.names, (h b' hb').1, List.map_map]
      exact List.map_id _
    have hb := h b (by simp)
    rw [C47_positional_partial Val.null b bs (by rw [hn b (by simp)]; exact hb.2.1)
      (fun b' hb' => by rw [hn b' (by simp [hb']), hn b (by simp)])]
    simp only
    rw [hn b (by simp), List.map_flatMap, List.flatMap_def, List.flatMap_def]
    congr 1
    refine List.map_congr_left fun b' hb' => ?_
    rw [List.map_map]
    conv => rhs; rw [← List.map_id b'.rows]
    refine List.map_congr_left fun o ho => ?_
    obtain ⟨hs, hnd, hr⟩ := h b' hb'
    have hv : values b' o = ns.map fun n => field n o := by
      rw [values, hs, List.map_map]; rfl
    simp only [Function.comp, hv, id]
    have := zip_field o (by rw [hr o ho]; exact hnd)
    rw [hr o ho] at this
    exact this

/-- What C57, C58 and C59 ask, of every SELECT in it, for the rows that SELECT reads in SQL. -/
def Ok (env : Str → List Out) : Rel S → Prop
  | .scan _ => True
  | .select q src => Ok env src ∧ ∀ rows p, Means text py.cmp calls en.le env src rows → compileSelect q = some p →
      LevelOk text py calls q p (rows.map rowOfRecord)
  | .union l r => Ok env l ∧ Ok env r
  | .withq n d b => Ok env d ∧ ∀ rows, Means text py.cmp calls en.le env d rows → Ok (fun m => if m = n then rows else env m) b

theorem collect_query (e : Rel S) (bs : List (Union.Branch Out Val)) (hq : isQuery e = true) (hne : bs ≠ [])
    (h : ∀ b ∈ bs, IsBranch (header e) b) : collect e bs = bs.flatMap (·.rows) := by
  cases e with
  | scan t => cases hq
  | select q s => rfl
  | union l r => exact collect_flat _ bs hne h
  | withq n d b => cases hq

theorem exec_means (ht : ∀ x y, en.le x y = true ∨ en.le y x = true)
    (htr : ∀ x y z, en.le x y = true → en.le y z = true → en.le x z = true) (hf : Faithful py en.src)
    (hchunk : ∀ l, (en.chunk l).flatMap (·.1) = l) (e : Rel S) :
    ∀ (env : Str → List Out) (st st' : Store) (bs : List (Union.Branch Out Val)), exec py calls en st e = some (st', bs) →
      Scoped e → Aligned e → Ok text py calls en env e → (∀ n ∈ free e, st n = env n) → (∀ n ∈ bound e, st n = []) →
      Means text py.cmp calls en.le env e (collect e bs) ∧ (∀ n, n ∉ bound e → st' n = st n) ∧
      (isQuery e = true → bs ≠ [] ∧ ∀ b ∈ bs, IsBranch (header e) b) := by
  induction e with
  | scan t =>
    intro env st st' bs h _ _ _ hfree _
    cases h
    refine ⟨?_, fun _ _ => rfl, fun hq => by cases hq⟩
    simp only [Means, collect, List.flatMap_cons, List.flatMap_nil, List.append_nil]
    exact hfree t (by simp [free])
  | select q src ih =>
    intro env st st' bs h hsc hal hok hfree hb
    simp only [exec, Option.bind_eq_some_iff, Option.map_eq_some_iff] at h
    obtain ⟨⟨s1, bs1⟩, h1, p, hp, h2⟩ := h
    cases h2
    obtain ⟨m1, a1, _⟩ := ih env st s1 bs1 h1 hsc hal hok.1 hfree hb
    have hlv := hok.2 _ p m1 hp
    have hres := level text py calls en ht htr hf hchunk q p hp _ hlv
    have hrows : (collect src bs1).map asRow = (collect src bs1).map rowOfRecord := List.map_congr_left fun o _ => asRow_eq o
    rw [← hrows] at hres
    have hcol : collect (.select q src) [⟨q.cols.map (fun c => (c.1, field c.1)), Select.run py calls en p ((collect src bs1).map asRow)⟩]
        = Select.run py calls en p ((collect src bs1).map asRow) := by simp [collect]
    refine ⟨⟨_, m1, ?_⟩, a1, fun _ => ⟨by simp, ?_⟩⟩
    · rw [hcol, ← hrows]; exact hres
    · intro b hb
      cases List.mem_singleton.1 hb
      exact ⟨by rw [header, List.map_map]; rfl, hlv.names, result_names text calls py.cmp en.le q _ _ hres⟩
  | union l r ihl ihr =>
    intro env st st' bs h hsc hal hok hfree hb
    simp only [exec, Option.bind_eq_some_iff, Option.map_eq_some_iff] at h
    obtain ⟨⟨s1, b1⟩, h1, ⟨s2, b2⟩, h2, h3⟩ := h
    cases h3
    obtain ⟨scl, scr, sep⟩ := hsc
    obtain ⟨all, alr, ql, qr, hhd⟩ := hal
    obtain ⟨ml, al, bl⟩ := ihl env st s1 b1 h1 scl all hok.1 (fun n hn => hfree n (by simp [free, hn])) (fun n hn => hb n (by simp [bound, hn]))
    obtain ⟨mr, ar, br⟩ := ihr env s1 s2 b2 h2 scr alr hok.2
      (fun n hn => by
        rw [al n fun hc => (sep n hc).1 hn]
        exact hfree n (by simp [free, hn]))
      (fun n hn => by
        rw [al n fun hc => (sep n hc).2 hn]
        exact hb n (by simp [bound, hn]))
    obtain ⟨nel, bl⟩ := bl ql
    obtain ⟨ner, br⟩ := br qr
    have hall : ∀ b ∈ b1 ++ b2, IsBranch (header l) b := by
      intro b hb
      rcases List.mem_append.1 hb with hb | hb
      · exact bl b hb
      · rw [hhd]; exact br b hb
    have hne : b1 ++ b2 ≠ [] := by simp [nel]
    refine ⟨⟨_, _, ml, mr, ?_⟩, ?_, fun _ => ⟨hne, hall⟩⟩
    · rw [collect_query l b1 ql nel bl, collect_query r b2 qr ner br]
      rw [collect, collect_flat _ _ hne hall, List.flatMap_append]
    · intro n hn
      simp only [bound, List.mem_append, not_or] at hn
      show s2 n = st n
      rw [ar n hn.2, al n hn.1]
  | withq n d b ihd ihb =>
    intro env st st' bs h hsc hal hok hfree hb
    simp only [exec] at h
    split at h
    · cases h
    simp only [Option.bind_eq_some_iff] at h
    obtain ⟨⟨s1, b1⟩, h1, h2⟩ := h
    obtain ⟨scd, scb, nd, nb, sep⟩ := hsc
    obtain ⟨md, ad, _⟩ := ihd env st s1 b1 h1 scd hal.1 hok.1 (fun m hm => hfree m (by simp [free, hm])) (fun m hm => hb m (by simp [bound, hm]))
    have hn0 : s1 n = [] := by rw [ad n nd]; exact hb n (by simp [bound])
    obtain ⟨mb, ab, _⟩ := ihb (fun m => if m = n then collect d b1 else env m) (append s1 n (collect d b1)) st' bs h2 scb hal.2 (hok.2 _ md)
      (fun m hm => by
        simp only [append]
        by_cases hmn : m = n
        · rw [if_pos hmn, if_pos hmn, hn0, List.nil_append]
        · rw [if_neg hmn, if_neg hmn, ad m fun hc => (sep m hc).1 hm]
          exact hfree m (by simp [free, hm, hmn]))
      (fun m hm => by
        simp only [append]
        have hmn : m ≠ n := by rintro rfl; exact nb hm
        rw [if_neg hmn, ad m fun hc => (sep m hc).2 hm]
        exact hb m (by simp [bound, hm]))
    refine ⟨⟨_, md, mb⟩, ?_, fun hq => by cases hq⟩
    intro m hm
    simp only [bound, List.mem_append, List.mem_cons, not_or] at hm
    rw [ab m hm.2.2]
    simp only [append]
    rw [if_neg hm.2.1, ad m hm.1]

end
end Verif.Props.Nested

namespace Verif.Props
open Verif.Val Verif.Expr Verif.Sql Verif.Where Verif.Select Verif.SqlSelect Verif.Nest Verif.SqlNest Verif.Props.Nested

section
variable {S : Type} (text : Str → Bool) (py : Py) (calls : Str → List Val → Val)

/-- **C144**: a statement made of SELECTs, subqueries in FROM, UNION ALL and WITH, to any depth, returns SQL's result: every part by
itself, a name of WITH standing for the rows of its query. -/
theorem C144_nested_partial (en : Engine) (ht : ∀ x y, en.le x y = true ∨ en.le y x = true)
    (htr : ∀ x y z, en.le x y = true → en.le y z = true → en.le x z = true) (hf : Faithful py en.src)
    (hchunk : ∀ l, (en.chunk l).flatMap (·.1) = l) (e : Rel S) (db : Store) (out : List Out) (h : Nest.result py calls en db e = some out)
    (hs : Scoped e) (ha : Aligned e) (hok : Ok text py calls en db e) (hfresh : ∀ n ∈ bound e, db n = []) :
    Means text py.cmp calls en.le db e out := by
  simp only [Nest.result, Option.map_eq_some_iff] at h
  obtain ⟨⟨st', bs⟩, h, rfl⟩ := h
  exact (exec_means text py calls en ht htr hf hchunk e db db st' bs h hs ha hok (fun _ _ => rfl) hfresh).1

/-- **C144** Nothing but the names of WITH is changed by it. -/
theorem C144_tables_kept (en : Engine) (e : Rel S) (db st' : Store) (bs : List (Union.Branch Out Val))
    (h : exec py calls en db e = some (st', bs)) : ∀ n, n ∉ bound e → st' n = db n := by
  induction e generalizing db st' bs with
  | scan t => cases h; exact fun _ _ => rfl
  | select q src ih =>
    simp only [exec, Option.bind_eq_some_iff, Option.map_eq_some_iff] at h
    obtain ⟨⟨s1, bs1⟩, h1, p, hp, h2⟩ := h
    cases h2
    exact ih db s1 bs1 h1
  | union l r ihl ihr =>
    simp only [exec, Option.bind_eq_some_iff, Option.map_eq_some_iff] at h
    obtain ⟨⟨s1, b1⟩, h1, ⟨s2, b2⟩, h2, h3⟩ := h
    cases h3
    intro n hn
    simp only [bound, List.mem_append, not_or] at hn
    show s2 n = db n
    rw [ihr s1 s2 b2 h2 n hn.2, ihl db s1 b1 h1 n hn.1]
  | withq n d b ihd ihb =>
    simp only [exec] at h
    split at h
    · cases h
    simp only [Option.bind_eq_some_iff] at h
    obtain ⟨⟨s1, b1⟩, h1, h2⟩ := h
    intro m hm
    simp only [bound, List.mem_append, List.mem_cons, not_or] at hm
    rw [ihb _ st' bs h2 m hm.2.2]
    simp only [append]
    rw [if_neg hm.2.1, ihd db s1 b1 h1 m hm.1]

end
end Verif.Props
