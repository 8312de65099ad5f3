import Verif.Proofs.Select
import Verif.Props.WhereCalls
/-! C57: SELECT … WHERE … HAVING … ORDER BY … LIMIT as a whole, without grouping. -/
namespace Verif.Props
open Verif.Val Verif.Expr Verif.Sql Verif.Where Verif.Order Verif.SqlOrder Verif.Select Verif.SqlSelect

section
variable {S : Type} (text : Str → Bool) (py : Py) (calls : Str → List Val → Val)

/-- The rows the source returns, in the order of reading. -/
def sourced (en : Engine) (p : Plan S) (rows : List Row) : List Row :=
  load en.le p.orders (rows.filter fun r => matchRow py calls en.src r p.querys)

/-- What is done with the rows that were read, up to the slice. -/
def processed (en : Engine) (p : Plan S) (read : List Row) : List Out :=
  let kept := read.filter (passes py calls p.predicate)
  let outs := match aggKey p.schema with
    | none => kept.map (rowOf py calls p.schema)
    | some k => (groups py calls en p.schema k kept).map fun (g : List (Option Agg.Key) × G S) => groupRow py calls p.schema g.2
  let outs := outs.filter fun o => passes py calls p.intercept fun n => field n o
  match p.sort with
  | some s => isort (leBy en.le field s) outs
  | none => outs

theorem run_eq (en : Engine) (p : Plan S) (rows : List Row) :
    Select.run py calls en p rows = Limit.run p.limit (processed py calls en p) (sourced py calls en p rows) := rfl

/-- The conditions on WHERE of C42, for the rows at hand. -/
structure WhereOk (q : Query S) (rows : List Row) : Prop where
  tests : ∀ e ∈ q.cond, TestsOk calls e
  shape : ∀ e ∈ q.cond, condOk (tested e) = true ∧ inListsConst (tested e) = true ∧ NoClash (operandCols (tested e))
  swaps : ∀ e ∈ q.cond, ∀ r ∈ rows, swapsHarmless text py calls r q.prim (tested e)
  typed : ∀ r ∈ rows, ∀ c, r c = r (baseName c)

theorem filter_passes_none {α : Type} (f : α → Str → Val) (l : List α) : l.filter (fun a => passes py calls none (f a)) = l := by
  simp [passes]

theorem where_ok (src : Src) (hf : Faithful py src) (q : Query S) (rows : List Row) (h : WhereOk text py calls q rows) :
    ∀ r ∈ rows, (matchRow py calls src r (whereOf q).1 && passes py calls (whereOf q).2 r)
      = satisfies text py.cmp calls q.cond r := by
  intro r hr
  cases hc : q.cond with
  | none => simp [whereOf, hc, satisfies, matchRow, passes]
  | some e =>
    obtain ⟨h1, h2, h3⟩ := h.shape e (by simp [hc])
    have := C42_calls_partial text py calls r src q.prim hf (h.typed r hr) e (h.tests e (by simp [hc])) h1 h2 h3 (h.swaps e (by simp [hc]) r hr)
    simp only [satisfies]
    rw [show whereOf q = compileWhere q.prim e by simp [whereOf, hc]]
    rw [Bool.eq_iff_iff, decide_eq_true_iff, ← this]
    simp only [selected]
    cases (compileWhere q.prim e).2 <;> rfl

theorem intercept_ok (names : List Str) (hv : Option E) (hh : ∀ e ∈ hv, havingOk e = true) (t : Option T)
    (h : compileIntercept names hv = some t) (row : Str → Val) :
    passes py calls t row = satisfies text py.cmp calls hv row := by
  cases hv with
  | none => cases h; rfl
  | some e =>
    obtain ⟨t', ht', hiff⟩ := C31_having_partial text py calls row e (hh e rfl)
    simp only [compileIntercept] at h
    split at h
    · rw [ht'] at h
      cases h
      rw [Bool.eq_iff_iff, satisfies, decide_eq_true_iff]
      exact hiff
    · cases h

/-- What `compileSelect` has put together. -/
theorem compileSelect_eq (q : Query S) (p : Plan S) (h : compileSelect q = some p) :
    ∃ schema, addCols q.group [] q.cols = some schema ∧ p.querys = (whereOf q).1 ∧ p.predicate = (whereOf q).2 ∧
      compileIntercept (schema.map (·.1)) q.having = some p.intercept ∧
      Order.compile ⟨schema.map (·.1), q.columns, q.table, q.aliased, aggNames schema⟩ q.order = some (p.orders, p.sort) ∧
      p.limit = Limit.compile ⟨p.predicate.isSome, p.intercept.isSome, !(aggNames schema).isEmpty, p.sort.isSome⟩ (q.limit.getD 0) q.offset ∧
      finish q schema = some p.schema := by
  simp only [compileSelect, Option.bind_eq_some_iff, Option.map_eq_some_iff] at h
  obtain ⟨schema, hs, intercept, hi, ⟨o, s⟩, ho, schema', hs', rfl⟩ := h
  exact ⟨schema, hs, rfl, rfl, hi, ho, rfl, hs'⟩

/-- The row of the result made of one row. -/
theorem rowOf_project (cols : List (Str × Item S)) (h : ∀ c ∈ cols, ∃ e, c.2 = .expr e ∧ scalarOk e = true) (r : Row) :
    rowOf py calls (cols.map fun c => (c.1, calcCol c.2)) r =
      project text py.cmp calls cols [r] := by
  rw [rowOf, project, List.map_map]
  refine List.map_congr_left fun c hc => ?_
  obtain ⟨e, he, hs⟩ := h c hc
  simp only [Function.comp, he, calcCol, List.head?_cons]
  rw [C31_value_partial text py calls r e hs]

theorem colVal_project (cols : List (Str × Item S)) (hn : (cols.map (·.1)).Nodup) (n : Str) (e : E) (h : (n, Item.expr e) ∈ cols) (r : Row) :
    colVal n (project text py.cmp calls cols [r]) = sem text py.cmp calls r e := by
  induction cols with
  | nil => simp at h
  | cons c cols ih =>
    obtain ⟨k, it⟩ := c
    simp only [List.map_cons, List.nodup_cons] at hn
    simp only [project, List.map_cons, colVal]
    rcases List.mem_cons.1 h with h | h
    · cases h; simp
    · rw [if_neg]
      · exact ih hn.2 h
      · rintro rfl
        exact hn.1 (List.mem_map.2 ⟨_, h, rfl⟩)

/-- Columns of the table that ORDER BY names and that are also names of result columns are those result columns. -/
structure OrderOk (q : Query S) : Prop where
  qualified : ∀ t n d, (Order.Item.col (some t) n, d) ∈ q.order → n ∈ q.cols.map (·.1) → (n, Select.Item.expr (.col n)) ∈ q.cols
  bare : ∀ n d, (Order.Item.col none n, d) ∈ q.order → n ∈ q.cols.map (·.1) → q.aliased = false → n ∈ q.columns →
    (n, Select.Item.expr (.col n)) ∈ q.cols

/-- **C57**: a SELECT without grouping returns SQL's result: the rows that satisfy WHERE and HAVING, each turned into a result row,
in the order of ORDER BY, and of these the part LIMIT and OFFSET ask for. -/
theorem C57_select_partial (en : Engine) (ht : ∀ x y, en.le x y = true ∨ en.le y x = true)
    (htr : ∀ x y z, en.le x y = true → en.le y z = true → en.le x z = true) (hf : Faithful py en.src) (q : Query S) (p : Plan S)
    (hp : compileSelect q = some p) (hcols : ∀ c ∈ q.cols, ∃ e, c.2 = .expr e ∧ scalarOk e = true)
    (hnames : (q.cols.map (·.1)).Nodup) (hg : q.group = []) (hd : q.distinct = false) (hl : q.limit ≠ some 0) (rows : List Row)
    (hw : WhereOk text py calls q rows) (hh : ∀ e ∈ q.having, havingOk e = true) (ho : OrderOk q) :
    RowResult text py.cmp calls en.le q rows (Select.run py calls en p rows) := by
  obtain ⟨schema, hs, hq, hpr, hi, hord, hlim, hsch⟩ := compileSelect_eq q p hp
  have hb := built_of_addCols q.group q.cols [] schema (by simpa using hnames) hs
  have hsc := hb.exprs (fun c hc => (hcols c hc).imp fun _ h => h.1)
  rw [List.nil_append] at hsc
  have hcalc : ∀ c ∈ schema, ∃ t, c.2 = Col.calc t := by
    intro c hc
    rw [hsc, List.mem_map] at hc
    obtain ⟨c', hc', rfl⟩ := hc
    obtain ⟨e, he, _⟩ := hcols c' hc'
    exact ⟨compile e, by simp [he, calcCol]⟩
  have hagg := aggNames_calc schema hcalc
  have hsnames : schema.map (·.1) = q.cols.map (·.1) := by simpa using hb.names
  simp only [finish, hagg, List.isEmpty_nil, if_true, hg, hd, Bool.not_true, Bool.false_eq_true, if_false, Option.some.injEq] at hsch
  have hkey : aggKey p.schema = none := by rw [← hsch]; exact aggKey_calc schema hcalc
  let out : Row → Out := fun r => project text py.cmp calls q.cols [r]
  have hrow : rowOf py calls p.schema = out := by
    funext r
    rw [← hsch, hsc]
    exact rowOf_project text py calls q.cols hcols r
  let keep : Row → Bool := fun r => satisfies text py.cmp calls q.cond r && satisfies text py.cmp calls q.having (fun n => colVal n (out r))
  -- everything but the limit
  have hall : processed py calls en p (sourced py calls en p rows) =
      (Order.run en.le (fun n r => r n) (fun n r => colVal n (out r)) (p.orders, p.sort) (rows.filter keep)).map out := by
    have h1 : (sourced py calls en p rows).filter (passes py calls p.predicate) = load en.le p.orders (rows.filter (satisfies text py.cmp calls q.cond)) := by
      rw [sourced, filter_load en.le ht htr, List.filter_filter]
      congr 1
      refine List.filter_congr fun r hr => ?_
      rw [← where_ok text py calls en.src hf q rows hw r hr, hq, hpr, Bool.and_comm]
    have h2 : ∀ l : List Row, (l.map out).filter (fun o => passes py calls p.intercept fun n => field n o) = (l.filter fun r => satisfies text py.cmp calls q.having (fun n => colVal n (out r))).map out := by
      intro l
      rw [List.filter_map]
      congr 1
      refine List.filter_congr fun r _ => ?_
      simp only [Function.comp]
      rw [intercept_ok text py calls _ q.having hh p.intercept hi]
      congr 1
      funext n
      exact (colVal_eq_field n _).symm
    simp only [processed, hkey, hrow]
    rw [h1, h2, filter_load en.le ht htr, List.filter_filter]
    have hk : (rows.filter fun a => satisfies text py.cmp calls q.having (fun n => colVal n (out a)) && satisfies text py.cmp calls q.cond a)
        = rows.filter keep := by
      refine List.filter_congr fun r _ => Bool.and_comm _ _
    rw [hk]
    simp only [Order.run]
    cases p.sort with
    | none => rfl
    | some s =>
      simp only
      rw [leBy_comp en.le (fun n o => colVal n o) out s, map_isort]
      simp only [load, colVal_eq_field]
  -- the order
  have hsorted := C55_order_by_partial (le := en.le) ht htr ⟨schema.map (·.1), q.columns, q.table, q.aliased, aggNames schema⟩
    (fun _ n (r : Row) => r n) (fun n r => colVal n (out r)) q.order (p.orders, p.sort) hord
    (by
      intro t n d hin hmem
      funext r
      simp only [hsnames] at hmem
      exact colVal_project text py calls q.cols hnames n (.col n) (ho.qualified t n d hin hmem) r)
    (by
      intro n d hin hmem hprim
      funext r
      simp only [hsnames] at hmem
      have : q.aliased = false ∧ n ∈ q.columns := by
        rw [isPrimary] at hprim
        simp only [hagg, List.not_mem_nil, if_false, hsnames, hmem, not_true, decide_false, Bool.and_false, Bool.or_false] at hprim
        cases ha : q.aliased with
        | true => simp [ha] at hprim
        | false => simp [ha] at hprim; exact ⟨rfl, hprim⟩
      exact colVal_project text py calls q.cols hnames n (.col n) (ho.bare n d hin hmem this.1 this.2) r)
    (rows.filter keep)
  have hlimrun : Limit.run p.limit (processed py calls en p) (sourced py calls en p rows) =
      pageOf q.limit q.offset (processed py calls en p (sourced py calls en p rows)) := by
    cases hql : q.limit with
    | none =>
      rw [hlim, hql]
      exact C46_offset _ _ _ _
    | some n =>
      have hn : 0 < n := by
        rcases Nat.eq_zero_or_pos n with rfl | h
        · exact absurd hql hl
        · exact h
      rw [hlim, hql]
      refine C46_limit_offset _ _ ?_ n q.offset hn _
      by_cases hgd : Guarded ⟨p.predicate.isSome, p.intercept.isSome, !(aggNames schema).isEmpty, p.sort.isSome⟩
      · exact Or.inl hgd
      · right
        simp only [Guarded, not_or, Bool.not_eq_true, Option.isSome_eq_false_iff, Option.isNone_iff_eq_none] at hgd
        refine ⟨out, fun l => ?_⟩
        simp only [processed, hkey, hrow, hgd.1, hgd.2.1, hgd.2.2.2, filter_passes_none]
        rw [filter_passes_none py calls (fun r : Row => r)]
  rw [hsnames] at hsorted
  refine ⟨Order.run en.le (fun n r => r n) (fun n r => colVal n (out r)) (p.orders, p.sort) (rows.filter keep), hsorted, ?_⟩
  rw [run_eq, hlimrun, hall]

end
end Verif.Props
