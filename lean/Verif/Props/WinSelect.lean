import Verif.Proofs.WinCols
/-! C65: a SELECT with window columns as a whole. -/
namespace Verif.Props
open Verif.Val Verif.Expr Verif.Sql Verif.Where Verif.Order Verif.SqlOrder Verif.Select Verif.SqlSelect Verif.SqlWindow Verif.WinSelect

section
variable {S : Type} (text : Str → Bool) (py : Py) (calls : Str → List Val → Val)

/-- The query without its columns, for the conditions on WHERE. -/
def asSelect (q : WinSelect.Query S) : Select.Query S := { cols := [], cond := q.cond, prim := q.prim }

/-- The rows the source returns, in the order of reading. -/
def winSourced (src : Src) (le : Val → Val → Bool) (p : WinSelect.Plan S) (rows : List Row) : List Row :=
  load le p.orders (rows.filter fun r => matchRow py calls src r p.querys)

/-- What is done with the rows that were read, up to the slice. -/
def winProcessed (le : Val → Val → Bool) (p : WinSelect.Plan S) (read : List Row) : List Out :=
  let kept := read.filter (passes py calls p.predicate)
  let outs := (stage1 py calls le p.cols.schema kept).map (stage2 py calls p.cols)
  let outs := outs.filter fun o => passes py calls p.intercept fun n => field n o
  match p.sort with
  | some s => isort (leBy le field s) outs
  | none => outs

theorem win_run_eq (src : Src) (le : Val → Val → Bool) (p : WinSelect.Plan S) (rows : List Row) :
    WinSelect.run py calls src le p rows = Limit.run p.limit (winProcessed py calls le p) (winSourced py calls src le p rows) := rfl

theorem isort_id {α : Type} (r : α → α → Bool) (l : List α) (h : l.Pairwise fun a b => r a b = true) : isort r l = l := by
  induction l with
  | nil => rfl
  | cons a l ih =>
    rw [List.pairwise_cons] at h
    rw [isort, ih h.2]
    cases l with
    | nil => rfl
    | cons b l => rw [insertBy, if_pos (h.1 b (by simp))]

theorem load_pairwise (le : Val → Val → Bool) (ht : ∀ x y, le x y = true ∨ le y x = true)
    (htr : ∀ x y z, le x y = true → le y z = true → le x z = true) (orders : List Key) (rows : List Row) (ho : orders ≠ []) :
    (load le orders rows).Pairwise fun a b => leBy le (fun n (r : Row) => r n) orders a b = true := by
  rw [load, if_neg ho]
  exact sorted_isort _ (leBy_total le ht _ _) (leBy_trans le ht htr _ _) rows

/-- ORDER BY confuses a column of the table and a result column only if they are the same (as `OrderOk` of C57). -/
structure WinOrderOk (q : WinSelect.Query S) : Prop where
  qualified : ∀ t n d, (Order.Item.col (some t) n, d) ∈ q.order → n ∈ q.cols.map (·.1) → (n, WinSelect.Item.expr (.col n)) ∈ q.cols
  bare : ∀ n d, (Order.Item.col none n, d) ∈ q.order → n ∈ q.cols.map (·.1) → q.aliased = false → n ∈ q.columns →
    (∃ e, (n, WinSelect.Item.expr e) ∈ q.cols) → (n, WinSelect.Item.expr (.col n)) ∈ q.cols

/-- A name that is not one of the schema, but a column of windows, is refused in ORDER BY. -/
theorem order_refused (c : Ctx) (items : List (Order.Item × Bool)) (plan : List Key × Option (List Key))
    (h : Order.compile c items = some plan) (i : Order.Item × Bool) (hi : i ∈ items) (hp : prim c i.1 = false) : keyOf i.1 ∈ c.schema := by
  rw [Order.compile] at h
  cases ha : addItems c ([], []) items with
  | none => simp [ha] at h
  | some r =>
    obtain ⟨p, s⟩ := r
    obtain ⟨h1, h2, _⟩ := addItems_eq c items _ _ ha
    simp only [List.nil_append] at h1 h2
    simp only [ha, Option.bind_eq_bind, Option.bind_some] at h
    have hlt : p.length < s.length := by
      rw [h1, h2, List.length_map, List.length_map]
      rcases Nat.lt_or_ge (items.filter fun i => prim c i.1).length items.length with h | h
      · exact h
      · have := List.length_filter_eq_length_iff.1 (Nat.le_antisymm (List.length_filter_le _ _) h) i hi
        rw [hp] at this
        cases this
    rw [if_pos ⟨by intro e; rw [e] at hlt; simp at hlt, hlt⟩] at h
    split at h
    · rename_i hall
      rw [List.all_eq_true] at hall
      have := hall (keyOf i.1, i.2) (by rw [h2]; exact List.mem_map.2 ⟨i, hi, rfl⟩)
      simpa using this
    · cases h

/-- What `compileSelect` has put together. -/
theorem win_compile_eq (q : WinSelect.Query S) (p : WinSelect.Plan S) (h : WinSelect.compileSelect q = some p) :
    WinSelect.addCols q.windows {} q.cols = some p.cols ∧ p.querys = (Select.whereOf (asSelect q)).1 ∧
      p.predicate = (Select.whereOf (asSelect q)).2 ∧
      compileIntercept (p.cols.schema.map (·.1)) q.having = some p.intercept ∧
      Order.compile ⟨p.cols.schema.map (·.1), q.columns, q.table, q.aliased, p.cols.windows⟩ q.order = some (p.orders, p.sort) ∧
      p.limit = Limit.compile ⟨p.predicate.isSome, p.intercept.isSome, !p.cols.windows.isEmpty, p.sort.isSome⟩ (q.limit.getD 0) q.offset := by
  simp only [WinSelect.compileSelect, Option.bind_eq_some_iff, Option.map_eq_some_iff] at h
  obtain ⟨c, hc, intercept, hi, ⟨o, s⟩, ho, rfl⟩ := h
  exact ⟨hc, rfl, rfl, hi, ho, rfl⟩

/-- No aggregate over an ordered window meets peers. -/
def NoTies (le : Val → Val → Bool) (q : WinSelect.Query S) (rows : List Row) : Prop :=
  ∀ c ∈ q.cols, ∀ w ∈ winsOf c.2, ∀ A, w.fn = .agg A → ∀ o, windowOf q.windows w o →
    o.order = [] ∨ rows.Pairwise fun r r' => ¬ Peers text calls py.cmp le o r r'

/-- **C65**: a SELECT with window functions returns SQL's result: the rows that satisfy WHERE, each with the values of its columns —
expressions, window functions over its partition, expressions of them —, those that satisfy HAVING, in the order of ORDER BY, and
of these the part LIMIT and OFFSET ask for. -/
theorem C65_window_partial (src : Src) (le : Val → Val → Bool) (ht : ∀ x y, le x y = true ∨ le y x = true)
    (htr : ∀ x y z, le x y = true → le y z = true → le x z = true) (hf : Faithful py src) (q : WinSelect.Query S)
    (p : WinSelect.Plan S) (hp : WinSelect.compileSelect q = some p) (hq : WinQueryOk q) (hwin : ∃ c ∈ q.cols, isWin c.2 = true)
    (hl : q.limit ≠ some 0) (rows : List Row) (hw : WhereOk text py calls (asSelect q) rows)
    (hh : ∀ e ∈ q.having, havingOk e = true) (ho : WinOrderOk q)
    (hties : NoTies text py calls le q rows) :
    WinResult text py.cmp calls le q rows (WinSelect.run py calls src le p rows) := by
  obtain ⟨hcols, hqs, hpr, hi, hord, hlim⟩ := win_compile_eq q p hp
  obtain ⟨sch, fin, hid, hcomp, e1, e2, e3, e4⟩ := addCols_ok q.windows q.cols q.cols {} p.cols (fun _ h => h) hq.wins
    (fun _ _ _ h => by simp at h) (by simpa using hq.names) hcols
  simp only [List.nil_append] at e1 e2 e3 e4
  rw [← e1, ← e2, ← e3] at hcomp
  -- the rows that satisfy WHERE, in the order of reading
  let kept := load le p.orders (rows.filter (satisfies text py.cmp calls q.cond))
  have hkept : (winSourced py calls src le p rows).filter (passes py calls p.predicate) = kept := by
    rw [winSourced, filter_load le ht htr, List.filter_filter]
    show load _ _ _ = load _ _ _
    congr 1
    refine List.filter_congr fun r hr => ?_
    have := where_ok text py calls src hf (asSelect q) rows hw r hr
    rw [hqs, hpr, Bool.and_comm]
    exact this
  have hperm : kept.Perm (rows.filter (satisfies text py.cmp calls q.cond)) := by
    show (load _ _ _).Perm _
    rw [load]
    split
    · exact List.Perm.refl _
    · exact perm_isort _ _
  have hnoorder : q.order = [] → kept = rows.filter (satisfies text py.cmp calls q.cond) := by
    intro h0
    rw [h0] at hord
    simp only [Order.compile, addItems, Option.bind_eq_bind, Option.bind_some] at hord
    simp at hord
    show load _ _ _ = _
    rw [load, hord.1]
    simp
  -- their result rows
  let outs := (stage1 py calls le p.cols.schema kept).map (stage2 py calls p.cols)
  have hlen : outs.length = kept.length := by simp [outs, stage1]
  have hget : ∀ (i : Nat), outs[i]? = (kept[i]?).map fun r => stage2 py calls p.cols (firstStage py calls le p.cols.schema kept i r) := by
    intro i
    simp only [outs, stage1, List.getElem?_map, List.getElem?_mapIdx, Option.map_map]
    rfl
  have hrow : ∀ (i : Nat) r o, kept[i]? = some r → outs[i]? = some o → IsRow text py.cmp calls le q kept i r o := by
    intro i r o hr ho'
    rw [hget, hr, Option.map_some, Option.some.injEq] at ho'
    rw [← ho']
    refine isRow text py calls le ht htr q hq p.cols hcomp kept i r hr ?_
    intro c hc w hw' A hA o hwo
    refine noPeers_of text calls py.cmp le o kept ?_ i (List.getElem?_eq_some_iff.1 hr).1
    refine (hties c hc w hw' A hA o hwo).imp id fun h => ?_
    refine (hperm.pairwise_iff ?_).2 (h.filter _)
    intro a b hab hba
    exact hab (Peers.symm text calls hba)
  -- the positions
  let outAt : Name → Nat → Val := fun n i => colVal n (outs[i]?.getD [])
  let rawAt : Name → Name → Nat → Val := fun _ n i => match kept[i]? with | some r => r n | none => .null
  let pos := (List.range kept.length).filter fun i => satisfies text py.cmp calls q.having fun n => outAt n i
  have hposval : ∀ (n : Str) (i : Nat), (n, WinSelect.Item.expr (.col n)) ∈ q.cols → outAt n i = rawAt [] n i := by
    intro n i hm
    show colVal n (outs[i]?.getD []) = match kept[i]? with | some r => r n | none => .null
    cases hk : kept[i]? with
    | none =>
      have : outs[i]? = none := by rw [hget, hk]; rfl
      rw [this]
      rfl
    | some r =>
      have hs : outs[i]? = some (stage2 py calls p.cols (firstStage py calls le p.cols.schema kept i r)) := by rw [hget, hk]; rfl
      have := (hrow i r _ hk hs).values _ hm
      rw [hs]
      simp only [ColumnValue, sem] at this
      exact this
  -- the names ORDER BY knows
  have hhid : ∀ n, (∀ c ∈ q.cols, n ∉ hiddenOf c.2) → (n ∈ p.cols.schema.map (·.1) → n ∈ q.cols.map (·.1)) := by
    intro n hn hm
    have : n ∈ winNames q.cols := hcomp.names.mem_iff.1 (List.mem_append_left _ hm)
    simp only [winNames, List.mem_flatMap, List.mem_append, List.mem_singleton] at this
    obtain ⟨c, hc, h | h⟩ := this
    · exact absurd h (hn c hc)
    · exact List.mem_map.2 ⟨c, hc, h.symm⟩
  have hsorted := C55_order_by_partial (le := le) ht htr ⟨p.cols.schema.map (·.1), q.columns, q.table, q.aliased, p.cols.windows⟩
    rawAt outAt q.order (p.orders, p.sort) hord
    (by
      intro t n d hin hmem
      funext i
      exact hposval n i (ho.qualified t n d hin (hhid n (hq.order _ n d hin) hmem)))
    (by
      intro n d hin hmem hprim
      funext i
      simp only at hmem
      have hcol := hhid n (hq.order _ n d hin) hmem
      rw [isPrimary] at hprim
      simp only at hprim
      split at hprim
      · cases hprim
      · rename_i hnw
        simp only [hmem, not_true, decide_false, Bool.and_false, Bool.or_false] at hprim
        split at hprim
        · cases hprim
        · rename_i ha
          refine hposval n i (ho.bare n d hin hcol (by simpa using ha) (by simpa using hprim) ?_)
          rw [List.mem_map] at hcol
          obtain ⟨⟨n', it⟩, hc, rfl⟩ := hcol
          cases it with
          | expr e => exact ⟨e, hc⟩
          | win w => exact absurd (by rw [e4]; exact List.mem_map.2 ⟨_, List.mem_filter.2 ⟨hc, rfl⟩, rfl⟩) hnw
          | «calc» ws e => exact absurd (by rw [e4]; exact List.mem_map.2 ⟨_, List.mem_filter.2 ⟨hc, rfl⟩, rfl⟩) hnw)
    pos
  have hkeys : sqlKeys ⟨p.cols.schema.map (·.1), q.columns, q.table, q.aliased, p.cols.windows⟩ rawAt outAt q.order =
      q.order.map fun k => (SqlOrder.value (q.cols.map (·.1)) q.table rawAt outAt k.1, k.2) := by
    rw [sqlKeys]
    refine List.map_congr_left fun k hk => ?_
    obtain ⟨k, d⟩ := k
    simp only
    congr 1
    cases k with
    | expr c => cases c <;> rfl
    | col t n =>
      cases t with
      | some t => rfl
      | none =>
        funext i
        simp only [SqlOrder.value]
        have : n ∈ p.cols.schema.map (·.1) ↔ n ∈ q.cols.map (·.1) := by
          refine ⟨hhid n (hq.order _ n d hk), fun hm => ?_⟩
          rw [List.mem_map] at hm
          obtain ⟨⟨n', it⟩, hc, rfl⟩ := hm
          cases it with
          | expr e => exact List.mem_map.2 ⟨_, hcomp.mem_expr n' e hc, rfl⟩
          | win w =>
            obtain ⟨o, t, _, hm⟩ := hcomp.mem_win n' w hc
            exact List.mem_map.2 ⟨_, hm, rfl⟩
          | «calc» ws e =>
            refine order_refused _ _ _ hord _ hk ?_
            have hw' : n' ∈ p.cols.windows := by rw [e4]; exact List.mem_map.2 ⟨_, List.mem_filter.2 ⟨hc, rfl⟩, rfl⟩
            simp only [prim, isPrimary, if_pos hw']
        by_cases hm : n ∈ q.cols.map (·.1)
        · rw [if_pos hm, if_pos (this.2 hm)]
        · rw [if_neg hm, if_neg fun h => hm (this.1 h)]
  rw [hkeys] at hsorted
  -- all rows have been read
  have hlimrun : Limit.run p.limit (winProcessed py calls le p) (winSourced py calls src le p rows) =
      pageOf q.limit q.offset (winProcessed py calls le p (winSourced py calls src le p rows)) := by
    cases hql : q.limit with
    | none => rw [hlim, hql]; exact C46_offset _ _ _ _
    | some n =>
      have hn : 0 < n := by
        rcases Nat.eq_zero_or_pos n with rfl | h
        · exact absurd hql hl
        · exact h
      rw [hlim, hql]
      refine C46_limit_offset _ _ (Or.inl ?_) n q.offset hn _
      refine Or.inr (Or.inr (Or.inl ?_))
      simp only [Bool.not_eq_true', List.isEmpty_eq_false_iff]
      rw [e4]
      obtain ⟨c, hc, hcw⟩ := hwin
      intro he
      rw [List.map_eq_nil_iff] at he
      have : c ∈ q.cols.filter fun x => isWin x.2 := List.mem_filter.2 ⟨hc, hcw⟩
      rw [he] at this
      cases this
  refine ⟨kept, outs, Order.run le (rawAt q.table) outAt (p.orders, p.sort) pos, hperm, hnoorder, hlen, hrow, hsorted, ?_⟩
  rw [win_run_eq, hlimrun]
  congr 1
  -- the rows in order
  have hposlt : ∀ i ∈ pos, i < outs.length := by
    intro i hi'
    rw [hlen]
    exact List.mem_range.1 (List.mem_filter.1 hi').1
  have hfm : ∀ l : List Nat, (∀ i ∈ l, i < outs.length) → (l.filterMap fun i => outs[i]?) = l.map fun i => outs[i]?.getD [] := by
    intro l hl'
    induction l with
    | nil => rfl
    | cons i l ih =>
      have := hl' i (by simp)
      rw [List.filterMap_cons, List.getElem?_eq_getElem this, List.map_cons, ih fun j hj => hl' j (by simp [hj])]
      simp [this]
  have hall : (List.range kept.length).map (fun i => outs[i]?.getD []) = outs := by
    apply List.ext_getElem?
    intro i
    rw [← hlen]
    by_cases hi' : i < outs.length
    · simp [hi']
    · simp [hi']
  have hpm : pos.map (fun i => outs[i]?.getD []) =
      outs.filter fun o => passes py calls p.intercept fun n => field n o := by
    have hfun : (fun o : Out => passes py calls p.intercept fun n => field n o) =
        fun o => satisfies text py.cmp calls q.having fun n => colVal n o := by
      funext o
      rw [intercept_ok text py calls _ q.having hh p.intercept hi]
      congr 1
      funext n
      exact (colVal_eq_field n _).symm
    rw [hfun]
    conv => rhs; rw [← hall]
    rw [List.filter_map]
    rfl
  have hfirst : (if p.orders = [] then pos else isort (leBy le (rawAt q.table) p.orders) pos) = pos := by
    split
    · rfl
    · rename_i hne
      refine isort_id _ _ ?_
      have hk := List.pairwise_iff_getElem.1 (load_pairwise le ht htr p.orders (rows.filter (satisfies text py.cmp calls q.cond)) hne)
      have hlt : pos.Pairwise (· < ·) := List.pairwise_lt_range.filter _
      refine List.Pairwise.imp_of_mem ?_ hlt
      intro a b ha hb hab
      have ha' := hposlt a ha
      have hb' := hposlt b hb
      rw [hlen] at ha' hb'
      have := hk a b ha' hb' hab
      rw [leBy_iff ht] at this ⊢
      have hv : ∀ ks : List Key, Le le (keyFuns (fun n (r : Row) => r n) ks) kept[a] kept[b] → Le le (keyFuns (rawAt q.table) ks) a b := by
        intro ks
        induction ks with
        | nil => intro _; trivial
        | cons k ks ih =>
          intro h
          simp only [keyFuns, List.map_cons, Le] at h ⊢
          have ea : rawAt q.table k.1 a = kept[a] k.1 := by
            show (match kept[a]? with | some r => r k.1 | none => Val.null) = _
            rw [List.getElem?_eq_getElem ha']
          have eb : rawAt q.table k.1 b = kept[b] k.1 := by
            show (match kept[b]? with | some r => r k.1 | none => Val.null) = _
            rw [List.getElem?_eq_getElem hb']
          rw [ea, eb]
          exact h.imp id fun h => ⟨h.1, h.2.1, ih h.2.2⟩
      exact hv _ this
  simp only [winProcessed, hkept, Order.run, hfirst]
  show (match p.sort with
    | some s => isort (leBy le field s) (outs.filter fun o => passes py calls p.intercept fun n => field n o)
    | none => outs.filter fun o => passes py calls p.intercept fun n => field n o) = _
  cases p.sort with
  | none =>
    simp only
    rw [hfm pos hposlt, hpm]
  | some s =>
    simp only
    rw [hfm _ fun i hi' => hposlt i ((perm_isort _ _).mem_iff.1 hi'), ← hpm]
    have : leBy le outAt s = fun a b => leBy le field s (outs[a]?.getD []) (outs[b]?.getD []) := by
      have := leBy_comp le field (fun i : Nat => outs[i]?.getD []) s
      rw [← this]
      congr 1
      funext n i
      exact colVal_eq_field n _
    rw [this, map_isort]

end
end Verif.Props
