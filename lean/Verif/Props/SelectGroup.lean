import Verif.Proofs.SelectGroup
/-! C58: SELECT with aggregates or GROUP BY as a whole. -/
namespace Verif.Props
open Verif.Val Verif.Expr Verif.Sql Verif.Where Verif.Order Verif.SqlOrder Verif.Select Verif.SqlSelect Verif.Reduce Verif.GroupSpec

section
variable {S : Type} (text : Str → Bool) (py : Py) (calls : Str → List Val → Val)

/-- The rows that are left after WHERE, in the order in which they are read. -/
theorem kept_eq (en : Engine) (ht : ∀ x y, en.le x y = true ∨ en.le y x = true)
    (htr : ∀ x y z, en.le x y = true → en.le y z = true → en.le x z = true) (hf : Faithful py en.src) (q : Query S) (p : Plan S)
    (hq : p.querys = (whereOf q).1) (hpr : p.predicate = (whereOf q).2) (rows : List Row) (hw : WhereOk text py calls q rows) :
    (sourced py calls en p rows).filter (passes py calls p.predicate) =
      load en.le p.orders (rows.filter (satisfies text py.cmp calls q.cond)) := by
  rw [sourced, filter_load en.le ht htr, List.filter_filter]
  congr 1
  refine List.filter_congr fun r hr => ?_
  rw [← where_ok text py calls en.src hf q rows hw r hr, hq, hpr, Bool.and_comm]

/-- The schema of a grouped query. -/
theorem finished (q : Query S) (schema final : Schema S) (hne : q.cols ≠ []) (hn : (q.cols.map (·.1)).Nodup)
    (hok : GroupNamesOk q.cols q.group) (hgrp : q.group ≠ [] ∨ ∃ c ∈ q.cols, isAgg c.2 = true)
    (hs : schema = q.cols.map fun x => (x.1, colWith (theKey q.cols q.group) x.2)) (hf : finish q schema = some final) :
    ∃ carries, final = oneKey q.cols (theKey q.cols q.group) carries ∧ (∃ c ∈ q.cols, isAgg c.2 = true ∨ carries c.1 = true) ∧
      ((∃ n, carries n = true) → ∀ c ∈ q.cols, isAgg c.2 = false) := by
  have hagg : (aggNames schema).isEmpty = true ↔ ∀ c ∈ q.cols, isAgg c.2 = false := by
    rw [List.isEmpty_iff, aggNames, List.map_eq_nil_iff, List.filter_eq_nil_iff, hs]
    constructor
    · intro h c hc
      have := h _ (List.mem_map.2 ⟨c, hc, rfl⟩)
      obtain ⟨n, it⟩ := c
      cases it <;> simp_all [colWith, isAgg]
    · intro h c hc
      obtain ⟨⟨n, it⟩, hx, rfl⟩ := List.mem_map.1 hc
      have := h _ hx
      cases it <;> simp_all [colWith, isAgg]
  rw [finish] at hf
  by_cases ha : (aggNames schema).isEmpty = true
  · rw [if_pos ha] at hf
    have hno := hagg.1 ha
    have hg : q.group ≠ [] := by
      rcases hgrp with h | ⟨c, hc, h⟩
      · exact h
      · rw [hno c hc] at h; cases h
    have hg' : (!q.group.isEmpty) = true := by cases hq : q.group <;> simp_all
    rw [if_pos hg'] at hf
    have hk : keyCols schema q.group = some (theKey q.cols q.group) := by
      rw [hs, keyCols_eq (theKey q.cols q.group) q.cols q.cols [] (by simp) hn q.group]
      · rw [theKey, if_neg (by simpa using hg')]
      · intro c hc hm
        obtain ⟨pre, e, post, he, _⟩ := hok c hc hm
        exact ⟨e, by rw [he]; simp, Or.inr (by rw [he]; simp)⟩
    rw [hk] at hf
    simp only [Option.map_some, Option.some.injEq] at hf
    obtain ⟨n, hm, hc⟩ := carry_eq q.outKey (theKey q.cols q.group) q.cols hne hn hno
    refine ⟨fun m => decide (m = n), by rw [← hf, hs, hc], ?_, fun _ => hno⟩
    obtain ⟨c, hcm, rfl⟩ := List.mem_map.1 hm
    exact ⟨c, hcm, Or.inr (by simp)⟩
  · rw [if_neg ha] at hf
    simp only [Option.some.injEq] at hf
    refine ⟨fun _ => false, ?_, ?_, ?_⟩
    · rw [← hf, hs]; rfl
    · refine Classical.byContradiction fun h => ha (hagg.2 fun c hc => ?_)
      cases hi : isAgg c.2 with
      | false => rfl
      | true => exact absurd ⟨c, hc, Or.inl hi⟩ h
    · rintro ⟨n, h⟩; cases h

/-- The key of a row. -/
theorem keyVal_theKey (q : Query S) (hexpr : ∀ n e, (n, Select.Item.expr e) ∈ q.cols → scalarOk e = true)
    (hge : ∀ e, GKey.expr e ∈ q.group → scalarOk e = true) (hg : q.group ≠ []) (r : Row) :
    keyVal py calls (theKey q.cols q.group) r = q.group.map fun g => Agg.keyOf (groupValue text py.cmp calls q.cols g r) := by
  have hg' : q.group.isEmpty = false := by cases hq : q.group <;> simp_all
  rw [keyVal, theKey, hg', if_neg (by simp), List.map_map]
  refine List.map_congr_left fun g hgm => ?_
  simp only [Function.comp]
  congr 1
  cases g with
  | expr e => exact C31_value_partial text py calls r e (hge e hgm)
  | bare c =>
    simp only [keyOfItem, groupValue]
    have hal : ∀ cols : List (Str × Select.Item S), ∀ e, aliased c cols = some e → (c, Select.Item.expr e) ∈ cols := by
      intro cols
      induction cols with
      | nil => intro e h; cases h
      | cons x cols ih =>
        intro e h
        obtain ⟨k, it⟩ := x
        cases it with
        | expr e' =>
          rw [aliased] at h
          split at h
          · rename_i hk; cases h; simp [hk]
          · exact List.mem_cons_of_mem _ (ih e h)
        | agg _ _ => rw [aliased] at h; exact List.mem_cons_of_mem _ (ih e h)
    cases ha : aliased c q.cols with
    | none => rfl
    | some e => exact C31_value_partial text py calls r e (hexpr c e (hal q.cols e ha))

theorem firsts_const {κ : Type} [DecidableEq κ] (k : κ) (n : Nat) : firsts (List.replicate (n + 1) k) = [k] := by
  induction n with
  | zero => rfl
  | succ n ih => rw [List.replicate_succ, firsts, ih]; simp

/-- The groups the program makes are SQL's. -/
theorem groups_spec (q : Query S) (hexpr : ∀ n e, (n, Select.Item.expr e) ∈ q.cols → scalarOk e = true)
    (hge : ∀ e, GKey.expr e ∈ q.group → scalarOk e = true) (kept : List Row) (hsome : q.group ≠ [] ∨ kept ≠ []) :
    (groupBy (kept.map fun r => (keyVal py calls (theKey q.cols q.group) r, r))).map (·.2) = groupsOf text py.cmp calls q kept := by
  rw [groupsOf]
  by_cases hg : q.group = []
  · have hk : kept ≠ [] := hsome.resolve_left fun h => h hg
    rw [if_pos (by simp [hg]), groupBy_map_key]
    have hconst : ∀ r : Row, keyVal py calls (theKey q.cols q.group) r = keyVal py calls [.const (.str "__k_g__".toList)] (fun _ => .null) := by
      intro r
      rw [theKey, hg]; rfl
    have hmap : kept.map (fun r => keyVal py calls (theKey q.cols q.group) r) =
        List.replicate (kept.length - 1 + 1) (keyVal py calls [.const (.str "__k_g__".toList)] (fun _ => .null)) := by
      rw [List.eq_replicate_iff]
      constructor
      · have := List.length_pos_iff.2 hk
        rw [List.length_map]; omega
      · intro b hb
        obtain ⟨r, _, rfl⟩ := List.mem_map.1 hb
        exact hconst r
    rw [hmap, firsts_const]
    simp only [List.map_cons, List.map_nil, List.cons.injEq, and_true]
    rw [List.filter_eq_self]
    intro r _
    rw [decide_eq_true_iff]
    exact hconst r
  · rw [if_neg (by simpa using hg)]
    congr 3
    funext r
    rw [keyVal_theKey text py calls q hexpr hge hg]

/-- ORDER BY of a grouped query: the names are result columns, a name or a qualified name of a column of the table being that
column. -/
structure GroupOrderOk (q : Query S) : Prop where
  qualified : ∀ t n d, (Order.Item.col (some t) n, d) ∈ q.order → (n, Select.Item.expr (.col n)) ∈ q.cols
  bare : ∀ n d, (Order.Item.col none n, d) ∈ q.order → n ∈ q.cols.map (·.1) ∧
    (q.aliased = false → n ∈ q.columns → (∃ args final, (n, Select.Item.agg args final) ∈ q.cols) ∨ (n, Select.Item.expr (.col n)) ∈ q.cols)

/-- Rows of the same group agree on the columns of the result. -/
def Dependent (q : Query S) (rows : List Row) : Prop :=
  ∀ n e, (n, Select.Item.expr e) ∈ q.cols → ∀ r ∈ rows, ∀ r' ∈ rows,
    (q.group.map fun g => Agg.keyOf (groupValue text py.cmp calls q.cols g r)) = (q.group.map fun g => Agg.keyOf (groupValue text py.cmp calls q.cols g r')) →
    sem text py.cmp calls r e = sem text py.cmp calls r' e

theorem colVal_project_col (cols : List (Str × Select.Item S)) (hn : (cols.map (·.1)).Nodup) (n : Str) (h : (n, Select.Item.expr (.col n)) ∈ cols) (l : List Row)
    (r : Row) (hr : l.head? = some r) : colVal n (project text py.cmp calls cols l) = r n := by
  induction cols with
  | nil => simp at h
  | cons c cols ih =>
    obtain ⟨k, it⟩ := c
    simp only [List.map_cons, List.nodup_cons] at hn
    simp only [project, List.map_cons, colVal]
    rcases List.mem_cons.1 h with h | h
    · cases h; simp only [if_true, hr]; rfl
    · rw [if_neg]
      · exact ih hn.2 h
      · rintro rfl
        exact hn.1 (List.mem_map.2 ⟨_, h, rfl⟩)

theorem members_of_group (q : Query S) (rows : List Row) (l : List Row) (h : l ∈ groupsOf text py.cmp calls q rows) :
    (∀ r ∈ l, r ∈ rows) ∧ (q.group ≠ [] → ∀ r ∈ l, ∀ r' ∈ l,
      (q.group.map fun g => Agg.keyOf (groupValue text py.cmp calls q.cols g r)) = (q.group.map fun g => Agg.keyOf (groupValue text py.cmp calls q.cols g r'))) := by
  rw [groupsOf] at h
  split at h
  · rename_i hg
    rw [List.mem_singleton] at h
    rw [h]
    exact ⟨fun r hr => hr, fun hne => absurd (by simpa using hg) hne⟩
  · rw [groupBy_map_key] at h
    obtain ⟨k, _, rfl⟩ := List.mem_map.1 h
    refine ⟨fun r hr => (List.mem_filter.1 hr).1, fun _ r hr r' hr' => ?_⟩
    have h1 := (List.mem_filter.1 hr).2
    have h2 := (List.mem_filter.1 hr').2
    rw [decide_eq_true_iff] at h1 h2
    rw [h1, h2]

theorem Le_congr {α β V : Type} (le : V → V → Bool) {items : List (Order.Item × Bool)} {f : Order.Item → α → V} {g : Order.Item → β → V}
    {a a' : α} {b b' : β} (h : ∀ i ∈ items, f i.1 a = g i.1 b) (h' : ∀ i ∈ items, f i.1 a' = g i.1 b') :
    Le le (items.map fun i => (f i.1, i.2)) a a' ↔ Le le (items.map fun i => (g i.1, i.2)) b b' := by
  induction items with
  | nil => exact Iff.rfl
  | cons i items ih =>
    simp only [List.map_cons, Le]
    rw [h i (by simp), h' i (by simp), ih (fun i hi => h i (by simp [hi])) (fun i hi => h' i (by simp [hi]))]

/-- The groups stand in the order of their first rows. -/
theorem groups_pairwise (q : Query S) (rows : List Row) (R : Row → Row → Prop) (h : rows.Pairwise R) :
    (groupsOf text py.cmp calls q rows).Pairwise fun g g' => ∃ r r', g.head? = some r ∧ g'.head? = some r' ∧ R r r' := by
  rw [groupsOf]
  split
  · simp
  · rw [groupBy_map_key]
    refine (heads_pairwise R _ rows h).imp_of_mem ?_
    intro g g' hg hg' hgg
    have hhead : ∀ g ∈ (firsts (rows.map fun r => q.group.map fun g => Agg.keyOf (groupValue text py.cmp calls q.cols g r))).map
        (fun k => rows.filter fun r => decide ((q.group.map fun g => Agg.keyOf (groupValue text py.cmp calls q.cols g r)) = k)), ∃ r, g.head? = some r := by
      intro g hg
      obtain ⟨k, hk, rfl⟩ := List.mem_map.1 hg
      rw [mem_firsts, List.mem_map] at hk
      obtain ⟨r, hr, rfl⟩ := hk
      refine ⟨_, List.head?_eq_some_head (List.ne_nil_of_mem (a := r) (List.mem_filter.2 ⟨hr, ?_⟩))⟩
      rw [decide_eq_true_iff]
    obtain ⟨r, hr⟩ := hhead g hg
    obtain ⟨r', hr'⟩ := hhead g' hg'
    exact ⟨r, r', hr, hr', hgg r hr r' hr'⟩

/-- **C58**: a SELECT with aggregates or GROUP BY returns SQL's result: one row for each group of the rows that satisfy WHERE that
satisfies HAVING, in the order of ORDER BY, and of these the part LIMIT and OFFSET ask for, whatever the batches are. -/
theorem C58_grouped_partial (en : Engine) (ht : ∀ x y, en.le x y = true ∨ en.le y x = true)
    (htr : ∀ x y z, en.le x y = true → en.le y z = true → en.le x z = true) (hf : Faithful py en.src)
    (hchunk : ∀ l, (en.chunk l).flatMap (·.1) = l) (q : Query S) (p : Plan S) (hp : compileSelect q = some p)
    (hexpr : ∀ n e, (n, Select.Item.expr e) ∈ q.cols → scalarOk e = true)
    (hagg : ∀ n args final, (n, Select.Item.agg args final) ∈ q.cols → ∀ a ∈ args, scalarOk a.2 = true)
    (hge : ∀ e, GKey.expr e ∈ q.group → scalarOk e = true) (hnames : (q.cols.map (·.1)).Nodup) (hne : q.cols ≠ [])
    (hgrp : q.group ≠ [] ∨ ∃ c ∈ q.cols, isAgg c.2 = true) (hok : GroupNamesOk q.cols q.group) (hl : q.limit ≠ some 0)
    (hlim : q.limit = none ∨ (∃ c ∈ q.cols, isAgg c.2 = true) ∨ p.predicate.isSome ∨ p.intercept.isSome ∨ p.sort.isSome)
    (rows : List Row) (hw : WhereOk text py calls q rows) (hh : ∀ e ∈ q.having, havingOk e = true)
    (hlaw : ∀ n args final, (n, Select.Item.agg args final) ∈ q.cols → ∀ a ∈ args, ∃ good : Val → Prop,
      a.1.fold.Law good ∧ ∀ r ∈ rows, good (sem text py.cmp calls r a.2))
    (hsome : q.group ≠ [] ∨ ∃ r ∈ rows, satisfies text py.cmp calls q.cond r = true)
    (hdep : (∀ c ∈ q.cols, isAgg c.2 = false) → Dependent text py calls q rows) (ho : GroupOrderOk q) :
    GroupResult text py.cmp calls en.le q rows (Select.run py calls en p rows) := by
  obtain ⟨schema, hs, hq, hpr, hi, hord, hlimp, hsch⟩ := compileSelect_eq q p hp
  have hb := built_of_addCols q.group q.cols [] schema (by simpa using hnames) hs
  have hsc : schema = q.cols.map fun x => (x.1, colWith (theKey q.cols q.group) x.2) :=
    hb.groupSchema hnames hok [] rfl rfl
  obtain ⟨carries, hfinal, hkeyed, hcarry⟩ := finished q schema p.schema hne hnames hok hgrp hsc hsch
  have hkey : aggKey p.schema = some (theKey q.cols q.group) := by rw [hfinal]; exact aggKey_oneKey _ _ _ hkeyed
  have hsnames : schema.map (·.1) = q.cols.map (·.1) := by simpa using hb.names
  let members := load en.le p.orders (rows.filter (satisfies text py.cmp calls q.cond))
  have hperm : members.Perm (rows.filter (satisfies text py.cmp calls q.cond)) := by
    simp only [members, load]
    split
    · exact List.Perm.refl _
    · exact perm_isort _ _
  have hmem : ∀ r ∈ members, r ∈ rows := fun r hr => (List.mem_filter.1 (hperm.mem_iff.1 hr)).1
  have hmne : q.group ≠ [] ∨ members ≠ [] := by
    rcases hsome with h | ⟨r, hr, hsat⟩
    · exact Or.inl h
    · right
      exact List.ne_nil_of_mem (hperm.mem_iff.2 (List.mem_filter.2 ⟨hr, hsat⟩))
  -- the result rows before HAVING
  have hgroups : (groups py calls en p.schema (theKey q.cols q.group) members).map (fun g => groupRow py calls p.schema g.2) =
      (groupsOf text py.cmp calls q members).map (project text py.cmp calls q.cols) := by
    rw [groups_eq py calls en hchunk p.schema (theKey q.cols q.group) members
      (fun a v => ∃ r ∈ rows, v = eval py calls r a.2)]
    · rw [← groups_spec text py calls q hexpr hge members hmne, List.map_map, List.map_map]
      refine List.map_congr_left fun g hg => ?_
      simp only [Function.comp]
      rw [hfinal]
      refine groupRow_project text py calls q.cols (theKey q.cols q.group) carries hexpr hagg g.2 ?_
      intro n e hne hca r hr r' hr'
      have hno := hcarry ⟨n, hca⟩
      have hg' : g.2 ∈ groupsOf text py.cmp calls q members := by
        rw [← groups_spec text py calls q hexpr hge members hmne]
        exact List.mem_map.2 ⟨g, hg, rfl⟩
      obtain ⟨hsub, hsame⟩ := members_of_group text py calls q members g.2 hg'
      have hgne : q.group ≠ [] := by
        rcases hgrp with h | ⟨c, hc, h⟩
        · exact h
        · rw [hno c hc] at h; cases h
      exact hdep hno n e hne r (hmem r (hsub r hr)) r' (hmem r' (hsub r' hr')) (hsame hgne r hr r' hr')
    · intro n k args final hm a ha
      rw [hfinal] at hm
      obtain ⟨⟨n', it⟩, hx, he⟩ := List.mem_map.1 hm
      cases it with
      | expr e => cases hca : carries n' <;> simp_all [colWith, toLast]
      | agg args' final' =>
        have : (n', colWith (theKey q.cols q.group) (Select.Item.agg args' final')) = (n, Col.agg k args final) := by
          rw [← he]; simp only [Prod.mk.injEq, true_and]; split <;> rfl
        simp only [colWith, Prod.mk.injEq, Col.agg.injEq] at this
        obtain ⟨rfl, rfl, rfl, rfl⟩ := this
        obtain ⟨a', ha', rfl⟩ := List.mem_map.1 ha
        obtain ⟨good, hlaw', hgood⟩ := hlaw _ _ _ hx a' ha'
        have hgood' : ∀ r ∈ rows, good (eval py calls r (Expr.compile a'.2)) := by
          intro r hr
          rw [C31_value_partial text py calls r a'.2 (hagg _ _ _ hx a' ha')]
          exact hgood r hr
        refine ⟨?_, fun r hr => ⟨r, hmem r hr, rfl⟩⟩
        intro l1 l2 h1 h2
        refine hlaw' l1 l2 (fun v hv => ?_) (fun v hv => ?_)
        · obtain ⟨r, hr, rfl⟩ := h1 v hv; exact hgood' r hr
        · obtain ⟨r, hr, rfl⟩ := h2 v hv; exact hgood' r hr
  let outs := ((groupsOf text py.cmp calls q members).map (project text py.cmp calls q.cols)).filter fun o =>
      satisfies text py.cmp calls q.having fun n => colVal n o
  have hall : processed py calls en p (sourced py calls en p rows) =
      match p.sort with
      | some s => isort (leBy en.le field s) outs
      | none => outs := by
    have hint : ∀ l : List Out, l.filter (fun o => passes py calls p.intercept fun n => field n o) =
        l.filter fun o => satisfies text py.cmp calls q.having fun n => colVal n o := by
      intro l
      refine List.filter_congr fun o _ => ?_
      rw [intercept_ok text py calls _ q.having hh p.intercept hi]
      congr 1
      funext n
      exact (colVal_eq_field n _).symm
    simp only [processed, hkey, kept_eq text py calls en ht htr hf q p hq hpr rows hw]
    rw [hgroups, hint]
    rfl
  -- LIMIT
  have hlimrun : Limit.run p.limit (processed py calls en p) (sourced py calls en p rows) =
      pageOf q.limit q.offset (processed py calls en p (sourced py calls en p rows)) := by
    cases hql : q.limit with
    | none =>
      rw [hlimp, hql]
      exact C46_offset _ _ _ _
    | some n =>
      have hn : 0 < n := by
        rcases Nat.eq_zero_or_pos n with rfl | h
        · exact absurd hql hl
        · exact h
      rw [hlimp, hql]
      refine C46_limit_offset _ _ (Or.inl ?_) n q.offset hn _
      rcases hlim with h | ⟨c, hc, h⟩ | h | h | h
      · rw [hql] at h; cases h
      · refine Or.inr (Or.inr (Or.inl ?_))
        simp only [Bool.not_eq_true']
        obtain ⟨n, it⟩ := c
        cases it with
        | expr e => simp [isAgg] at h
        | agg args final =>
          rw [← Bool.not_eq_true, List.isEmpty_iff]
          apply List.ne_nil_of_mem (a := n)
          rw [aggNames, List.mem_map]
          refine ⟨(n, colWith (theKey q.cols q.group) (.agg args final)), List.mem_filter.2 ⟨?_, rfl⟩, rfl⟩
          rw [hsc]
          exact List.mem_map.2 ⟨_, hc, rfl⟩
      · exact Or.inl h
      · exact Or.inr (Or.inl h)
      · exact Or.inr (Or.inr (Or.inr h))
  -- ORDER BY
  rw [Order.compile] at hord
  cases hadd : addItems ⟨schema.map (·.1), q.columns, q.table, q.aliased, aggNames schema⟩ ([], []) q.order with
  | none => rw [hadd] at hord; simp at hord
  | some ps =>
  obtain ⟨ps, ss⟩ := ps
  obtain ⟨hps, hss, hnoexpr⟩ := addItems_eq _ _ _ _ hadd
  simp only [List.nil_append] at hps hss
  simp only [hadd, Option.bind_eq_bind, Option.bind_some] at hord
  have hkeys : keyFuns field ss = q.order.map fun i => (outValue i.1, i.2) := by
    rw [keyFuns, hss, List.map_map]
    refine List.map_congr_left fun i hi => ?_
    obtain ⟨i, d⟩ := i
    simp only [Function.comp, Prod.mk.injEq, and_true]
    funext o
    cases i with
    | col t n => exact (colVal_eq_field n o).symm
    | expr c =>
      cases c with
      | none => exact absurd rfl (hnoexpr _ hi)
      | some n => exact (colVal_eq_field n o).symm
  have hfin : ∃ sorted : List Out, sorted.Perm outs ∧ sorted.Pairwise (Le en.le (q.order.map fun i => (outValue i.1, i.2))) ∧
      sorted = processed py calls en p (sourced py calls en p rows) := by
    rw [hall]
    split at hord
    · split at hord
      · simp only [Option.some.injEq, Prod.mk.injEq] at hord
        rw [← hord.2]
        refine ⟨_, perm_isort _ _, ?_, rfl⟩
        refine (sorted_isort _ (leBy_total en.le ht _ _) (leBy_trans en.le ht htr _ _) outs).imp ?_
        intro a b h
        rw [leBy_iff ht] at h
        have h' : Le en.le (keyFuns field ss) a b := h
        rw [hkeys] at h'
        exact h'
      · cases hord
    · rename_i hcond
      simp only [Option.some.injEq, Prod.mk.injEq] at hord
      rw [← hord.2]
      refine ⟨_, List.Perm.refl _, ?_, rfl⟩
      by_cases hnil : q.order = []
      · rw [hnil]
        exact List.pairwise_of_forall fun _ _ => trivial
      have hprim : ∀ i ∈ q.order, prim ⟨schema.map (·.1), q.columns, q.table, q.aliased, aggNames schema⟩ i.1 = true := by
        have hlen : ss ≠ [] := by rw [hss]; simpa using hnil
        have hle : ¬ ps.length < ss.length := fun h => hcond ⟨hlen, h⟩
        rw [hps, hss, List.length_map, List.length_map] at hle
        have heq := Nat.le_antisymm (List.length_filter_le (fun i => prim ⟨schema.map (·.1), q.columns, q.table, q.aliased, aggNames schema⟩ i.1) q.order) (Nat.le_of_not_lt hle)
        rw [List.length_filter_eq_length_iff] at heq
        exact heq
      have hcol : ∀ i ∈ q.order, ∃ t n, i.1 = .col t n ∧ (n, Select.Item.expr (.col n)) ∈ q.cols := by
        intro i hi
        obtain ⟨i, d⟩ := i
        have hpi := hprim _ hi
        cases i with
        | expr c => simp [prim] at hpi
        | col t n =>
          refine ⟨t, n, rfl, ?_⟩
          cases t with
          | some t => exact ho.qualified t n d hi
          | none =>
            obtain ⟨hmem', hcols⟩ := ho.bare n d hi
            simp only [prim, isPrimary] at hpi
            by_cases hag : n ∈ aggNames schema
            · simp [hag] at hpi
            · simp only [hag, if_false, hsnames, hmem', not_true, decide_false, Bool.and_false, Bool.or_false] at hpi
              cases hal : q.aliased with
              | true => simp [hal] at hpi
              | false =>
                simp only [hal, Bool.false_eq_true, if_false, decide_eq_true_eq] at hpi
                rcases hcols hal hpi with ⟨args, final, hm⟩ | h
                · exfalso
                  apply hag
                  rw [aggNames, List.mem_map]
                  refine ⟨(n, colWith (theKey q.cols q.group) (.agg args final)), List.mem_filter.2 ⟨?_, rfl⟩, rfl⟩
                  rw [hsc]
                  exact List.mem_map.2 ⟨_, hm, rfl⟩
                · exact h
      have hps' : ps = q.order.map fun i => (Verif.Props.keyOf i.1, i.2) := by
        rw [hps, List.filter_eq_self.2 hprim]
      have hsortedRows : members.Pairwise fun r r' => Le en.le (q.order.map fun i => ((fun r : Row => r (Verif.Props.keyOf i.1)), i.2)) r r' := by
        have hone : p.orders ≠ [] := by rw [← hord.1, hps']; simpa using hnil
        simp only [members, load, if_neg hone]
        refine (sorted_isort _ (leBy_total en.le ht _ _) (leBy_trans en.le ht htr _ _) _).imp ?_
        intro a b h
        rw [leBy_iff ht] at h
        have h' : Le en.le (keyFuns (fun n (r : Row) => r n) p.orders) a b := h
        rw [← hord.1, hps', keyFuns, List.map_map] at h'
        exact h'
      have hgp := groups_pairwise text py calls q members _ hsortedRows
      refine List.Pairwise.sublist List.filter_sublist (List.pairwise_map.2 ?_)
      refine hgp.imp ?_
      intro g g' ⟨r, r', hr, hr', hrr⟩
      refine (Le_congr (g := fun i (r : Row) => r (Verif.Props.keyOf i)) en.le (fun i hi => ?_) (fun i hi => ?_)).2 hrr
      · obtain ⟨t, n, hin, hm⟩ := hcol i hi
        rw [hin]
        exact colVal_project_col text py calls q.cols hnames n hm g r hr
      · obtain ⟨t, n, hin, hm⟩ := hcol i hi
        rw [hin]
        exact colVal_project_col text py calls q.cols hnames n hm g' r' hr'
  obtain ⟨sorted, h1, h2, h3⟩ := hfin
  refine ⟨members, sorted, hperm, ?_, h1, h2, ?_⟩
  · intro hnil
    have : p.orders = [] := by
      rw [hnil] at hps hss
      simp only [List.filter_nil, List.map_nil] at hps hss
      subst hps hss
      simp only [ne_eq, not_true, false_and, if_false, Option.some.injEq, Prod.mk.injEq] at hord
      exact hord.1.symm
    simp only [members, load, this, if_true]
  · rw [run_eq, hlimrun, h3]

end
end Verif.Props
