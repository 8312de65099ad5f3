import Verif.Proofs.JoinEnv
/-! C132 and C133: a SELECT with LEFT JOINs as a whole. -/
namespace Verif.Proofs.JoinSelect
open Verif.Val Verif.Expr Verif.Where Verif.Reduce Verif.Select Verif.Props Verif.SqlSelect

variable {S : Type} (text : Str → Bool) (py : Py) (calls : Str → List Val → Val)

/-! ## The conditions that go to the load of the primary table -/

theorem build_key_mem (key : Str) (op : QOp) (v : QVal) (qs : Querys) (k : Str) (h : k ∈ qkeys (build key op v qs)) : k = key ∨ k ∈ qkeys qs := by
  induction qs with
  | nil => simpa [build, qkeys] using h
  | cons x qs ih =>
    obtain ⟨k', ds⟩ := x
    unfold build at h
    split at h
    · simp only [qkeys, List.map_cons, List.mem_cons] at h ⊢
      exact Or.inr h
    · simp only [qkeys, List.map_cons, List.mem_cons] at h ⊢
      rcases h with h | h
      · exact Or.inr (Or.inl h)
      · exact (ih h).imp id Or.inr

theorem split_keys (prim : Str → Bool) (e : E) (qs : Querys) (k : Str) (h : k ∈ qkeys (split prim qs e).querys) :
    prim k = true ∨ k ∈ qkeys qs := by
  fun_induction split prim qs e with
  | case1 qs a b l r tree iha ihb => exact (ihb h).elim Or.inl iha
  | case2 qs op a b c t hp => exact (build_key_mem _ _ _ _ k h).imp (fun h' => by rw [h']; exact (parseCondition_some hp).1) id
  | case3 qs op a b hp => exact Or.inr h
  | case4 qs a l c t hp => exact (build_key_mem _ _ _ _ k h).imp (fun h' => by rw [h']; exact (parseIn_some hp).1) id
  | case5 qs a l hp => exact Or.inr h
  | case6 qs a x ih => exact ih h
  | case7 qs e => exact Or.inr h

theorem putKey_mem (key : Str) (v : Dicts) (qs : Querys) (k : Str) (h : k ∈ qkeys (putKey key v qs)) : k = key ∨ k ∈ qkeys qs := by
  induction qs with
  | nil => simpa [putKey, qkeys] using h
  | cons x qs ih =>
    obtain ⟨k', ds⟩ := x
    unfold putKey at h
    split at h
    · simp only [qkeys, List.map_cons, List.mem_cons] at h ⊢
      exact Or.inr h
    · simp only [qkeys, List.map_cons, List.mem_cons] at h ⊢
      rcases h with h | h
      · exact Or.inr (Or.inl h)
      · exact (ih h).imp id Or.inr

theorem retypeOne_base (P : Str → Prop) (qs : Querys) (key : Str) (h : ∀ k ∈ qkeys qs, P (baseName k)) :
    ∀ k ∈ qkeys (retypeOne qs key), P (baseName k) := by
  intro k hk
  unfold retypeOne at hk
  split at hk
  · exact h k hk
  · next hb =>
    split at hk
    · exact h k hk
    · next k' ds hf =>
      split at hk
      · exact h k hk
      · simp only [qkeys, List.mem_map, List.mem_filter] at hk
        obtain ⟨x, ⟨hx, _⟩, rfl⟩ := hk
        rcases putKey_mem _ _ _ x.1 (List.mem_map.2 ⟨x, hx, rfl⟩) with h' | h'
        · rw [h', baseName_typed _ _ hb]
          have hm := List.mem_of_find?_eq_some hf
          have hk' := List.find?_some hf
          simp only [decide_eq_true_eq] at hk'
          have := h k' (List.mem_map.2 ⟨_, hm, rfl⟩)
          rwa [hk', baseName_untyped _ hb] at this
        · exact h _ h'

theorem retype_base (P : Str → Prop) (qs : Querys) (h : ∀ k ∈ qkeys qs, P (baseName k)) : ∀ k ∈ qkeys (retype qs), P (baseName k) := by
  unfold retype
  have : ∀ (l : List Str) (qs : Querys), (∀ k ∈ qkeys qs, P (baseName k)) → ∀ k ∈ qkeys (l.foldl retypeOne qs), P (baseName k) := by
    intro l
    induction l with
    | nil => intro qs h; exact h
    | cons a l ih => intro qs h; exact ih _ (retypeOne_base P qs a h)
  exact this _ qs h

theorem where_prim (q : Query S) : ∀ k ∈ qkeys (Select.whereOf (flat q)).1, '.' ∉ baseName k := by
  unfold Select.whereOf flat
  simp only
  cases q.cond with
  | none => intro k hk; simp [qkeys] at hk
  | some e =>
    refine retype_base (fun k => '.' ∉ k) _ fun k hk hd => ?_
    have := (split_keys JoinSelect.isPrim e [] k hk).resolve_right (by simp [qkeys])
    simp only [JoinSelect.isPrim, decide_eq_true_eq] at this
    exact this hd

/-! ## The rows of the joins -/

theorem joined_bare (primary : Join.Name) (e : Join.Env Val) (r : Row) (he : e primary = JoinSelect.jrow r) (n : Str) (hn : '.' ∉ n) :
    joinedRow primary e n = r n := by
  unfold joinedRow JoinSelect.refOf
  have hb : '.' ∉ baseName n := fun h => hn ((List.takeWhile_prefix _).sublist.subset h)
  rw [if_neg hb]
  simp only [Option.getD_none, he, JoinSelect.jrow, String.toList_ofList]

/-- The row of the joins for a row of the primary table. -/
def theJoined (o : Join.Ops Val) (primary : Join.Name) (db : Join.Name → List (Join.Row Val)) (joins : List (Join.Join Val)) (r : Row) : Row :=
  joinedRow primary (theEnv .null o primary db joins (start primary r))

theorem start_primary (primary : Join.Name) (r : Row) : start primary r primary = JoinSelect.jrow r := by
  simp [start]; rfl

theorem joinedRows_eq (o : Join.Ops Val) (primary : Join.Name) (db : Join.Name → List (Join.Row Val)) (joins : List (Join.Join Val))
    (hl : ∀ j ∈ joins, j.kind = .left) (rows : List Row) (h : OneMatch o primary db joins rows) :
    joinedRows o primary db joins rows = rows.map (theJoined o primary db joins) := by
  unfold joinedRows
  have : ∀ r ∈ rows, (SqlJoin.rows .null o primary db joins (start primary r)).map (joinedRow primary) = [theJoined o primary db joins r] := by
    intro r hr
    rw [rows_one .null o primary db joins hl (start primary r) (h r hr)]
    rfl
  rw [List.flatMap_def, List.map_congr_left this, ← List.flatMap_def]
  induction rows with
  | nil => rfl
  | cons r rows ih => rw [List.flatMap_cons, List.map_cons, ih (fun r' hr => h r' (by simp [hr])) (fun r' hr => this r' (by simp [hr]))]; rfl

/-- An ORDER BY item that is a column of a joined table is sorted on as the result column of its name. -/
def conv (table : Str) : Order.Item → Order.Item
  | .col (some t) n => if t = table then .col (some t) n else .expr (some n)
  | i => i

theorem addItems_conv (c : Order.Ctx) (acc : List Order.Key × List Order.Key) (items : List (Order.Item × Bool)) :
    Order.addItems c acc (items.map fun i => (conv c.table i.1, i.2)) = Order.addItems c acc items := by
  induction items generalizing acc with
  | nil => rfl
  | cons i items ih =>
    have : Order.addItem c acc (conv c.table i.1, i.2) = Order.addItem c acc i := by
      obtain ⟨i, d⟩ := i
      cases i with
      | expr x => rfl
      | col t n =>
        cases t with
        | none => rfl
        | some t =>
          simp only [conv]
          split
          · rfl
          · next h => simp [Order.addItem, Order.isPrimary, h]
    simp only [List.map_cons, Order.addItems, this]
    congr 1
    funext x
    exact ih x

/-- The query on one table that holds the rows of the joins. -/
def overJoined (q : Query S) : Query S := { flat q with order := q.order.map fun i => (conv q.table i.1, i.2) }

theorem compile_overJoined (q : Query S) : compileSelect (overJoined q) = compileSelect (flat q) := by
  unfold compileSelect
  have : ∀ (names : List Str) (aggs : List Str), Order.compile ⟨names, q.columns, q.table, q.aliased, aggs⟩ (overJoined q).order
      = Order.compile ⟨names, q.columns, q.table, q.aliased, aggs⟩ q.order := by
    intro names aggs
    unfold Order.compile
    rw [show (overJoined q).order = q.order.map fun i => (conv q.table i.1, i.2) from rfl,
      addItems_conv ⟨names, q.columns, q.table, q.aliased, aggs⟩]
  simp only [overJoined, flat] at this ⊢
  simp only [this]
  rfl

theorem addItems_keys (c : Order.Ctx) (acc : List Order.Key × List Order.Key) (items : List (Order.Item × Bool))
    (p : List Order.Key × List Order.Key) (h : Order.addItems c acc items = some p) (P : Str → Prop)
    (hi : ∀ t n d, (Order.Item.col t n, d) ∈ items → P n) (ha : ∀ k ∈ acc.1, P k.1) : ∀ k ∈ p.1, P k.1 := by
  induction items generalizing acc with
  | nil => cases h; exact ha
  | cons i items ih =>
    simp only [Order.addItems] at h
    obtain ⟨acc', h1, h2⟩ := Option.bind_eq_some_iff.1 h
    refine ih acc' h2 (fun t n d hm => hi t n d (by simp [hm])) ?_
    obtain ⟨i, d⟩ := i
    cases i with
    | expr x =>
      cases x with
      | none => simp [Order.addItem] at h1
      | some x => simp only [Order.addItem, Option.some.injEq] at h1; subst h1; exact ha
    | col t n =>
      simp only [Order.addItem, Option.some.injEq] at h1
      subst h1
      intro k hk
      simp only at hk
      split at hk
      · rcases List.mem_append.1 hk with hk | hk
        · exact ha k hk
        · rw [List.mem_singleton.1 hk]; exact hi t n d (by simp)
      · exact ha k hk

/-- A query with joins gives what the same query gives on the rows of the joins, with some division into batches. -/
theorem run_eq (o : Join.Ops Val) (hsym : ∀ a b, o.truthy (o.cmp .eq a b) = o.truthy (o.cmp .eq b a))
    (order : List Join.Name → List Join.Name) (ho : ∀ l, (order l).Perm l) (fuel : Nat) (db : Join.Name → List (Join.Row Val)) (en : Engine)
    (q : Query S) (joins : List (Join.Join Val)) (hj : JoinsOk o (String.ofList q.table) joins) (p : JoinSelect.Plan (Join.C Val) S)
    (hp : JoinSelect.compile py calls o order fuel joins q = some p) (hdot : ∀ t n d, (Order.Item.col t n, d) ∈ q.order → '.' ∉ n)
    (rows : List Row) :
    ∃ p0 en', compileSelect (overJoined q) = some p0 ∧ en'.src = en.src ∧ en'.le = en.le ∧ en'.batch = en.batch ∧
      ((∀ l, (en.chunk l).flatMap (·.1) = l) → ∀ l, (en'.chunk l).flatMap (·.1) = l) ∧
      (p.predicate.isSome = p0.predicate.isSome ∧ p.intercept = p0.intercept ∧ p.sort = p0.sort) ∧
      JoinSelect.run py calls o db en p rows = Select.run py calls en' p0 (rows.map (theJoined o (String.ofList q.table) db joins)) := by
  obtain ⟨info, hi, hp⟩ := Proofs.JoinSelect.compile_some hp
  let primary := String.ofList q.table
  let J := theJoined o primary db joins
  have hJ : ∀ r n, '.' ∉ n → J r n = r n := fun r n hn => joined_bare primary (theEnv .null o primary db joins (start primary r)) r
    ((theEnv_other .null o primary db joins _ primary (scoped_primary primary joins hj.names)).trans (start_primary primary r)) n hn
  obtain ⟨p0, hp0, hrel⟩ := compile_rel (ev := fun c r => Join.evalC .null (fun a b => o.truthy (o.cmp .eq a b)) o.truthy
    (fun t f => (db t).find? f) [JoinSelect.jrow r] c) (ev0 := fun t r => eval py calls (J r) t)
    (fun e k hk => by
      funext r
      have := compileE_value py calls o hsym primary joins hj info hi order ho fuel db e k hk (start primary r)
      rw [start_primary] at this
      exact this) q p hp
  obtain ⟨schema, _, hq, _, _, hord, _, _⟩ := compileSelect_eq (flat q) p0 hp0
  have hqk : ∀ r, matchRow py calls en.src (J r) p0.querys = matchRow py calls en.src r p0.querys := by
    intro r
    unfold matchRow
    rw [hq, Bool.eq_iff_iff, List.all_eq_true, List.all_eq_true]
    refine forall_congr' fun x => forall_congr' fun hx => ?_
    rw [hJ r _ (where_prim q x.1 (List.mem_map.2 ⟨x, hx, rfl⟩))]
  have hok : ∀ k ∈ p0.orders, ∀ r, J r k.1 = r k.1 := by
    unfold Order.compile at hord
    obtain ⟨⟨a, b⟩, h1, h2⟩ := Option.bind_eq_some_iff.1 hord
    have := addItems_keys _ _ _ _ h1 (fun n => '.' ∉ n) hdot (by simp)
    simp only at h2
    have ha : p0.orders = a := by
      split at h2
      · split at h2
        · exact (congrArg Prod.fst (Option.some.inj h2)).symm
        · cases h2
      · exact (congrArg Prod.fst (Option.some.inj h2)).symm
    rw [ha]
    exact fun k hk r => hJ r _ (this k hk)
  let kept := keptRows py calls en p0 (fun t r => eval py calls (J r) t) rows
  let chunk' : List Row → List (List Row × Bool) := fun l =>
    haveI := Classical.propDecidable (l = kept.map J)
    if l = kept.map J then (en.chunk kept).map fun b => (b.1.map J, b.2) else [(l, true)]
  have hc' : chunk' (kept.map J) = (en.chunk kept).map fun b => (b.1.map J, b.2) := if_pos rfl
  refine ⟨p0, { en with chunk := chunk' }, by rw [compile_overJoined]; exact hp0, rfl, rfl, rfl, ?_, ?_, ?_⟩
  · intro h l
    show (chunk' l).flatMap (·.1) = l
    by_cases hl : l = kept.map J
    · rw [hl, hc', List.flatMap_map]
      simp only
      rw [← List.map_flatMap, h kept]
    · rw [show chunk' l = [(l, true)] from if_neg hl]
      simp
  · refine ⟨?_, congrArg JoinSelect.Plan.intercept hrel, congrArg JoinSelect.Plan.sort hrel⟩
    have := congrArg (fun p => p.predicate.isSome) hrel
    simpa [JoinSelect.Plan.map, semP] using this
  · unfold JoinSelect.run
    rw [hrel, run_map py calls J (fun t r => eval py calls r t) en { en with chunk := chunk' } rfl rfl rfl p0 rows hqk hok hc', run_sem]

end Verif.Proofs.JoinSelect

namespace Verif.Props
open Verif.Val Verif.Expr Verif.Sql Verif.Where Verif.Order Verif.SqlOrder Verif.Select Verif.SqlSelect Verif.Proofs.JoinSelect

section
variable {S : Type} (text : Str → Bool) (py : Py) (calls : Str → List Val → Val)

/-- ORDER BY of a query with joins: the names are plain names; a column of a table that has the name of a result column is that
result column. -/
structure JoinOrderOk (q : Query S) : Prop where
  plain : ∀ t n d, (Order.Item.col t n, d) ∈ q.order → '.' ∉ n
  primary : ∀ n d, (Order.Item.col (some q.table) n, d) ∈ q.order → n ∈ q.cols.map (·.1) → (n, Select.Item.expr (.col n)) ∈ q.cols
  joined : ∀ t n d, (Order.Item.col (some t) n, d) ∈ q.order → t ≠ q.table → (n, Select.Item.expr (.col (t ++ '.' :: n))) ∈ q.cols
  bare : ∀ n d, (Order.Item.col none n, d) ∈ q.order → n ∈ q.cols.map (·.1) → q.aliased = false → n ∈ q.columns →
    (n, Select.Item.expr (.col n)) ∈ q.cols

theorem conv_col (table : Str) (i : Order.Item) (t : Option Str) (n : Str) (h : conv table i = .col t n) :
    i = .col t n ∧ ∀ u, t = some u → u = table := by
  cases i with
  | expr x => cases h
  | col t' n' =>
    cases t' with
    | none => simp only [conv, Order.Item.col.injEq] at h; obtain ⟨rfl, rfl⟩ := h; exact ⟨rfl, fun u hu => by cases hu⟩
    | some t' =>
      simp only [conv] at h
      split at h
      · next e => simp only [Order.Item.col.injEq] at h; obtain ⟨rfl, rfl⟩ := h; exact ⟨rfl, fun u hu => by cases hu; exact e⟩
      · cases h

/-- **C132**: a SELECT with LEFT JOINs and without grouping returns SQL's result: of the rows of the joins (the columns of the
joined tables, NULL where nothing matches) those that satisfy WHERE and HAVING, each turned into a result row, in the order of ORDER BY,
and of these the part LIMIT and OFFSET ask for; when each row of the primary table has at most one match in each joined table. -/
theorem C132_join_select_partial (o : Join.Ops Val) (hsym : ∀ a b, o.truthy (o.cmp .eq a b) = o.truthy (o.cmp .eq b a))
    (order : List Join.Name → List Join.Name) (hperm : ∀ l, (order l).Perm l) (fuel : Nat) (db : Join.Name → List (Join.Row Val))
    (en : Engine) (ht : ∀ x y, en.le x y = true ∨ en.le y x = true)
    (htr : ∀ x y z, en.le x y = true → en.le y z = true → en.le x z = true) (hf : Faithful py en.src) (q : Query S)
    (joins : List (Join.Join Val)) (hj : JoinsOk o (String.ofList q.table) joins) (p : JoinSelect.Plan (Join.C Val) S)
    (hp : JoinSelect.compile py calls o order fuel joins q = some p) (hcols : ∀ c ∈ q.cols, ∃ e, c.2 = .expr e ∧ scalarOk e = true)
    (hnames : (q.cols.map (·.1)).Nodup) (hg : q.group = []) (hd : q.distinct = false) (hl : q.limit ≠ some 0) (rows : List Row)
    (h1 : OneMatch o (String.ofList q.table) db joins rows)
    (hw : WhereOk text py calls { q with prim := JoinSelect.isPrim } (joinedRows o (String.ofList q.table) db joins rows))
    (hh : ∀ e ∈ q.having, havingOk e = true) (ho : JoinOrderOk q) :
    JoinRowResult text py.cmp calls en.le q (joinedRows o (String.ofList q.table) db joins rows) (JoinSelect.run py calls o db en p rows) := by
  obtain ⟨p0, en', hp0, hsrc, hle, -, -, -, hrun⟩ := Proofs.JoinSelect.run_eq py calls o hsym order hperm fuel db en q joins hj p hp ho.plain rows
  rw [hrun]
  rw [joinedRows_eq o _ db joins hj.left rows h1] at hw ⊢
  have hres := C57_select_partial text py calls en' (by rw [hle]; exact ht) (by rw [hle]; exact htr) (by rw [hsrc]; exact hf)
    (overJoined q) p0 hp0 hcols hnames hg hd hl _ ⟨hw.tests, hw.shape, hw.swaps, hw.typed⟩ hh
    ⟨fun t n d hm hn => by
        obtain ⟨⟨i, d'⟩, hi, he⟩ := List.mem_map.1 hm
        simp only [Prod.mk.injEq] at he
        obtain ⟨hc, hu⟩ := conv_col q.table i _ _ he.1
        rw [hc, hu t rfl] at hi
        exact ho.primary n d' hi hn,
      fun n d hm hn ha hcl => by
        obtain ⟨⟨i, d'⟩, hi, he⟩ := List.mem_map.1 hm
        simp only [Prod.mk.injEq] at he
        obtain ⟨hc, -⟩ := conv_col q.table i _ _ he.1
        rw [hc] at hi
        exact ho.bare n d' hi hn ha hcl⟩
  obtain ⟨sorted, hs, hr⟩ := hres
  refine ⟨sorted, ?_, hr⟩
  rw [hle] at hs
  simp only [overJoined, flat, List.map_map] at hs
  have hkeys : (q.order.map ((fun i => (SqlOrder.value (q.cols.map (·.1)) q.table (fun _ n (r : Row) => r n)
        (fun n r => colVal n (project text py.cmp calls q.cols [r])) i.1, i.2)) ∘ fun i => (conv q.table i.1, i.2)))
      = q.order.map fun i => (SqlOrder.value (q.cols.map (·.1)) q.table
        (fun t n (r : Row) => if t = q.table then r n else r (t ++ '.' :: n)) (fun n r => colVal n (project text py.cmp calls q.cols [r])) i.1, i.2) := by
    refine List.map_congr_left fun i hi => ?_
    obtain ⟨i, d⟩ := i
    refine Prod.ext ?_ rfl
    funext r
    cases i with
    | expr x => cases x <;> simp [conv, SqlOrder.value]
    | col t n =>
      cases t with
      | none => simp [conv, SqlOrder.value]
      | some t =>
        by_cases htt : t = q.table
        · simp [conv, SqlOrder.value, htt]
        · simp only [Function.comp, conv, htt, if_false, SqlOrder.value]
          rw [colVal_project text py calls q.cols hnames n _ (ho.joined t n d hi htt)]
          rfl
  rw [← hkeys]
  exact hs

/-- ORDER BY of a grouped query with joins. -/
structure JoinGroupOrderOk (q : Query S) : Prop where
  plain : ∀ t n d, (Order.Item.col t n, d) ∈ q.order → '.' ∉ n
  primary : ∀ n d, (Order.Item.col (some q.table) n, d) ∈ q.order → (n, Select.Item.expr (.col n)) ∈ q.cols
  joined : ∀ t n d, (Order.Item.col (some t) n, d) ∈ q.order → t ≠ q.table → (n, Select.Item.expr (.col (t ++ '.' :: n))) ∈ q.cols
  bare : ∀ n d, (Order.Item.col none n, d) ∈ q.order → n ∈ q.cols.map (·.1) ∧
    (q.aliased = false → n ∈ q.columns → (∃ args final, (n, Select.Item.agg args final) ∈ q.cols) ∨ (n, Select.Item.expr (.col n)) ∈ q.cols)

/-- **C133**: a SELECT with LEFT JOINs and with aggregates or GROUP BY returns SQL's result: one row for each group of the rows of the
joins that satisfy WHERE that satisfies HAVING, in the order of ORDER BY, and of these the part LIMIT and OFFSET ask for, whatever the
batches are; when each row of the primary table has at most one match in each joined table. -/
theorem C133_join_grouped_partial (o : Join.Ops Val) (hsym : ∀ a b, o.truthy (o.cmp .eq a b) = o.truthy (o.cmp .eq b a))
    (order : List Join.Name → List Join.Name) (hperm : ∀ l, (order l).Perm l) (fuel : Nat) (db : Join.Name → List (Join.Row Val))
    (en : Engine) (ht : ∀ x y, en.le x y = true ∨ en.le y x = true)
    (htr : ∀ x y z, en.le x y = true → en.le y z = true → en.le x z = true) (hf : Faithful py en.src)
    (hchunk : ∀ l, (en.chunk l).flatMap (·.1) = l) (q : Query S)
    (joins : List (Join.Join Val)) (hj : JoinsOk o (String.ofList q.table) joins) (p : JoinSelect.Plan (Join.C Val) S)
    (hp : JoinSelect.compile py calls o order fuel joins q = some p)
    (hexpr : ∀ n e, (n, Select.Item.expr e) ∈ q.cols → scalarOk e = true)
    (hagg : ∀ n args final, (n, Select.Item.agg args final) ∈ q.cols → ∀ a ∈ args, scalarOk a.2 = true)
    (hge : ∀ e, GKey.expr e ∈ q.group → scalarOk e = true) (hnames : (q.cols.map (·.1)).Nodup) (hne : q.cols ≠ [])
    (hgrp : q.group ≠ [] ∨ ∃ c ∈ q.cols, isAgg c.2 = true) (hok : GroupNamesOk q.cols q.group) (hl : q.limit ≠ some 0)
    (hlim : q.limit = none ∨ (∃ c ∈ q.cols, isAgg c.2 = true) ∨ p.predicate.isSome ∨ p.intercept.isSome ∨ p.sort.isSome)
    (rows : List Row) (h1 : OneMatch o (String.ofList q.table) db joins rows)
    (hw : WhereOk text py calls { q with prim := JoinSelect.isPrim } (joinedRows o (String.ofList q.table) db joins rows))
    (hh : ∀ e ∈ q.having, havingOk e = true)
    (hlaw : ∀ n args final, (n, Select.Item.agg args final) ∈ q.cols → ∀ a ∈ args, ∃ good : Val → Prop,
      a.1.fold.Law good ∧ ∀ r ∈ joinedRows o (String.ofList q.table) db joins rows, good (sem text py.cmp calls r a.2))
    (hsome : q.group ≠ [] ∨ ∃ r ∈ joinedRows o (String.ofList q.table) db joins rows, satisfies text py.cmp calls q.cond r = true)
    (hdep : (∀ c ∈ q.cols, isAgg c.2 = false) → Dependent text py calls q (joinedRows o (String.ofList q.table) db joins rows))
    (ho : JoinGroupOrderOk q) :
    GroupResult text py.cmp calls en.le q (joinedRows o (String.ofList q.table) db joins rows) (JoinSelect.run py calls o db en p rows) := by
  obtain ⟨p0, en', hp0, hsrc, hle, -, hch, ⟨e1, e2, e3⟩, hrun⟩ :=
    Proofs.JoinSelect.run_eq py calls o hsym order hperm fuel db en q joins hj p hp ho.plain rows
  rw [hrun]
  rw [joinedRows_eq o _ db joins hj.left rows h1] at hw hlaw hsome hdep ⊢
  rw [e1, e2, e3] at hlim
  have hres := C58_grouped_partial text py calls en' (by rw [hle]; exact ht) (by rw [hle]; exact htr) (by rw [hsrc]; exact hf)
    (hch hchunk) (overJoined q) p0 hp0 hexpr hagg hge hnames hne hgrp hok hl hlim _ ⟨hw.tests, hw.shape, hw.swaps, hw.typed⟩ hh hlaw hsome hdep
    ⟨fun t n d hm => by
        obtain ⟨⟨i, d'⟩, hi, he⟩ := List.mem_map.1 hm
        simp only [Prod.mk.injEq] at he
        obtain ⟨hc, hu⟩ := conv_col q.table i _ _ he.1
        rw [hc, hu t rfl] at hi
        exact ho.primary n d' hi,
      fun n d hm => by
        obtain ⟨⟨i, d'⟩, hi, he⟩ := List.mem_map.1 hm
        simp only [Prod.mk.injEq] at he
        obtain ⟨hc, -⟩ := conv_col q.table i _ _ he.1
        rw [hc] at hi
        exact ho.bare n d' hi⟩
  obtain ⟨members, sorted, m1, m2, m3, m4, m5⟩ := hres
  refine ⟨members, sorted, m1, fun he => m2 (by simp [overJoined, flat, he]), m3, ?_, m5⟩
  rw [hle] at m4
  simp only [overJoined, flat, List.map_map] at m4
  have hkeys : (q.order.map ((fun i => (outValue i.1, i.2)) ∘ fun i => (conv q.table i.1, i.2))) = q.order.map fun i => (outValue i.1, i.2) := by
    refine List.map_congr_left fun i _ => ?_
    obtain ⟨i, d⟩ := i
    refine Prod.ext ?_ rfl
    funext r
    cases i with
    | expr x => rfl
    | col t n =>
      cases t with
      | none => rfl
      | some t =>
        simp only [Function.comp, conv]
        split <;> rfl
  rw [← hkeys]
  exact m4

end
end Verif.Props
