import Verif.Spec.Aggregates
import Verif.Props.AggregateLaws
import Verif.Props.Reduce
import Verif.Props.TreeFunctions
/-!
The aggregates of SQL in statements, C186: a statement with joins, window functions and subqueries computes them as SQL defines them,
not only as the program's calculaters do.
-/
namespace Verif.Props
open Verif.Val Verif.Text Verif.SqlFunctions Verif.SqlAggregates Verif.Aggregates Verif.AggSpec

namespace AggregatesLemmas
open Verif.Select Verif.SqlSelect Verif.Agg Verif.Reduce

theorem aggregate_embed {σ : Type} (A : Calc Val σ Val) (inj : Option (Option σ) → State) (prj : State → Option (Option σ))
    (h : ∀ s, prj (inj s) = s) (l : List Val) :
    aggregate (embed A inj prj) l = match A.run none l with | some s => A.final s | none => .null := by
  have key : ∀ (l : List Val) (s : Option (Option σ)),
      l.foldl (embed A inj prj).fold.step (inj s) = inj (l.foldl (Calc.total A).step s) := by
    intro l
    induction l with
    | nil => intro s; rfl
    | cons v l ih =>
      intro s
      simp only [List.foldl_cons]
      rw [show (embed A inj prj).fold.step (inj s) v = inj ((Calc.total A).step s v) by simp only [embed, h]]
      exact ih _
  unfold aggregate
  rw [show (embed A inj prj).fold.init = inj (Calc.total A).init from rfl, key, total_fold]
  simp only [embed, h, Calc.total, Option.bind_some]
  cases A.run none l <;> rfl

theorem law_embed {σ : Type} (A : Calc Val σ Val) (inj : Option (Option σ) → State) (prj : State → Option (Option σ))
    (h : ∀ s, prj (inj s) = s) (good : Val → Prop) (hl : (Calc.total A).Law good) : (embed A inj prj).fold.Law good := by
  have key : ∀ (l : List Val) (s : Option (Option σ)),
      l.foldl (embed A inj prj).fold.step (inj s) = inj (l.foldl (Calc.total A).step s) := by
    intro l
    induction l with
    | nil => intro s; rfl
    | cons v l ih =>
      intro s
      simp only [List.foldl_cons]
      rw [show (embed A inj prj).fold.step (inj s) v = inj ((Calc.total A).step s v) by simp only [embed, h]]
      exact ih _
  intro l1 l2 h1 h2
  rw [show (embed A inj prj).fold.init = inj (Calc.total A).init from rfl, key, key, key]
  rw [← hl l1 l2 h1 h2]
  simp only [embed, h]

theorem run_withFinal {α σ R R' : Type} (A : Calc α σ R) (f : R → R') (l : List α) (s : Option σ) :
    (withFinal A f).run s l = A.run s l := by
  induction l generalizing s with
  | nil => rfl
  | cons v l ih =>
    simp only [Calc.run]
    rw [show (withFinal A f).step = A.step from rfl]
    cases A.step s v with
    | none => rfl
    | some s' => exact ih s'

theorem nonNull_cons (v : Val) (l : List Val) : nonNull (v :: l) = if v = .null then nonNull l else v :: nonNull l := by
  unfold nonNull
  rw [List.filter_cons]
  by_cases h : v = .null <;> simp [h]

/-- The sum keeps its kind. -/
theorem sum_kind (py : Py) (l : List Val) (h : ∀ v ∈ nonNull l, ∃ p, SqlFunctions.Num v p) (a : Num) (n : Num)
    (hr : (Agg.sum py).run (some a) l = some (some n)) :
    ((∃ i, a = .int i) → (∀ v ∈ nonNull l, ∃ j, v = .int j) → ∃ i, n = .int i) ∧
    (((∃ q, a = .flt q) ∨ ∃ q, Val.flt q ∈ l) → ∃ q, n = .flt q) := by
  induction l generalizing a with
  | nil =>
    simp only [Calc.run, Option.some.injEq] at hr
    subst hr
    exact ⟨fun h _ => h, fun h => h.elim id fun ⟨q, hq⟩ => by simp at hq⟩
  | cons v l ih =>
    simp only [Calc.run] at hr
    have hl : ∀ w ∈ nonNull l, ∃ p, SqlFunctions.Num w p := fun w hw => h w (by rw [nonNull_cons]; split <;> simp [hw])
    by_cases hv : v = .null
    · subst hv
      rw [show (Agg.sum py).step (some a) .null = some (some a) by simp [Agg.sum, Py.ensureNumber]] at hr
      obtain ⟨h1, h2⟩ := ih hl a hr
      refine ⟨fun ha hj => h1 ha fun w hw => hj w (by rw [nonNull_cons, if_pos rfl]; exact hw), fun hq => h2 ?_⟩
      rcases hq with hq | ⟨q, hq⟩
      · exact Or.inl hq
      · exact Or.inr ⟨q, by simpa using hq⟩
    · obtain ⟨p, hp⟩ := h v (by rw [nonNull_cons, if_neg hv]; simp)
      cases hp with
      | int i =>
        rw [show (Agg.sum py).step (some a) (.int i) = some (some (numAdd a (.int i))) by simp [Agg.sum, Py.ensureNumber]] at hr
        obtain ⟨h1, h2⟩ := ih hl _ hr
        refine ⟨fun ha hj => h1 ?_ fun w hw => hj w (by rw [nonNull_cons, if_neg hv]; simp [hw]), fun hq => h2 ?_⟩
        · obtain ⟨k, rfl⟩ := ha; exact ⟨_, rfl⟩
        · rcases hq with ⟨q, rfl⟩ | ⟨q, hq⟩
          · exact Or.inl ⟨_, rfl⟩
          · exact Or.inr ⟨q, by simpa using hq⟩
      | flt r =>
        rw [show (Agg.sum py).step (some a) (.flt p) = some (some (numAdd a (.flt p))) by simp [Agg.sum, Py.ensureNumber]] at hr
        obtain ⟨h1, h2⟩ := ih hl _ hr
        refine ⟨fun _ hj => ?_, fun _ => h2 (Or.inl ?_)⟩
        · obtain ⟨j, hj⟩ := hj (.flt p) (by rw [nonNull_cons, if_neg hv]; simp)
          cases hj
        · cases a <;> exact ⟨_, rfl⟩

theorem sum_start (py : Py) (l : List Val) (h : ∀ v ∈ nonNull l, ∃ p, SqlFunctions.Num v p) (hl : l ≠ []) :
    (Agg.sum py).run none l = (Agg.sum py).run (some (.int 0)) l ∨
      ∃ v l', l = v :: l' ∧ ∃ q, v = .flt q := by
  cases l with
  | nil => exact absurd rfl hl
  | cons v l =>
    by_cases hv : v = .null
    · subst hv; left; simp [Calc.run, Agg.sum, Py.ensureNumber]
    · obtain ⟨p, hp⟩ := h v (by rw [nonNull_cons, if_neg hv]; simp)
      cases hp with
      | int i => left; simp [Calc.run, Agg.sum, Py.ensureNumber, numAdd]
      | flt q => right; exact ⟨_, _, rfl, p, rfl⟩

theorem numOrNull {l : List Val} (h : ∀ v ∈ nonNull l, ∃ p, SqlFunctions.Num v p) : ∀ v ∈ l, NumOrNull v := by
  intro v hv
  by_cases h0 : v = .null
  · exact Or.inl h0
  · obtain ⟨p, hp⟩ := h v (by unfold nonNull; simp [hv, h0])
    cases hp <;> exact Or.inr rfl

theorem less_kind {v w : Val} (h : Less v w) : SameKind v w ∧ kindCmp v w = .lt := by
  cases h with
  | num hv hw h =>
    obtain ⟨h1, h2⟩ := FunctionsLemmas.num_kind hv hw
    refine ⟨h1, h2.trans ?_⟩
    simp [ratCmp, h]
  | text h =>
    refine ⟨?_, ?_⟩
    · simp [SameKind]
    · simpa [kindCmp, numeric] using (FunctionsLemmas.earlier_iff _ _).1 h

theorem one_kind {l : List Val} {v : Val} (hv : v ∈ nonNull l) (h : ∀ w ∈ nonNull l, w = v ∨ (Less w v ∨ Less v w)) (ho : Ordered v) :
    OneKind l := by
  have hvv : SameKind v v := by
    rcases ho with ⟨p, hp⟩ | ⟨s, rfl⟩
    · exact (FunctionsLemmas.num_kind hp hp).1
    · simp [SameKind]
  have key : ∀ w ∈ nonNull l, SameKind w v := by
    intro w hw
    rcases h w hw with rfl | h | h
    · exact hvv
    · exact (less_kind h).1
    · exact sameKind_symm (less_kind h).1
  intro a ha b hb
  exact sameKind_trans (key a ha) (sameKind_symm (key b hb))

theorem numbers_length (l : List Val) (h : ∀ v ∈ l, (num? v).isSome) : (numbers l).length = l.length := by
  induction l with
  | nil => rfl
  | cons v l ih =>
    obtain ⟨x, hx⟩ := Option.isSome_iff_exists.1 (h v (by simp))
    unfold numbers at ih ⊢
    rw [List.filterMap_cons_some hx, List.length_cons, List.length_cons, ih fun w hw => h w (by simp [hw])]

theorem convertible (py : Py) {v : Val} (h : NumOrNull v) : Convertible py v := by
  rcases h with h | h
  · exact Or.inl h
  · obtain ⟨x, hx⟩ := Option.isSome_iff_exists.1 h
    obtain ⟨m, hm, _⟩ := ensureNumber_of_num py hx
    exact Or.inr (by rw [hm]; rfl)

theorem splits_final {α σ R R' : Type} {A : Calc α σ R} (f : R → R') {l1 l2 : List α} (h : Splits A l1 l2) :
    Splits (withFinal A f) l1 l2 := by
  obtain ⟨s1, s2, s, h1, h2, h3, h4⟩ := h
  exact ⟨s1, s2, s, (run_withFinal A f l1 none).trans h1, (run_withFinal A f l2 none).trans h2, (run_withFinal A f (l1 ++ l2) none).trans h3, h4⟩

theorem standard_aggregate (agg : Name → List Val → Val) (a : Written) (l : List Val) :
    aggregate (standard agg a) l = agg (nameOf a) l := by
  have key : ∀ (l s : List Val), l.foldl (standard agg a).fold.step s = s ++ l := by
    intro l
    induction l with
    | nil => intro s; simp
    | cons v l ih =>
      intro s
      rw [List.foldl_cons, ih]
      simp [standard]
  unfold aggregate
  rw [key]; rfl

end AggregatesLemmas

open AggregatesLemmas

/-- **C186** The program's aggregates are SQL's. -/
theorem C186_aggregate (py : Py) {f : Name} {l : List Val} {v : Val} (h : StdAgg f l v) :
    Verif.SqlSelect.aggregate (program py f) l = v := by
  cases h with
  | count h =>
    unfold program
    rw [aggregate_embed _ _ _ (fun s => rfl), C17_count l h]; rfl
  | countDistinct h =>
    unfold program
    rw [aggregate_embed _ _ _ (fun s => rfl)]
    have := C17_count_distinct l _ h
    revert this
    cases Agg.distinctCount.run none l with
    | none => intro h; cases h
    | some s => intro h; exact Option.some.inj h
  | sum h hne hi =>
    rename_i i
    have hn : ∀ v ∈ nonNull l, ∃ p, SqlFunctions.Num v p := fun v hv => by obtain ⟨j, rfl⟩ := h v hv; exact ⟨_, .int j⟩
    have hl : l ≠ [] := fun e => hne (by rw [e]; rfl)
    obtain ⟨n, hr, ht⟩ := C17_sum py l (numOrNull hn) hl
    unfold program
    rw [aggregate_embed _ _ _ (fun s => rfl), hr]
    rcases sum_start py l hn hl with h0 | ⟨v, l', rfl, q, rfl⟩
    · obtain ⟨j, rfl⟩ := (sum_kind py l hn (.int 0) n (h0.symm.trans hr)).1 ⟨0, rfl⟩ h
      rw [← hi] at ht
      simp only [Agg.sum, Val.Num.toVal]
      simp only [Val.Num.toRat] at ht
      rw [Rat.intCast_inj.1 ht]
    · obtain ⟨j, hj⟩ := h (.flt q) (by rw [nonNull_cons, if_neg (by simp)]; simp)
      cases hj
  | sum_fraction h hq =>
    rename_i q
    have hl : l ≠ [] := fun e => by rw [e] at hq; simp at hq
    obtain ⟨n, hr, ht⟩ := C17_sum py l (numOrNull h) hl
    unfold program
    rw [aggregate_embed _ _ _ (fun s => rfl), hr]
    have key : ∃ q, n = .flt q := by
      rcases sum_start py l h hl with h0 | ⟨v, l', rfl, r, rfl⟩
      · exact (sum_kind py l h (.int 0) n (h0.symm.trans hr)).2 (Or.inr ⟨q, hq⟩)
      · rw [show (Agg.sum py).run none (Val.flt r :: l') = (Agg.sum py).run (some (.flt r)) l' by
          simp [Agg.Calc.run, Agg.sum, Py.ensureNumber]] at hr
        refine (sum_kind py l' (fun w hw => h w ?_) _ n hr).2 (Or.inl ⟨r, rfl⟩)
        rw [nonNull_cons, if_neg (by simp)]; simp [hw]
    obtain ⟨q', rfl⟩ := key
    simp only [Val.Num.toRat] at ht
    simp only [Agg.sum, Val.Num.toVal, ht]
  | max_null h =>
    unfold program
    rw [aggregate_embed _ _ _ (fun s => rfl)]
    rcases C17_max py l (fun a ha => by rw [h] at ha; simp at ha) with ⟨_, hr⟩ | ⟨m, hm, _⟩
    · rw [hr]; rfl
    · rw [h] at hm; simp at hm
  | max hv h ho =>
    have hk := one_kind hv (fun w hw => (h w hw).imp id fun h => Or.inl h) ho
    unfold program
    rw [aggregate_embed _ _ _ (fun s => rfl)]
    rcases C17_max py l hk with ⟨h0, _⟩ | ⟨m, hm, hr, hmax⟩
    · rw [h0] at hv; simp at hv
    · rw [hr]
      rcases h m hm with rfl | hl
      · rfl
      · obtain ⟨hs, hc⟩ := less_kind hl
        have := hmax v hv
        rw [cmp_kind py .lte (hk v hv m hm), kindCmp_swap, hc] at this
        cases this
  | min_null h =>
    unfold program
    rw [aggregate_embed _ _ _ (fun s => rfl)]
    rcases C17_min py l (fun a ha => by rw [h] at ha; simp at ha) with ⟨_, hr⟩ | ⟨m, hm, _⟩
    · rw [hr]; rfl
    · rw [h] at hm; simp at hm
  | min hv h ho =>
    have hk := one_kind hv (fun w hw => (h w hw).imp id fun h => Or.inr h) ho
    unfold program
    rw [aggregate_embed _ _ _ (fun s => rfl)]
    rcases C17_min py l hk with ⟨h0, _⟩ | ⟨m, hm, hr, hmin⟩
    · rw [h0] at hv; simp at hv
    · rw [hr]
      rcases h m hm with rfl | hl
      · rfl
      · obtain ⟨hs, hc⟩ := less_kind hl
        have := hmin v hv
        rw [cmp_kind py .lte (hk m hm v hv), kindCmp_swap, hc] at this
        cases this
  | avg h hne =>
    unfold program
    rw [aggregate_embed _ _ _ (fun s => rfl), run_withFinal]
    have hl : ∀ v ∈ l, (num? v).isSome := fun v hv => by obtain ⟨p, hp⟩ := h v hv; cases hp <;> rfl
    have := C18_avg_partial py [] l (by simp) hl hne
    rw [List.nil_append, numbers_length l hl] at this
    revert this
    cases (Agg.avg py).run none l with
    | none => intro h; cases h
    | some s => intro h; exact congrArg Val.flt (Option.some.inj h)
  | groupConcat h hne =>
    rename_i ts
    unfold program
    rw [aggregate_embed _ _ _ (fun s => rfl), run_withFinal]
    have := C17_group_concat py l
    rw [h] at this
    revert this
    cases (Agg.groupConcat py).run none l with
    | none => intro h; cases h
    | some s =>
      intro h
      refine (congrArg Val.str (Option.some.inj h)).trans ?_
      rw [List.map_map, show (Agg.Py.pyStr py ∘ Val.str) = id from rfl, List.map_id]

/-- **C186** The calculaters of these values may be combined from the parts of a group (what C58 asks of aggregates). -/
theorem C186_combine (py : Py) :
    (program py .count).fold.Law (fun _ => True) ∧ (program py .countDistinct).fold.Law (fun _ => True) ∧
    (program py .groupConcat).fold.Law (fun _ => True) ∧ (program py .sum).fold.Law NumOrNull ∧
    (∀ f ∈ [Name.max, Name.min], (program py f).fold.Law NumOrNull ∧ (program py f).fold.Law TextOrNull) ∧
    (program py .avg).fold.Law (fun v => ∃ p, SqlFunctions.Num v p) := by
  have app : ∀ (P : Val → Prop) (l1 l2 : List Val), (∀ v ∈ l1, P v) → (∀ v ∈ l2, P v) → ∀ v ∈ l1 ++ l2, P v := by
    intro P l1 l2 h1 h2 v hv
    rcases List.mem_append.1 hv with h | h
    · exact h1 v h
    · exact h2 v h
  refine ⟨?_, ?_, ?_, ?_, ?_, ?_⟩
  · exact law_embed _ _ _ (fun s => rfl) _ (total_law _ _ fun l1 l2 _ _ => C20_count l1 l2)
  · exact law_embed _ _ _ (fun s => rfl) _ (total_law _ _ fun l1 l2 _ _ => C20_count_distinct l1 l2)
  · refine law_embed _ _ _ (fun s => rfl) _ (total_law _ _ fun l1 l2 _ _ => splits_final _ (C20_group_lists py l1 l2).1)
  · refine law_embed _ _ _ (fun s => rfl) _ (total_law _ _ fun l1 l2 h1 h2 => ?_)
    exact C20_sum py l1 l2 (fun v hv => convertible py (h1 v hv)) fun v hv => convertible py (h2 v hv)
  · intro f hf
    simp only [List.mem_cons, List.not_mem_nil, or_false] at hf
    rcases hf with rfl | rfl
    · exact ⟨law_embed _ _ _ (fun s => rfl) _ (total_law _ _ fun l1 l2 h1 h2 =>
          (C20_max_min py l1 l2 (oneKind_numbers _ (app _ l1 l2 h1 h2))).1),
        law_embed _ _ _ (fun s => rfl) _ (total_law _ _ fun l1 l2 h1 h2 =>
          (C20_max_min py l1 l2 (oneKind_texts _ (app _ l1 l2 h1 h2))).1)⟩
    · exact ⟨law_embed _ _ _ (fun s => rfl) _ (total_law _ _ fun l1 l2 h1 h2 =>
          (C20_max_min py l1 l2 (oneKind_numbers _ (app _ l1 l2 h1 h2))).2),
        law_embed _ _ _ (fun s => rfl) _ (total_law _ _ fun l1 l2 h1 h2 =>
          (C20_max_min py l1 l2 (oneKind_texts _ (app _ l1 l2 h1 h2))).2)⟩
  · refine law_embed _ _ _ (fun s => rfl) _ (total_law _ _ fun l1 l2 h1 h2 => splits_final _ (C112_avg_parts_partial py l1 l2 ?_ ?_))
    · intro v hv; obtain ⟨p, hp⟩ := h1 v hv; obtain ⟨n, hn, _⟩ := FunctionsLemmas.ensureNumber_num py hp; rw [hn]; rfl
    · intro v hv; obtain ⟨p, hp⟩ := h2 v hv; obtain ⟨n, hn, _⟩ := FunctionsLemmas.ensureNumber_num py hp; rw [hn]; rfl

namespace AggregatesLemmas
open Verif.Expr Verif.Sql Verif.Select Verif.SqlSelect
variable {S S1 S2 : Type} {μ : Aggr S → Aggr S1} {ν : Aggr S → Aggr S2} {text : Str → Bool} {cmp : Cmp → Val → Val → Val}
  {sql : Str → List Val → Val}

theorem aliased_map (c : Str) : ∀ l : List (Str × Item S), aliased c (l.map fun c => (c.1, mapItem μ c.2)) = aliased c l
  | [] => rfl
  | (k, .expr e) :: l => by
    have := aliased_map c l
    simp only [List.map_cons, aliased]
    exact congrArg (fun x => if k = c then some e else x) this
  | (k, .agg args final) :: l => aliased_map c l

theorem groups_map (q : Query S) (rows : List Row) : groupsOf text cmp sql (mapQuery μ q) rows = groupsOf text cmp sql q rows := by
  have e : ∀ g r, groupValue text cmp sql (mapQuery μ q).cols g r = groupValue text cmp sql q.cols g r := by
    intro g r
    cases g with
    | bare c => simp only [groupValue, mapQuery, aliased_map]
    | expr e => rfl
  unfold groupsOf
  simp only [e]
  rfl

theorem isAggregate_map (q : Query S) :
    (∃ c ∈ (mapQuery μ q).cols, SqlNest.isAggregate c.2 = true) ↔ ∃ n args final, (n, Item.agg args final) ∈ q.cols := by
  simp only [mapQuery, List.mem_map]
  constructor
  · rintro ⟨_, ⟨⟨n, it⟩, h, rfl⟩, h'⟩
    cases it with
    | expr e => cases h'
    | agg args final => exact ⟨n, args, final, h⟩
  · rintro ⟨n, args, final, h⟩
    exact ⟨_, ⟨_, h, rfl⟩, rfl⟩

theorem names_map (q : Query S) : (mapQuery μ q).cols.map (·.1) = q.cols.map (·.1) := by
  simp only [mapQuery, List.map_map]; rfl

theorem project_map (cols : List (Str × Item S)) (members : List Row)
    (h : ∀ n args final, (n, Item.agg args final) ∈ cols → ∀ a ∈ args,
      aggregate (μ a.1) (members.map fun r => sem text cmp sql r a.2) = aggregate (ν a.1) (members.map fun r => sem text cmp sql r a.2)) :
    project text cmp sql (cols.map fun c => (c.1, mapItem μ c.2)) members =
      project text cmp sql (cols.map fun c => (c.1, mapItem ν c.2)) members := by
  unfold project
  rw [List.map_map, List.map_map]
  refine List.map_congr_left fun c hc => ?_
  obtain ⟨n, it⟩ := c
  cases it with
  | expr e => rfl
  | agg args final =>
    simp only [Function.comp, mapItem, List.map_map]
    refine congrArg (Prod.mk n) (congrArg final (List.map_congr_left fun a ha => ?_))
    exact h n args final hc a ha

/-- The aggregates agree on the groups of the query. -/
def SameAgg (text : Str → Bool) (cmp : Cmp → Val → Val → Val) (sql : Str → List Val → Val) (μ : Aggr S → Aggr S1) (ν : Aggr S → Aggr S2)
    (q : Query S) (rows : List Row) : Prop :=
  ∀ n args final, (n, Item.agg args final) ∈ q.cols → ∀ a ∈ args,
    ∀ read : List Row, read.Perm (rows.filter (satisfies text cmp sql q.cond)) → ∀ members ∈ groupsOf text cmp sql q read,
      aggregate (μ a.1) (members.map fun r => sem text cmp sql r a.2) = aggregate (ν a.1) (members.map fun r => sem text cmp sql r a.2)

section
variable {q : Query S} {rows : List Row} {le : Val → Val → Bool} {out : List Out} (h : SameAgg text cmp sql μ ν q rows)
include h

theorem grouped_map (hr : GroupResult text cmp sql le (mapQuery μ q) rows out) : GroupResult text cmp sql le (mapQuery ν q) rows out := by
  obtain ⟨members, sorted, hm, hn, hs, ho, rfl⟩ := hr
  refine ⟨members, sorted, hm, hn, ?_, ho, rfl⟩
  rw [groups_map] at hs ⊢
  have e : (groupsOf text cmp sql q members).map (project text cmp sql (mapQuery μ q).cols) =
      (groupsOf text cmp sql q members).map (project text cmp sql (mapQuery ν q).cols) := by
    refine List.map_congr_left fun l hl => project_map q.cols l fun n args final hc a ha => ?_
    exact h n args final hc a ha members hm l hl
  rw [e] at hs
  exact hs
end

section
variable {q : Query S} {rows : List Row} {le : Val → Val → Bool} {out : List Out}
  (h : ¬ ∃ n args final, (n, Item.agg args final) ∈ q.cols)
include h

theorem project_noAgg : project text cmp sql (mapQuery μ q).cols = project text cmp sql (mapQuery ν q).cols :=
  funext fun l => project_map q.cols l fun n args final hc => absurd ⟨n, args, final, hc⟩ h

theorem rows_map (hr : RowResult text cmp sql le (mapQuery μ q) rows out) : RowResult text cmp sql le (mapQuery ν q) rows out := by
  unfold RowResult at hr ⊢
  rw [project_noAgg (ν := ν) h, names_map] at hr
  rw [names_map]
  exact hr

theorem distinct_map (hr : DistinctResult text cmp sql le (mapQuery μ q) rows out) :
    DistinctResult text cmp sql le (mapQuery ν q) rows out := by
  unfold DistinctResult at hr ⊢
  rw [project_noAgg (ν := ν) h] at hr
  exact hr

theorem joinRows_map (hr : SqlSelect.JoinRowResult text cmp sql le (mapQuery μ q) rows out) :
    SqlSelect.JoinRowResult text cmp sql le (mapQuery ν q) rows out := by
  unfold SqlSelect.JoinRowResult at hr ⊢
  rw [project_noAgg (ν := ν) h, names_map] at hr
  rw [names_map]
  exact hr
end

section
variable {q : Query S} {rows : List Row} {le : Val → Val → Bool} {out : List Out} (h : SameAgg text cmp sql μ ν q rows)
include h

theorem query_map (hr : SqlNest.QueryResult text cmp sql le (mapQuery μ q) rows out) :
    SqlNest.QueryResult text cmp sql le (mapQuery ν q) rows out := by
  unfold SqlNest.QueryResult at hr ⊢
  by_cases c : q.group ≠ [] ∨ ∃ n args final, (n, Item.agg args final) ∈ q.cols
  · rw [if_pos (show (mapQuery μ q).group ≠ [] ∨ _ from c.imp id (isAggregate_map q).2)] at hr
    rw [if_pos (show (mapQuery ν q).group ≠ [] ∨ _ from c.imp id (isAggregate_map q).2)]
    exact grouped_map h hr
  · rw [if_neg fun h => c (h.imp id (isAggregate_map q).1)] at hr
    rw [if_neg fun h => c (h.imp id (isAggregate_map q).1)]
    have hno : ¬ ∃ n args final, (n, Item.agg args final) ∈ q.cols := fun hx => c (Or.inr hx)
    by_cases d : (mapQuery μ q).distinct = true
    · rw [if_pos d] at hr
      rw [if_pos (show (mapQuery ν q).distinct = true from d)]
      exact distinct_map hno hr
    · rw [if_neg d] at hr
      rw [if_neg (show ¬ (mapQuery ν q).distinct = true from d)]
      exact rows_map hno hr

theorem joinQuery_map (hr : SqlTree.JoinQueryResult text cmp sql le (mapQuery μ q) rows out) :
    SqlTree.JoinQueryResult text cmp sql le (mapQuery ν q) rows out := by
  unfold SqlTree.JoinQueryResult at hr ⊢
  by_cases c : q.group ≠ [] ∨ ∃ n args final, (n, Item.agg args final) ∈ q.cols
  · rw [if_pos (show (mapQuery μ q).group ≠ [] ∨ _ from c.imp id (isAggregate_map q).2)] at hr
    rw [if_pos (show (mapQuery ν q).group ≠ [] ∨ _ from c.imp id (isAggregate_map q).2)]
    exact grouped_map h hr
  · rw [if_neg fun h => c (h.imp id (isAggregate_map q).1)] at hr
    rw [if_neg fun h => c (h.imp id (isAggregate_map q).1)]
    have hno : ¬ ∃ n args final, (n, Item.agg args final) ∈ q.cols := fun hx => c (Or.inr hx)
    by_cases d : (mapQuery μ q).distinct = true
    · rw [if_pos d] at hr
      rw [if_pos (show (mapQuery ν q).distinct = true from d)]
      exact distinct_map hno hr
    · rw [if_neg d] at hr
      rw [if_neg (show ¬ (mapQuery ν q).distinct = true from d)]
      exact joinRows_map hno hr
end

theorem within_sameAgg (py : Py) {agg : Name → List Val → Val} (hagg : ImplementsAgg agg) {q : Query Name} {rows : List Row}
    (h : QueryAggWithin text cmp sql q rows) :
    SameAgg text cmp sql (fun a => program py (nameOf a)) (standard agg) q rows := by
  intro n args final hc a ha read hr members hm
  obtain ⟨v, hv⟩ := h n args final hc a ha read hr members hm
  rw [C186_aggregate py hv, standard_aggregate, hagg _ _ _ hv]

theorem winNames_map (q : WinSelect.Query S) : (mapWinQuery μ q).cols.map (·.1) = q.cols.map (·.1) := by
  simp only [mapWinQuery, List.map_map]; rfl

section
variable {q : WinSelect.Query Name} {rows : List Row} {le : Val → Val → Bool} {out : List Out} {μ : Aggr Name → Aggr S1}
  {ν : Aggr Name → Aggr S2}
open Verif.WinSelect Verif.SqlWindow

/-- The program's aggregates and SQL's agree on the frames of the query. -/
def SameWin (text : Str → Bool) (cmp : Cmp → Val → Val → Val) (sql : Str → List Val → Val) (le : Val → Val → Bool) (μ : Aggr Name → Aggr S1)
    (ν : Aggr Name → Aggr S2) (windows : List (Str × Over)) (w : WinSelect.Win Name) (rows' : List Row) : Prop :=
  ∀ A, w.fn = .agg A → ∀ i frame, Frame text cmp sql le windows w rows' i frame →
    aggregate (μ A) (frame.filterMap fun j => (rows'[j]?).map fun r => argVal (argument text cmp sql r w.args)) =
      aggregate (ν A) (frame.filterMap fun j => (rows'[j]?).map fun r => argVal (argument text cmp sql r w.args))

theorem value_map {w : WinSelect.Win Name} {windows : List (Str × Over)} {rows' : List Row} {i : Nat} {v : Val}
    (h : SameWin text cmp sql le μ ν windows w rows')
    (hv : WindowValue text cmp sql le windows (mapWin μ w) rows' i v) : WindowValue text cmp sql le windows (mapWin ν w) rows' i v := by
  obtain ⟨ov, part, pos, ho, hs, hp, hm⟩ := hv
  refine ⟨ov, part, pos, ho, hs, hp, ?_⟩
  simp only [mapWin] at hm ⊢
  cases hf : w.fn with
  | win f => rw [hf] at hm; exact hm
  | agg A =>
    rw [hf] at hm
    simp only [mapFn] at hm ⊢
    obtain ⟨frame, h1, h2, h3⟩ := hm
    exact ⟨frame, h1, h2, h3.trans (h A hf i frame ⟨ov, part, ho, hs, List.mem_of_getElem? hp, h1, h2⟩)⟩

theorem isRow_map {rows' : List Row} {i : Nat} {r : Row} {o : Out}
    (h : ∀ w, WinOf q w → SameWin text cmp sql le μ ν q.windows w rows')
    (hr : IsRow text cmp sql le (mapWinQuery μ q) rows' i r o) : IsRow text cmp sql le (mapWinQuery ν q) rows' i r o := by
  refine ⟨?_, ?_⟩
  · have := hr.names
    rw [winNames_map] at this ⊢
    exact this
  · intro c hc
    obtain ⟨c0, h0, rfl⟩ := List.mem_map.1 (show c ∈ q.cols.map fun c => (c.1, mapWinItem ν c.2) from hc)
    have hv := hr.values (c0.1, mapWinItem μ c0.2) (List.mem_map.2 ⟨c0, h0, rfl⟩)
    obtain ⟨n, it⟩ := c0
    cases it with
    | expr e => exact hv
    | win w => exact value_map (h w (.column h0)) hv
    | «calc» ws e =>
      obtain ⟨vs, h1, h2, h3⟩ := hv
      have hn : ∀ (ρ : Aggr Name → Aggr S1), (ws.map fun w => (w.1, mapWin ρ w.2)).map (·.1) = ws.map (·.1) := by
        intro ρ; rw [List.map_map]; rfl
      have hn' : ∀ (ρ : Aggr Name → Aggr S2), (ws.map fun w => (w.1, mapWin ρ w.2)).map (·.1) = ws.map (·.1) := by
        intro ρ; rw [List.map_map]; rfl
      refine ⟨vs, h1.trans ((hn μ).trans (hn' ν).symm), ?_, ?_⟩
      · intro p hp
        rw [List.zip_map_left] at hp
        obtain ⟨⟨w, nv⟩, hz, rfl⟩ := List.mem_map.1 hp
        have hw := (List.of_mem_zip hz).1
        have := h2 ((w.1, mapWin μ w.2), nv) (by rw [List.zip_map_left]; exact List.mem_map.2 ⟨(w, nv), hz, rfl⟩)
        exact value_map (h w.2 (.part (k := w.1) h0 hw)) this
      · rw [hn] at h3
        rw [hn']
        exact h3

theorem win_map
    (h : ∀ w, WinOf q w → ∀ read : List Row, read.Perm (rows.filter (satisfies text cmp sql q.cond)) →
      SameWin text cmp sql le μ ν q.windows w read)
    (hr : WinResult text cmp sql le (mapWinQuery μ q) rows out) : WinResult text cmp sql le (mapWinQuery ν q) rows out := by
  obtain ⟨rows', outs, sorted, h1, h2, h3, h4, h5, rfl⟩ := hr
  refine ⟨rows', outs, sorted, h1, h2, h3, ?_, ?_, rfl⟩
  · intro i r o hi ho
    exact isRow_map (fun w hw => h w hw rows' h1) (h4 i r o hi ho)
  · rw [winNames_map] at h5 ⊢
    exact h5
end

section
variable {le : Val → Val → Bool} {o : Join.Ops Val}

theorem kind_names (k : Tree.Kind S) : (mapKind μ k).names = k.names := by
  induction k with
  | plain q => exact names_map q
  | joined joins q => exact names_map q
  | comma ts w q => exact names_map q
  | windowed q => exact winNames_map q
  | sub w k ih => exact ih
  | hav h k ih => exact ih

theorem kind_joins (k : Tree.Kind S) : (mapKind μ k).joins = k.joins := by
  induction k with
  | sub w k ih => exact ih
  | hav h k ih => exact ih
  | _ => rfl

theorem kind_subs (k : Tree.Kind S) : (mapKind μ k).subs = k.subs := by
  induction k with
  | sub w k ih => simp only [mapKind, Tree.Kind.subs, ih]
  | hav h k ih => simp only [mapKind, Tree.Kind.subs, ih]
  | _ => rfl

theorem kind_where (c : E) (k : Tree.Kind S) : mapKind μ (SqlTree.withWhere c k) = SqlTree.withWhere c (mapKind μ k) := by
  induction k with
  | hav h k ih => simp only [mapKind, SqlTree.withWhere, ih]
  | sub w k ih => simp only [mapKind, SqlTree.withWhere, ih]
  | _ => rfl

theorem kind_having (c : E) (k : Tree.Kind S) : mapKind μ (SqlTree.havingThis c k) = SqlTree.havingThis c (mapKind μ k) := by
  induction k with
  | sub w k ih => simp only [mapKind, SqlTree.havingThis, ih]
  | _ => rfl

theorem kind_placed (heads : List (List Str)) (others : List (List Row)) (k : Tree.Kind S) :
    mapKind μ (SqlTree.placed heads others k) = SqlTree.placed heads others (mapKind μ k) := by
  cases k with
  | sub w k => simp only [mapKind, SqlTree.placed, kind_where, kind_joins]
  | _ => rfl

theorem kind_single (heads : List (List Str)) (others : List (List Row)) (k : Tree.Kind S) :
    SqlTree.SingleWhere heads others (mapKind μ k) = SqlTree.SingleWhere heads others k := by
  cases k with
  | sub w k => simp only [mapKind, SqlTree.SingleWhere, kind_joins]
  | _ => rfl

mutual
theorem bound_map (e : Tree.Rel S) : SqlTree.bound (mapRel μ e) = SqlTree.bound e := by
  match e with
  | .scan t => rfl
  | .select k src more => simp only [mapRel, SqlTree.bound, bound_map src, bounds_map more]
  | .union l r => simp only [mapRel, SqlTree.bound, bound_map l, bound_map r]
  | .withq n d b => simp only [mapRel, SqlTree.bound, bound_map d, bound_map b]
theorem bounds_map (l : Tree.Rels S) : SqlTree.bounds (mapRels μ l) = SqlTree.bounds l := by
  match l with
  | .nil => rfl
  | .cons e l => simp only [mapRels, SqlTree.bounds, bound_map e, bounds_map l]
end

mutual
theorem free_map (e : Tree.Rel S) : SqlTree.free (mapRel μ e) = SqlTree.free e := by
  match e with
  | .scan t => rfl
  | .select k src more => simp only [mapRel, SqlTree.free, free_map src, frees_map more]
  | .union l r => simp only [mapRel, SqlTree.free, free_map l, free_map r]
  | .withq n d b => simp only [mapRel, SqlTree.free, free_map d, free_map b]
theorem frees_map (l : Tree.Rels S) : SqlTree.frees (mapRels μ l) = SqlTree.frees l := by
  match l with
  | .nil => rfl
  | .cons e l => simp only [mapRels, SqlTree.frees, free_map e, frees_map l]
end

mutual
theorem scoped_map (e : Tree.Rel S) : SqlTree.Scoped (mapRel μ e) ↔ SqlTree.Scoped e := by
  match e with
  | .scan t => exact Iff.rfl
  | .select k src more =>
    simp only [mapRel, SqlTree.Scoped, scoped_map src, scopeds_map more, bound_map, bounds_map, free_map, frees_map]
  | .union l r => simp only [mapRel, SqlTree.Scoped, scoped_map l, scoped_map r, bound_map, free_map]
  | .withq n d b => simp only [mapRel, SqlTree.Scoped, scoped_map d, scoped_map b, bound_map, free_map]
theorem scopeds_map (l : Tree.Rels S) : SqlTree.Scopeds (mapRels μ l) ↔ SqlTree.Scopeds l := by
  match l with
  | .nil => exact Iff.rfl
  | .cons e l =>
    simp only [mapRels, SqlTree.Scopeds, scoped_map e, scopeds_map l, bound_map, bounds_map, free_map, frees_map]
end

theorem keepsOrder_map (k : Tree.Kind S) : SqlTree.keepsOrder (mapKind μ k) = SqlTree.keepsOrder k := by
  induction k with
  | windowed q =>
    simp only [mapKind, SqlTree.keepsOrder, mapWinQuery, List.all_map]
    refine congrArg (fun f => q.cols.all f) (funext fun c => ?_)
    obtain ⟨n, it⟩ := c
    cases it <;> rfl
  | sub w k ih => exact ih
  | hav h k ih => exact ih
  | _ => rfl

theorem isQuery_map (e : Tree.Rel S) : SqlTree.isQuery (mapRel μ e) = SqlTree.isQuery e := by
  match e with
  | .scan t => rfl
  | .select k src more => simp only [mapRel, SqlTree.isQuery, keepsOrder_map]
  | .union l r => simp only [mapRel, SqlTree.isQuery, isQuery_map l, isQuery_map r]
  | .withq n d b => rfl


mutual
theorem header_map (e : Tree.Rel S) : SqlTree.header (mapRel μ e) = SqlTree.header e := by
  match e with
  | .scan t => rfl
  | .select k src more => simp only [mapRel, SqlTree.header, kind_names]
  | .union l r => simp only [mapRel, SqlTree.header]; exact header_map l
  | .withq n d b => simp only [mapRel, SqlTree.header]; exact header_map b
theorem headers_map (l : Tree.Rels S) : SqlTree.headers (mapRels μ l) = SqlTree.headers l := by
  match l with
  | .nil => rfl
  | .cons e l => simp only [mapRels, SqlTree.headers, header_map e, headers_map l]
end

mutual
theorem aligned_map (e : Tree.Rel S) : SqlTree.Aligned (mapRel μ e) ↔ SqlTree.Aligned e := by
  match e with
  | .scan t => exact Iff.rfl
  | .select k src more => simp only [mapRel, SqlTree.Aligned, aligned_map src, aligneds_map more]
  | .union l r => simp only [mapRel, SqlTree.Aligned, aligned_map l, aligned_map r, isQuery_map, header_map]
  | .withq n d b => simp only [mapRel, SqlTree.Aligned, aligned_map d, aligned_map b]
theorem aligneds_map (l : Tree.Rels S) : SqlTree.Aligneds (mapRels μ l) ↔ SqlTree.Aligneds l := by
  match l with
  | .nil => exact Iff.rfl
  | .cons e l => simp only [mapRels, SqlTree.Aligneds, aligned_map e, aligneds_map l]
end
end

section
variable {le : Val → Val → Bool} {o : Join.Ops Val} (py : Py) {agg : Name → List Val → Val}

theorem kind_agg (hagg : ImplementsAgg agg) (rows : List Row) (others : List (List Row)) (out : List Out)
    (k : Tree.Kind Name) (hk : KindAggWithin text cmp sql le o rows others k)
    (h : SqlTree.KindResult text cmp sql le o rows others out (mapKind (fun a => program py (nameOf a)) k)) :
    SqlTree.KindResult text cmp sql le o rows others out (mapKind (standard agg) k) := by
  cases k with
  | plain q => exact query_map (within_sameAgg py hagg hk) h
  | joined joins q => exact joinQuery_map (within_sameAgg py hagg hk) h
  | comma ts w q =>
    exact joinQuery_map (q := { q with cond := JoinSelect.whereE (String.ofList q.table) w }) (within_sameAgg py hagg hk) h
  | windowed q =>
    refine win_map (fun w hw read hp A hA i frame hf => ?_) h
    obtain ⟨v, hv⟩ := hk w hw A hA read hp i frame hf
    rw [C186_aggregate py hv, standard_aggregate, hagg _ _ _ hv]
  | sub w k => exact h
  | hav w k => exact h

theorem select_agg (hagg : ImplementsAgg agg) (rows : List Row) (heads : List (List Str))
    (others : List (List Row)) (out : List Out) (k : Tree.Kind Name)
    (hk : KindAggWithin text cmp sql le o rows others (filled heads others k))
    (h : SqlTree.SelectResult text cmp sql le o rows heads others out (mapKind (fun a => program py (nameOf a)) k)) :
    SqlTree.SelectResult text cmp sql le o rows heads others out (mapKind (standard agg) k) := by
  cases k with
  | plain q => exact kind_agg py hagg _ _ _ (.plain q) hk h
  | joined joins q => exact kind_agg py hagg _ _ _ (.joined joins q) hk h
  | comma ts w q => exact kind_agg py hagg _ _ _ (.comma ts w q) hk h
  | windowed q => exact kind_agg py hagg _ _ _ (.windowed q) hk h
  | sub w k =>
    simp only [mapKind, SqlTree.SelectResult, kind_joins] at h ⊢
    refine ⟨h.1, ?_⟩
    rw [← kind_where]
    refine kind_agg py hagg _ _ _ _ hk ?_
    rw [kind_where]; exact h.2
  | hav w k =>
    simp only [mapKind, SqlTree.SelectResult, kind_joins, kind_subs, kind_single] at h ⊢
    refine ⟨h.1, h.2.1, ?_⟩
    rw [← kind_placed, ← kind_having]
    refine kind_agg py hagg _ _ _ _ hk ?_
    rw [kind_having, kind_placed]; exact h.2.2

mutual
theorem means_agg (hagg : ImplementsAgg agg) (e : Tree.Rel Name) (env : Str → List Out) (out : List Out)
    (hw : TreeAggWithin text cmp sql le o agg env e)
    (h : SqlTree.Means text cmp sql le o env (mapRel (fun a => program py (nameOf a)) e) out) :
    SqlTree.Means text cmp sql le o env (mapRel (standard agg) e) out := by
  match e with
  | .scan t => simpa only [mapRel, SqlTree.Means] using h
  | .select k src more =>
    simp only [mapRel, SqlTree.Means, headers_map] at h ⊢
    simp only [TreeAggWithin] at hw
    obtain ⟨rows, others, h1, h2, h3⟩ := h
    have h1' := means_agg hagg src env rows hw.1 h1
    have h2' := means_aggs hagg more env others hw.2.1 h2
    exact ⟨rows, others, h1', h2', select_agg py hagg _ _ _ _ k (hw.2.2 rows others h1' h2') h3⟩
  | .union l r =>
    simp only [mapRel, SqlTree.Means] at h ⊢
    simp only [TreeAggWithin] at hw
    obtain ⟨a, b, h1, h2, h3⟩ := h
    exact ⟨a, b, means_agg hagg l env a hw.1 h1, means_agg hagg r env b hw.2 h2, h3⟩
  | .withq n d b =>
    simp only [mapRel, SqlTree.Means] at h ⊢
    simp only [TreeAggWithin] at hw
    obtain ⟨rows, h1, h2⟩ := h
    have h1' := means_agg hagg d env rows hw.1 h1
    exact ⟨rows, h1', means_agg hagg b _ out (hw.2 rows h1') h2⟩
theorem means_aggs (hagg : ImplementsAgg agg) (l : Tree.Rels Name) (env : Str → List Out)
    (outs : List (List Out)) (hw : TreesAggWithin text cmp sql le o agg env l)
    (h : SqlTree.MeansAll text cmp sql le o env (mapRels (fun a => program py (nameOf a)) l) outs) :
    SqlTree.MeansAll text cmp sql le o env (mapRels (standard agg) l) outs := by
  match l with
  | .nil => simpa only [mapRels, SqlTree.MeansAll] using h
  | .cons e l =>
    simp only [mapRels, SqlTree.MeansAll] at h ⊢
    simp only [TreesAggWithin] at hw
    obtain ⟨out, rest, h1, h2, h3⟩ := h
    exact ⟨out, rest, means_agg hagg e env out hw.1 h1, means_aggs hagg l env rest hw.2 h2, h3⟩
end
end

end AggregatesLemmas

section
open Verif.Expr Verif.Sql Verif.Where Verif.Select Verif.SqlSelect Verif.Tree Verif.SqlTree AggregatesLemmas
open Verif.Nest (Store)
open Verif.Props.TreeLemmas (Ok)
variable (py : Py) (same : Char → Char → Bool) (other : Str → List Val → Val) (text : Str → Bool) (o : Join.Ops Val)
  (order : List Join.Name → List Join.Name) (fuel : Nat)

/-- **C186**: the results of a query in which the program's calculaters stand for the aggregates are those in which SQL's stand for
them: the meaning that C58, C59, C65 and C155 prove is SQL's. -/
theorem C186_meaning (cmp : Cmp → Val → Val → Val) (sql : Str → List Val → Val) (agg : Name → List Val → Val) (hagg : ImplementsAgg agg)
    (le : Val → Val → Bool) (e : Tree.Rel Name) (env : Str → List Out) (out : List Out)
    (hw : TreeAggWithin text cmp sql le o agg env e)
    (h : Means text cmp sql le o env (mapRel (fun a => program py (nameOf a)) e) out) :
    Means text cmp sql le o env (mapRel (standard agg) e) out :=
  means_agg py hagg e env out hw h

/-- **C186**: a statement with joins, GROUP BY, HAVING, window functions and subqueries, to any depth, whose aggregates the program's
calculaters compute, returns SQL's result, with SQL's aggregates, functions and comparisons. -/
theorem C186_tree_partial (cmp : Cmp → Val → Val → Val) (hcmp : ImplementsCmp cmp) (sql : Str → List Val → Val) (hsql : Implements same sql)
    (agg : Name → List Val → Val) (hagg : ImplementsAgg agg)
    (hsym : ∀ a b, o.truthy (o.cmp .eq a b) = o.truthy (o.cmp .eq b a)) (hperm : ∀ l, (order l).Perm l)
    (en : Engine) (ht : ∀ x y, en.le x y = true ∨ en.le y x = true)
    (htr : ∀ x y z, en.le x y = true → en.le y z = true → en.le x z = true) (hf : Faithful py en.src)
    (hchunk : ∀ l, (en.chunk l).flatMap (·.1) = l) (e : Tree.Rel Name) (db : Store) (out : List Out)
    (h : Tree.result py (Call.sqlCalls py same other) o order fuel en db (mapRel (fun a => program py (nameOf a)) e) = some out)
    (hs : SqlTree.Scoped e) (ha : SqlTree.Aligned e)
    (hok : Ok text py (Call.sqlCalls py same other) o order fuel en db (mapRel (fun a => program py (nameOf a)) e))
    (hfresh : ∀ n ∈ SqlTree.bound e, db n = [])
    (hw : TreeWithin same text cmp sql en.le o db (mapRel (fun a => program py (nameOf a)) e))
    (hwa : TreeAggWithin text cmp sql en.le o agg db e) :
    Means text cmp sql en.le o db (mapRel (standard agg) e) out := by
  refine C186_meaning py text o cmp sql agg hagg en.le e db out hwa ?_
  refine C185_tree_partial py same other text o order fuel cmp hcmp sql hsql hsym hperm en ht htr hf hchunk _ db out h ?_ ?_ hok ?_ hw
  · exact (scoped_map e).2 hs
  · exact (aligned_map e).2 ha
  · rw [bound_map]; exact hfresh

end

end Verif.Props
