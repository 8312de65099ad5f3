import Verif.Proofs.Reduce
import Verif.Props.AggregateLaws
/-! Property theorem C21: batches do not change grouped results. -/
namespace Verif.Props
open Verif.Val Verif.Agg Verif.AggSpec Verif.Reduce Verif.GroupSpec

variable {κ : Type} [DecidableEq κ]

theorem total_fold {α σ R : Type} (A : Calc α σ R) (l : List α) (s : Option (Option σ)) :
    l.foldl (Calc.total A).step s = s.bind fun x => A.run x l := by
  induction l generalizing s with
  | nil => cases s <;> rfl
  | cons v l ih =>
    simp only [List.foldl_cons, ih]
    cases s with
    | none => rfl
    | some x =>
      simp only [Calc.total, Option.bind_some, Calc.run]
      cases A.step x v <;> rfl

theorem total_law {α σ R : Type} (A : Calc α σ R) (good : α → Prop)
    (h : ∀ l1 l2, (∀ v ∈ l1, good v) → (∀ v ∈ l2, good v) → Splits A l1 l2) : (Calc.total A).Law good := by
  intro l1 l2 h1 h2
  obtain ⟨s1, s2, s, e1, e2, e, r⟩ := h l1 l2 h1 h2
  have f : ∀ l, l.foldl (Calc.total A).step (Calc.total A).init = A.run none l := fun l => total_fold A l (some none)
  rw [f, f, f, e1, e2, e]
  exact r

/-- Columns of one query are combined side by side. -/
theorem prod_law {α β S T : Type} {A : Fold α S} {B : Fold β T} {p : α → Prop} {q : β → Prop}
    (ha : A.Law p) (hb : B.Law q) : (A.prod B).Law fun v => p v.1 ∧ q v.2 := by
  have f : ∀ (l : List (α × β)) (s : S × T), l.foldl (A.prod B).step s =
      ((l.map (·.1)).foldl A.step s.1, (l.map (·.2)).foldl B.step s.2) := by
    intro l
    induction l with
    | nil => intro s; rfl
    | cons v l ih => intro s; simp only [List.foldl_cons, ih, List.map_cons]; rfl
  intro l1 l2 h1 h2
  rw [f, f, f]
  have e1 := ha (l1.map (·.1)) (l2.map (·.1))
    (by intro v hv; obtain ⟨x, hx, rfl⟩ := List.mem_map.mp hv; exact (h1 x hx).1)
    (by intro v hv; obtain ⟨x, hx, rfl⟩ := List.mem_map.mp hv; exact (h2 x hx).1)
  have e2 := hb (l1.map (·.2)) (l2.map (·.2))
    (by intro v hv; obtain ⟨x, hx, rfl⟩ := List.mem_map.mp hv; exact (h1 x hx).2)
    (by intro v hv; obtain ⟨x, hx, rfl⟩ := List.mem_map.mp hv; exact (h2 x hx).2)
  simp only [Fold.prod, List.map_append] at e1 e2 ⊢
  rw [e1, e2]

/-- **C21** in general: for any aggregates whose states combine (C20), any batch size, any division of the rows into
batches (empty ones included), any limit-triggered reductions, the collection read by the final step is exactly the
groups of all rows, each key once in order of first appearance, with the state of all its rows. -/
theorem C21_batches_irrelevant {α S : Type} (A : Fold α S) (good : α → Prop) (law : A.Law good) (batch : Nat)
    (evs : List (List (κ × α) × Bool)) (hE : ∀ ev ∈ evs, ∀ r ∈ ev.1, good r.2) :
    query A batch evs = (groupBy (evs.flatMap (·.1))).map fun g => (g.1, g.2.foldl A.step A.init) :=
  query_spec law batch evs hE

/-- What a grouped query over one aggregate should give: per group, the aggregate of its rows. -/
def grouped {α σ R : Type} (A : Calc α σ R) (rows : List (κ × α)) : List (κ × Option (Option σ)) :=
  (groupBy rows).map fun g => (g.1, A.run none g.2)

theorem query_total {α σ R : Type} (A : Calc α σ R) (good : α → Prop)
    (h : ∀ l1 l2, (∀ v ∈ l1, good v) → (∀ v ∈ l2, good v) → Splits A l1 l2) (batch : Nat)
    (evs : List (List (κ × α) × Bool)) (hE : ∀ ev ∈ evs, ∀ r ∈ ev.1, good r.2) :
    query (Calc.total A) batch evs = grouped A (evs.flatMap (·.1)) := by
  rw [query_spec (total_law A good h) batch evs hE]
  have f : ∀ l, l.foldl (Calc.total A).step (Calc.total A).init = A.run none l := fun l => total_fold A l (some none)
  simp only [f]; rfl

/-- **C21** for COUNT, COUNT(DISTINCT), GROUP_CONCAT and GROUP_ARRAY over any values. -/
theorem C21_any_values (py : Py) (batch : Nat) (evs : List (List (κ × Val) × Bool)) :
    query (Calc.total count) batch evs = grouped count (evs.flatMap (·.1)) ∧
    query (Calc.total distinctCount) batch evs = grouped distinctCount (evs.flatMap (·.1)) ∧
    query (Calc.total (groupConcat py)) batch evs = grouped (groupConcat py) (evs.flatMap (·.1)) ∧
    query (Calc.total groupArray) batch evs = grouped groupArray (evs.flatMap (·.1)) :=
  ⟨query_total _ (fun _ => True) (fun l1 l2 _ _ => C20_count l1 l2) batch evs (by simp),
   query_total _ (fun _ => True) (fun l1 l2 _ _ => C20_count_distinct l1 l2) batch evs (by simp),
   query_total _ (fun _ => True) (fun l1 l2 _ _ => (C20_group_lists py l1 l2).1) batch evs (by simp),
   query_total _ (fun _ => True) (fun l1 l2 _ _ => (C20_group_lists py l1 l2).2) batch evs (by simp)⟩

/-- **C21** for SUM over values that convert to numbers, and NULLs. -/
theorem C21_sum (py : Py) (batch : Nat) (evs : List (List (κ × Val) × Bool))
    (h : ∀ ev ∈ evs, ∀ r ∈ ev.1, Convertible py r.2) :
    query (Calc.total (sum py)) batch evs = grouped (sum py) (evs.flatMap (·.1)) :=
  query_total _ (Convertible py) (fun l1 l2 h1 h2 => C20_sum py l1 l2 h1 h2) batch evs h

theorem oneKind_numbers (l : List Val) (h : ∀ v ∈ l, NumOrNull v) : OneKind l := by
  intro a ha b hb
  simp only [nonNull, List.mem_filter, decide_eq_true_eq] at ha hb
  have h1 := h a ha.1
  have h2 := h b hb.1
  rcases h1 with h1 | h1
  · exact absurd h1 ha.2
  · rcases h2 with h2 | h2
    · exact absurd h2 hb.2
    · cases a <;> cases b <;> simp_all [SameKind, num?, numeric]

/-- Text or NULL. -/
def TextOrNull (v : Val) : Prop := v = .null ∨ ∃ s, v = .str s

theorem oneKind_texts (l : List Val) (h : ∀ v ∈ l, TextOrNull v) : OneKind l := by
  intro a ha b hb
  simp only [nonNull, List.mem_filter, decide_eq_true_eq] at ha hb
  rcases h a ha.1 with h1 | ⟨s, rfl⟩
  · exact absurd h1 ha.2
  · rcases h b hb.1 with h2 | ⟨t, rfl⟩
    · exact absurd h2 hb.2
    · trivial

/-- **C21** for MAX and MIN over numbers and NULLs, or over texts and NULLs. -/
theorem C21_max_min (py : Py) (batch : Nat) (evs : List (List (κ × Val) × Bool))
    (h : (∀ ev ∈ evs, ∀ r ∈ ev.1, NumOrNull r.2) ∨ (∀ ev ∈ evs, ∀ r ∈ ev.1, TextOrNull r.2)) :
    query (Calc.total (Verif.Agg.max py)) batch evs = grouped (Verif.Agg.max py) (evs.flatMap (·.1)) ∧
    query (Calc.total (Verif.Agg.min py)) batch evs = grouped (Verif.Agg.min py) (evs.flatMap (·.1)) := by
  have app : ∀ (P : Val → Prop) (l1 l2 : List Val), (∀ v ∈ l1, P v) → (∀ v ∈ l2, P v) → ∀ v ∈ l1 ++ l2, P v := by
    intro P l1 l2 h1 h2 v hv
    rcases List.mem_append.mp hv with h | h
    · exact h1 v h
    · exact h2 v h
  rcases h with h | h
  · exact ⟨query_total _ NumOrNull (fun l1 l2 h1 h2 => (C20_max_min py l1 l2 (oneKind_numbers _ (app _ _ _ h1 h2))).1) batch evs h,
      query_total _ NumOrNull (fun l1 l2 h1 h2 => (C20_max_min py l1 l2 (oneKind_numbers _ (app _ _ _ h1 h2))).2) batch evs h⟩
  · exact ⟨query_total _ TextOrNull (fun l1 l2 h1 h2 => (C20_max_min py l1 l2 (oneKind_texts _ (app _ _ _ h1 h2))).1) batch evs h,
      query_total _ TextOrNull (fun l1 l2 h1 h2 => (C20_max_min py l1 l2 (oneKind_texts _ (app _ _ _ h1 h2))).2) batch evs h⟩

/-- **C21** for BIT_AND, BIT_OR, BIT_XOR over integers and NULLs. -/
theorem C21_bits (py : Py) (batch : Nat) (evs : List (List (κ × Val) × Bool))
    (h : ∀ ev ∈ evs, ∀ r ∈ ev.1, r.2 = .null ∨ ∃ i, r.2 = .int i) :
    ∀ op ∈ [Int.land, Int.lor, Int.xor],
      query (Calc.total (bitAgg py op)) batch evs = grouped (bitAgg py op) (evs.flatMap (·.1)) := by
  intro op hop
  have conv : ∀ l : List Val, (∀ v ∈ l, v = .null ∨ ∃ i, v = .int i) → ∃ m, l = ofInts m := by
    intro l
    induction l with
    | nil => intro _; exact ⟨[], rfl⟩
    | cons v l ih =>
      intro h
      obtain ⟨m, rfl⟩ := ih (fun w hw => h w (by simp [hw]))
      rcases h v (by simp) with rfl | ⟨i, rfl⟩
      · exact ⟨none :: m, rfl⟩
      · exact ⟨some i :: m, rfl⟩
  refine query_total _ (fun v => v = .null ∨ ∃ i, v = .int i) ?_ batch evs h
  intro l1 l2 h1 h2
  obtain ⟨m1, rfl⟩ := conv l1 h1
  obtain ⟨m2, rfl⟩ := conv l2 h2
  exact C20_bits py m1 m2 op hop

/-- **C112** for AVG (full statement: with NULLs; false, next theorem) over values that convert, without NULL. -/
theorem C112_avg_batches_partial (py : Py) (batch : Nat) (evs : List (List (κ × Val) × Bool))
    (h : ∀ ev ∈ evs, ∀ r ∈ ev.1, (py.ensureNumber r.2).isSome) :
    query (Calc.total (avg py)) batch evs = grouped (avg py) (evs.flatMap (·.1)) :=
  query_total _ (fun v => (py.ensureNumber v).isSome) (fun l1 l2 h1 h2 => C112_avg_parts_partial py l1 l2 h1 h2) batch evs h

/-- **C112 is violated** by AVG: the rows (1), (NULL) of one group give 1/2 in one batch and 1 in two batches. -/
theorem C112_avg_batches_violated (py : Py) :
    (query (Calc.total (avg py)) 1 [([((), .int 1), ((), .null)], false)]).map (fun r => r.2.map (avg py).final)
      = [some (1 / 2)] ∧
    (query (Calc.total (avg py)) 1 [([((), .int 1)], false), ([((), .null)], false)]).map
      (fun r => r.2.map (avg py).final) = [some 1] := by
  constructor
  · simp [query, batchStep, aggBatch, upsert, outputed, finaled, Calc.total, avg, Py.ensureNumber, Num.toRat]
  · simp [query, batchStep, aggBatch, upsert, outputed, finaled, Calc.total, avg, Py.ensureNumber, Num.toRat,
      runReduce, reduceWith]
    grind

/-- **C112 is violated** by JSON_OBJECTAGG: two batches of one group lose everything. -/
theorem C112_json_objectagg_batches_violated :
    (query (Calc.total (jsonObjectagg plainPy)) 0
      [([((), some [Val.str ['a'], .int 1])], false), ([((), some [Val.str ['b'], .int 2])], false)])
      = [((), some none)] := by rfl

/-- Non-vacuity: three batches with repeated keys; batch size 2 triggers intermediate reductions. -/
example : query (Calc.total count) 2
    [([(1, .int 5), (2, .null), (1, .int 7)], false), ([(2, .int 1), (3, .int 1)], false), ([(1, .int 0)], true)] =
    [(1, some (some 3)), (2, some (some 1)), (3, some (some 1))] := by decide +kernel

end Verif.Props
