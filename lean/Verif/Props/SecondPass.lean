import Verif.Model.SecondPass
import Verif.Props.Into
/-! C174: who reads the result of a query finds it. -/
namespace Verif.Props
open Verif.Val Verif.Env Verif.Into Verif.SecondPass

/-- The column needs a second pass over the groups: it is AVG, GROUP_CONCAT, GROUP_UNIQ_ARRAY or COUNT(DISTINCT …), a registered
aggregate with a final value, or an expression of aggregates. -/
inductive NeedsFinal {ε : Type} (hasFinal : Str → Bool) : Entry ε → Prop where
  | avg (this more) : NeedsFinal hasFinal (.call (.typed .avg this more))
  | groupConcat (this more) : NeedsFinal hasFinal (.call (.typed .groupConcat this more))
  | groupUniqArray (this more) : NeedsFinal hasFinal (.call (.typed .groupUniqArray this more))
  | distinct (es more) : NeedsFinal hasFinal (.call (.typed .count (.distinct es) more))
  | named (name d args) : hasFinal (AggCall.calcName name) = true → NeedsFinal hasFinal (.call (.named name d args))
  | around (cs) : NeedsFinal hasFinal (.around cs)

/-- The query is run in two passes: a column needs it, or it groups (or has windows) and the rows are read in batches. -/
def TwoPasses {ε : Type} (hasFinal : Str → Bool) (batch : Int) (agg : Option (Aggregate ε)) : Prop :=
  ∃ a, agg = some a ∧ ((∃ e ∈ a.schema, NeedsFinal hasFinal e) ∨ true ∈ a.windows ∨ (0 < batch ∧ (a.schema ≠ [] ∨ a.windows ≠ [])))

section
variable {ε V : Type} (hasFinal : Str → Bool) (batch : Int)

theorem entryFinal_iff (e : Entry ε) : entryFinal hasFinal e = true ↔ NeedsFinal hasFinal e := by
  constructor
  · intro h
    match e, h with
    | .call (.typed .count (.distinct _) _), _ => exact .distinct _ _
    | .call (.typed .avg _ _), _ => exact .avg _ _
    | .call (.typed .groupConcat _ _), _ => exact .groupConcat _ _
    | .call (.typed .groupUniqArray _ _), _ => exact .groupUniqArray _ _
    | .call (.named name d args), h => exact .named name d args h
    | .around cs, _ => exact .around cs
  · intro h
    cases h with
    | named name d args h => exact h
    | distinct es more => rfl
    | _ => rfl

/-- **C174**: which queries are run in two passes. -/
theorem C174_second_pass (agg : Option (Aggregate ε)) : requireReduce hasFinal batch agg = true ↔ TwoPasses hasFinal batch agg := by
  cases agg with
  | none =>
    constructor
    · intro h; cases h
    · rintro ⟨a, h, _⟩; cases h
  | some a =>
    simp only [requireReduce, TwoPasses, Option.some.injEq, Bool.and_eq_true, Bool.or_eq_true, Bool.not_eq_true', decide_eq_true_eq,
      List.any_eq_true, id, exists_eq_left', List.isEmpty_eq_false_iff]
    constructor
    · rintro ⟨h, (hb | ⟨e, he, hf⟩) | ⟨w, hw, rfl⟩⟩
      · exact .inr (.inr ⟨hb, h⟩)
      · exact .inl ⟨e, he, (entryFinal_iff hasFinal e).1 hf⟩
      · exact .inr (.inl hw)
    · rintro (⟨e, he, hf⟩ | hw | ⟨hb, h⟩)
      · exact ⟨.inl (List.ne_nil_of_mem he), .inl (.inr ⟨e, he, (entryFinal_iff hasFinal e).2 hf⟩)⟩
      · exact ⟨.inr (List.ne_nil_of_mem hw), .inr ⟨_, hw, rfl⟩⟩
      · exact ⟨h, .inl (.inl hb)⟩

variable (streaming : Bool) (tmp coll : Str)

theorem start_one (agg : Option (Aggregate ε)) (names : Option (List Key)) (h : ¬ TwoPasses hasFinal batch agg ∨ names = none) :
    startTask hasFinal batch streaming tmp agg ⟨names, coll⟩ = ⟨names, coll, none⟩ := by
  cases names with
  | none => rfl
  | some l =>
    have h : ¬ TwoPasses hasFinal batch agg := h.resolve_right (by simp)
    rw [← C174_second_pass] at h
    simp [startTask, Bool.not_eq_true _ ▸ h]

theorem start_two (agg : Option (Aggregate ε)) (l : List Key) (h : TwoPasses hasFinal batch agg) :
    ∃ more, startTask hasFinal batch false tmp agg ⟨some l, coll⟩ = ⟨some (l ++ more), tmp, some coll⟩ := by
  rw [← C174_second_pass] at h
  simp only [startTask, h, Bool.not_false, Bool.and_self, if_true]
  split
  · exact ⟨["_aggregate_key_".toList], rfl⟩
  · exact ⟨[], by rw [List.append_nil]⟩

theorem delete_append (st : Store V) (n : Str) (rows : List (Row V)) (h : st n = []) : delete (append st n rows) n = st := by
  funext m
  simp only [delete, append]
  split
  · next e => rw [e, h]
  · rfl

/-- **C174** (full statement: SELECT … INTO stores what C13 says of the rows of the query, and leaves nothing in the memory database;
false, see `C174_into_violated`).  Proved: for queries that are run in one pass, and for `SELECT *`, in a fresh collection. -/
theorem C174_into_partial [DecidableEq V] (null : V) (agg : Option (Aggregate ε)) (names : Option (List Key)) (v : Key)
    (h : ¬ TwoPasses hasFinal batch agg ∨ names = none) (parts rows : List (Row V)) (st : Store V) (hst : st coll = [])
    (env : Dict Key (Stored V)) :
    intoTask null hasFinal batch streaming tmp coll agg names v parts rows st env = (st, selectInto null (names.getD []) [v] rows env) := by
  simp only [intoTask, start_one hasFinal batch streaming tmp coll agg names h, readBack, runTask]
  rw [delete_append st coll rows hst]
  simp [append, hst]

/-- **C174 is violated** by SELECT … INTO of a query that is run in two passes, as of AVG: the variable becomes the empty list, whatever
the rows of the query are, and the rows stay in the memory database. -/
theorem C174_into_violated [DecidableEq V] (null : V) (agg : Option (Aggregate ε)) (l : List Key) (hl : l ≠ []) (v : Key)
    (h : TwoPasses hasFinal batch agg) (parts rows : List (Row V)) (st : Store V) (htmp : tmp ≠ coll)
    (env : Dict Key (Stored V)) :
    ∃ st' env', intoTask null hasFinal batch false tmp coll agg (some l) v parts rows st env = (st', some env') ∧
      (env'.get? v = some (.rows []) ∨ env'.get? v = some (.column [])) ∧ st' coll = st coll ++ rows := by
  obtain ⟨more, hs⟩ := start_two hasFinal batch tmp coll agg l h
  simp only [intoTask, hs, readBack, runTask, Option.getD_some]
  have hd : delete (append (append st tmp parts) coll rows) tmp tmp = [] := by simp [delete]
  rw [hd]
  obtain ⟨env', h1, h2, _⟩ := into_single null (l ++ more) v [] env
  refine ⟨_, env', by rw [h1], ?_, ?_⟩
  · rw [h2]
    match l, hl with
    | [k], _ =>
      cases more with
      | nil => exact .inr rfl
      | cons m ms => exact .inl rfl
    | _ :: _ :: _, _ => exact .inl rfl
  · simp [delete, append, htmp.symm]

/-- **C174** (full statement: a correlated subquery loads the rows of the query it was rewritten to, and leaves nothing in the memory
database; false, see `C174_correlated_violated`).  Proved: for subqueries that are run in one pass. -/
theorem C174_correlated_partial (agg : Option (Aggregate ε)) (names : Option (List Key))
    (h : ¬ TwoPasses hasFinal batch agg ∨ names = none) (parts rows : List (Row V)) (st : Store V) (hst : st coll = []) :
    loadTask hasFinal batch streaming tmp coll agg names parts rows st = (rows, st) := by
  simp only [loadTask, start_one hasFinal batch streaming tmp coll agg names h, readBack, runTask]
  rw [delete_append st coll rows hst]
  simp [append, hst]

/-- **C174 is violated** by a correlated subquery that is run in two passes: it loads nothing, whatever its rows are (they stay in the
memory database). -/
theorem C174_correlated_violated (agg : Option (Aggregate ε)) (l : List Key) (h : TwoPasses hasFinal batch agg)
    (parts rows : List (Row V)) (st : Store V) (htmp : tmp ≠ coll) :
    ∃ st', loadTask hasFinal batch false tmp coll agg (some l) parts rows st = ([], st') ∧ st' coll = st coll ++ rows := by
  obtain ⟨more, hs⟩ := start_two hasFinal batch tmp coll agg l h
  simp only [loadTask, hs, readBack, runTask]
  refine ⟨_, by rw [show delete (append (append st tmp parts) coll rows) tmp tmp = [] by simp [delete]], ?_⟩
  simp [delete, append, htmp.symm]

/-- **C174**: when nothing is loaded every outer row gets no value: EXISTS is false of it, and the subquery NULL. -/
theorem C174_nothing_loaded [DecidableEq V] (o : Correlated.Ops V) (cur parents : List Join.Name) (s : Correlated.Split V) (outer : Correlated.Env V) :
    Correlated.matching o cur parents s [] outer = [] := rfl

end

namespace SecondPassCases

/-- `SELECT AVG(b) AS m FROM t`. -/
def avg : Aggregate Str := ⟨[.call (.typed .avg (.one ['b']) [])], []⟩
/-- `SELECT SUM(b) AS m FROM t`. -/
def sum : Aggregate Str := ⟨[.call (.typed .sum (.one ['b']) [])], []⟩

theorem avg_two : TwoPasses (fun _ => false) 0 (some avg) := ⟨avg, rfl, .inl ⟨_, List.mem_cons_self, .avg _ _⟩⟩
theorem sum_one : ¬ TwoPasses (fun _ => false) 0 (some sum) := by
  rw [← C174_second_pass]; decide
/-- With `SET @batch = 100` SUM takes two passes as well. -/
theorem sum_batch : TwoPasses (fun _ => false) 100 (some sum) := ⟨sum, rfl, .inr (.inr ⟨by decide, .inl (by simp [sum])⟩)⟩

/-- SUM INTO @m: 6, as C13 says. -/
example : (intoTask (none : Option Int) (fun _ => false) 0 false ['t', 'm', 'p'] ['i'] (some sum) (some [['m']]) ['@', 'm'] []
    [[(['m'], some 6)]] (fun _ => []) []).2 = some [(['@', 'm'], .scalar (some 6))] := by decide
/-- AVG INTO @m: the empty list. -/
example : (intoTask (none : Option Int) (fun _ => false) 0 false ['t', 'm', 'p'] ['i'] (some avg) (some [['m']]) ['@', 'm'] []
    [[(['m'], some 2)]] (fun _ => []) []).2 = some [(['@', 'm'], .rows [])] := by decide +kernel
example := C174_into_partial (ε := Str) (fun _ => false) 0 false ['t', 'm', 'p'] ['i'] (none : Option Int) (some sum) (some [['m']]) ['@', 'm']
  (.inl sum_one) [] [[(['m'], some 6)]] (fun _ => []) rfl []
example := C174_into_violated (ε := Str) (fun _ => false) 0 ['t', 'm', 'p'] ['i'] (none : Option Int) (some avg) [['m']] (by decide) ['@', 'm']
  avg_two [] [[(['m'], some 2)]] (fun _ => []) (by decide) []
example := C174_correlated_partial (ε := Str) (V := Option Int) (fun _ => false) 0 false ['t', 'm', 'p'] ['i'] (some sum) (some [['m']])
  (.inl sum_one) [] [[(['m'], some 6)]] (fun _ => []) rfl
example := C174_correlated_violated (ε := Str) (V := Option Int) (fun _ => false) 100 ['t', 'm', 'p'] ['i'] (some sum) [['m']]
  sum_batch [] [[(['m'], some 6)]] (fun _ => []) (by decide)

end SecondPassCases
end Verif.Props
