import Verif.Model.Aggregate
/-!
Model of batched aggregation (taskers/query.py:22-52 `ReduceHooker`, 296-372 `compile_reduce_config`, `run_reduce`).

The storage engine and the `#aggregate` valuer belong to the library syncany, which is not part of the repository.
Assumed of them: `#aggregate key calc` keeps one output row per key, in order of first appearance, whose state is
`calc(state, data)` starting from `None`; output `use I` appends rows to the collection, `use DI` replaces it.
-/
namespace Verif.Reduce
open Verif.Agg

variable {κ α S : Type} [DecidableEq κ]

/-- What batching needs of the aggregates of a query: initial state, one row, combination of two states.  `S` is the
state of all aggregate columns of a group (`Calc.total` below, and products of it). -/
structure Fold (α S : Type) where
  init : S
  step : S → α → S
  red : S → S → S

/-- The states of a calculater including "some call raised" (`none`), which is final. -/
def Calc.total {α σ R : Type} (A : Calc α σ R) : Fold α (Option (Option σ)) where
  init := some none
  step s v := s.bind (A.step · v)
  red a b := a.bind fun x => b.bind fun y => A.reduce x y

/-- Several aggregate columns side by side. -/
def Fold.prod {α β S T : Type} (A : Fold α S) (B : Fold β T) : Fold (α × β) (S × T) where
  init := (A.init, B.init)
  step s v := (A.step s.1 v.1, B.step s.2 v.2)
  red s t := (A.red s.1 t.1, B.red s.2 t.2)

/-- Update the state of a key, adding it at the end if it is new (`#aggregate`). -/
def upsert (init : S) (f : S → S) (k : κ) : List (κ × S) → List (κ × S)
  | [] => [(k, f init)]
  | (k', s) :: t => if k' = k then (k', f s) :: t else (k', s) :: upsert init f k t

/-- The output rows of one batch of input rows. -/
def aggBatch (A : Fold α S) (rows : List (κ × α)) : List (κ × S) :=
  rows.foldl (fun t r => upsert A.init (A.step · r.2) r.1 t) []

/-- query.py:355-365 `run_reduce(…, False)`: reads the whole collection, combines the rows with equal
`_aggregate_key_`, and replaces the collection. -/
def runReduce (A : Fold α S) (coll : List (κ × S)) : List (κ × S) :=
  coll.foldl (fun t r => upsert A.init (A.red · r.2) r.1 t) []

/-- The hook object (query.py:23-33) and the intermediate collection. -/
structure St (κ S : Type) where
  count : Nat := 0
  batchCount : Nat := 0
  coll : List (κ × S) := []

/-- query.py:35-47 `ReduceHooker.outputed`, after the rows of the batch were appended to the collection;
`limitHit` is the test of line 45 (`0 < limit <= store_count`). -/
def outputed (A : Fold α S) (batch : Nat) (st : St κ S) (n : Nat) (limitHit : Bool) : St κ S :=
  if n = 0 then st
  else if batch > 0 ∧ st.count > 0 ∧ st.count + n ≥ batch then
    { count := 0, batchCount := 1, coll := runReduce A st.coll }
  else if limitHit then { count := 0, batchCount := 1, coll := runReduce A st.coll }
  else { st with count := st.count + n, batchCount := st.batchCount + 1 }

/-- One batch: aggregate its rows, append them, call the hook. -/
def batchStep (A : Fold α S) (batch : Nat) (st : St κ S) (ev : List (κ × α) × Bool) : St κ S :=
  let out := aggBatch A ev.1
  outputed A batch { st with coll := st.coll ++ out } out.length ev.2

/-- query.py:49-52 `ReduceHooker.finaled` without error. -/
def finaled (A : Fold α S) (st : St κ S) : List (κ × S) :=
  if st.batchCount ≤ 1 then st.coll else runReduce A st.coll

/-- The collection the final reduction (query.py:342-354) reads; it only applies `final_value` row by row. -/
def query (A : Fold α S) (batch : Nat) (evs : List (List (κ × α) × Bool)) : List (κ × S) :=
  finaled A (evs.foldl (batchStep A batch) {})

end Verif.Reduce
