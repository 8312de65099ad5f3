import Verif.Model.AggCall
import Verif.Model.Into
import Verif.Model.CorrSub
/-!
Model of queries that are run in two passes (taskers/query.py:100-152 `start`, 296-340 `compile_reduce_config`, 153-187 `run`) and of
those who read the result of such a query from the collection it was written to: SELECT … INTO (taskers/into.py:11-48) and correlated
subqueries (calculaters/query_tasker_calculater.py:34-73).

The rows a query computes in the end (`rows`) and what the first pass leaves for the second (`parts`) are parameters here
(`Model.Select`, `Model.Reduce`).  The first pass writes to a collection of its own; what is left there is deleted when the query has
run (query.py:184-187, 465-482: `Model.TempMem`).
-/
namespace Verif.SecondPass
open Verif.Val Verif.Env Verif.Into

/-- What an entry of `config["aggregate"]["schema"]` comes from: GROUP BY or DISTINCT without aggregates (compiler.py:1125-1132,
1157-1164), one call of an aggregate that is the whole column (1196-1208), an expression of aggregates (1209-1233). -/
inductive Entry (ε : Type) where
  | grouping
  | call (c : AggCall.Call ε)
  | around (cs : List (AggCall.Call ε))

/-- compiler.py:1315-1345: `final_value` of a call; `hasFinal`: the calculaters of other names that have one (1343). -/
def callFinal {ε : Type} (hasFinal : Str → Bool) : AggCall.Call ε → Bool
  | .typed .count (.distinct _) _ => true                                  -- 1318-1319
  | .typed .avg _ _ => true                                                -- 1328
  | .typed .groupConcat _ _ => true                                        -- 1330
  | .typed .groupUniqArray _ _ => true                                     -- 1332
  | .typed _ _ _ => false                                                  -- 1320-1326
  | .named name _ _ => hasFinal (AggCall.calcName name)                    -- 1333-1343

/-- `final_value` of an entry is not None. -/
def entryFinal {ε : Type} (hasFinal : Str → Bool) : Entry ε → Bool
  | .grouping => false                                                     -- 1131, 1163
  | .call c => callFinal hasFinal c                                        -- 1207
  | .around _ => true                                                      -- 1232: the expression itself

/-- `config["aggregate"]`: its entries, and of each window column whether it is an expression of windows (compiler.py:1353,
1429-1431: only those have a final value). -/
structure Aggregate (ε : Type) where
  schema : List (Entry ε)
  windows : List Bool

/-- query.py:124-134 `require_reduce`. -/
def requireReduce {ε : Type} (hasFinal : Str → Bool) (batch : Int) : Option (Aggregate ε) → Bool
  | none => false
  | some a => (!a.schema.isEmpty || !a.windows.isEmpty) &&
      (decide (0 < batch) || a.schema.any (entryFinal hasFinal) || a.windows.any id)

/-- A query as configured: the columns (`none`: the schema is no dictionary, as of `SELECT *`), the collection it writes to. -/
structure Config where
  schema : Option (List Key)
  output : Str

/-- The core tasker of a query, and the collection the second pass writes to, if there is one. -/
structure Started where
  schema : Option (List Key)
  output : Str
  second : Option Str

/-- query.py:135-138, 296-340: with a second pass the first one writes to the collection `tmp` (334), and it carries the key of the
groups as a further column (329-331; the key of windows alone is None). -/
def startTask {ε : Type} (hasFinal : Str → Bool) (batch : Int) (streaming : Bool) (tmp : Str) (agg : Option (Aggregate ε)) (c : Config) :
    Started :=
  match c.schema with
  | some names =>
    if requireReduce hasFinal batch agg && !streaming then
      { schema := some (if (agg.map fun a => !a.schema.isEmpty).getD false then names ++ ["_aggregate_key_".toList] else names)
        output := tmp
        second := some c.output }
    else ⟨some names, c.output, none⟩
  | none => ⟨none, c.output, none⟩

variable {V : Type}

/-- The collections of the memory database. -/
abbrev Store (V : Type) := Str → List (Row V)

/-- Rows are written to a collection. -/
def append (st : Store V) (n : Str) (rows : List (Row V)) : Store V := fun m => if m = n then st m ++ rows else st m
/-- A collection is deleted. -/
def delete (st : Store V) (n : Str) : Store V := fun m => if m = n then [] else st m

/-- query.py:153-187, 342-372: running; the second pass reads what the first one wrote and writes the result to the place the query
was configured to write to. -/
def runTask (t : Started) (parts rows : List (Row V)) (st : Store V) : Store V :=
  match t.second with
  | none => append st t.output rows
  | some out => delete (append (append st t.output parts) out rows) t.output

/-- into.py:16-28 and query_tasker_calculater.py:46-51: the collection of the core tasker's outputer is read and emptied. -/
def readBack (t : Started) (st : Store V) : List (Row V) × Store V := (st t.output, delete st t.output)

/-- into.py:11-66 for one variable (compiler.py:611-620: there is never more than one): `coll` is `__into_…` (16).  `none`: an
exception. -/
def intoTask {ε : Type} [DecidableEq V] (null : V) (hasFinal : Str → Bool) (batch : Int) (streaming : Bool) (tmp coll : Str)
    (agg : Option (Aggregate ε)) (names : Option (List Key)) (v : Key) (parts rows : List (Row V)) (st : Store V)
    (env : Dict Key (Stored V)) : Store V × Option (Dict Key (Stored V)) :=
  let t := startTask hasFinal batch streaming tmp agg ⟨names, coll⟩
  let r := readBack t (runTask t parts rows st)
  (r.2, selectInto null (t.schema.getD []) [v] r.1 env)

/-- query_tasker_calculater.py:34-54: what a correlated subquery loads for a batch of outer rows; `coll` is `__queryTasker_…` (67). -/
def loadTask {ε : Type} (hasFinal : Str → Bool) (batch : Int) (streaming : Bool) (tmp coll : Str) (agg : Option (Aggregate ε))
    (names : Option (List Key)) (parts rows : List (Row V)) (st : Store V) : List (Row V) × Store V :=
  let t := startTask hasFinal batch streaming tmp agg ⟨names, coll⟩
  readBack t (runTask t parts rows st)

end Verif.SecondPass
