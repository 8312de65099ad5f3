/-!
Model of the bookkeeping of temporary collections (taskers/query.py:55-81 `QueryTaskerTemporaryMemoryManager`, 388-394 in
`compile_tasker`, 465-482 `check_free_temporary_memory_collection`, 184-187 in `run`).

Names are those of temporary collections (`--.__subquery_…`, `--.__unionquery_…`); others are never counted.
-/
namespace Verif.TempMem

variable {ν : Type} [DecidableEq ν]

/-- query.py:57 `self.collections` (a `defaultdict(int)`); `none`: no entry. -/
abbrev Mgr (ν : Type) := ν → Option Int

/-- Python `d[k] = v` / `d.pop(k)`. -/
def put (m : Mgr ν) (n : ν) (v : Option Int) : Mgr ν := fun k => if k = n then v else m k

/-- query.py:59-61 `add_collection`. -/
def addCollection (m : Mgr ν) (n : ν) : Mgr ν := if (m n).isNone then put m n (some 0) else m

/-- query.py:63-64 `use_collection`. -/
def useCollection (m : Mgr ν) (n : ν) : Mgr ν := put m n (some ((m n).getD 0 + 1))

/-- query.py:66-70 `unuse_collection`: the new bookkeeping and the returned value. -/
def unuseCollection (m : Mgr ν) (n : ν) : Mgr ν × Bool :=
  match m n with
  | none => (m, true)
  | some c => (put m n (some (c - 1)), decide (c - 1 ≤ 0))

/-- query.py:72-78 `free_collection`. -/
def freeCollection (m : Mgr ν) (n : ν) : Mgr ν × Bool :=
  match m n with
  | none => (m, true)
  | some c => if c > 0 then (m, false) else (put m n none, true)

/-- What happens to temporary collections: a tasker reading `n` is compiled (388-390), a tasker writing `n` is
compiled (392-394), a tasker reading `l` and writing `o` ends, with or without error (434-449). -/
inductive Op (ν : Type) where
  | reads (n : ν)
  | writes (n : ν)
  | ends (l o : ν)
  deriving DecidableEq

/-- One operation; the second component is the collection whose data is deleted, if any.  Not modelled: the streaming
exception of 476-477, and failures of the deletion itself (481). -/
def step (m : Mgr ν) : Op ν → Mgr ν × Option ν
  | .reads n => (useCollection m n, none)
  | .writes n => (addCollection m n, none)
  | .ends l o =>
    if l = o then (m, none)
    else
      if (unuseCollection m l).2 then ((freeCollection (unuseCollection m l).1 l).1, some l)
      else ((unuseCollection m l).1, none)

/-- The bookkeeping after a history. -/
def run (h : List (Op ν)) : Mgr ν := h.foldl (fun m op => (step m op).1) fun _ => none

end Verif.TempMem
