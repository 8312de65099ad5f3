import Verif.Proofs.TasksBuild
/-! C66: the life of a query with subqueries, for every shape of query, every behaviour of its tasks and every crash point. -/
namespace Verif.Props

open Verif.Tasks

variable {R : Type}

/-- The tasks of a query inserting in the user's table `out`. -/
def queryTask (P : Nat → Prog Name R) (q : Query) (out : Nat) : Task Name R := (build P q (.user out) 0).1

/-- Running it on a memory database. -/
def runQuery (P : Nat → Prog Name R) (q : Query) (out : Nat) (db : Name → List R) : St Name R × Bool :=
  execQuery isTmp (queryTask P q out) db

theorem queryTask_built (P : Nat → Prog Name R) (q : Query) (out : Nat) :
    Built (.user out) 0 (build P q (.user out) 0).2 (queryTask P q out) := build_ok P q (.user out) 0 (by intro i h; cases h)

/-- No two tasks of a query share a number. -/
theorem C66_distinct_tasks (P : Nat → Prog Name R) (q : Query) (out : Nat) : (tids (queryTask P q out)).Nodup :=
  (queryTask_built P q out).nodup

/-- **C66** When a query (or its final reduce) does anything but fail, all its subqueries, with everything inside them, have
ended without failure, and they do nothing afterwards. -/
theorem C66_subqueries_first (P : Nat → Prog Name R) (q : Query) (out : Nat) (db : Name → List R) :
    ∀ p ∈ subtasks (queryTask P q out), ∀ d ∈ p.deps, ∀ pre e post, (runQuery P q out db).1.log = pre ++ e :: post →
      e.isRaise = false → e.tid ∈ p.own.map Core.tid →
      (∀ c ∈ cores d, Ev.stop c.tid ∈ pre) ∧ ∀ e' ∈ post, e'.tid ∉ tids d :=
  (exec_good isTmp _ (C66_distinct_tasks P q out) db).order

/-- **C66** After a failure nothing is read, written or ended any more, and the statement fails. -/
theorem C66_failure_stops (P : Nat → Prog Name R) (q : Query) (out : Nat) (db : Name → List R) (pre post : List (Ev Name R)) (i : Nat)
    (h : (runQuery P q out db).1.log = pre ++ .raise i :: post) :
    (∀ e ∈ post, e.isRaise = true) ∧ (runQuery P q out db).2 = false := by
  have hs := (exec_good isTmp _ (C66_distinct_tasks P q out) db).shape
  have hmem : Ev.raise i ∈ (runQuery P q out db).1.log := by rw [h]; simp
  show _ ∧ (execQuery isTmp (queryTask P q out) db).2 = false
  cases hok : (execQuery isTmp (queryTask P q out) db).2 with
  | true =>
    rw [hok] at hs
    simp only [Shape, if_true] at hs
    have := hs _ hmem
    simp [Ev.isRaise] at this
  | false =>
    rw [hok] at hs
    simp only [Shape, Bool.false_eq_true, if_false] at hs
    obtain ⟨a, b, hab, _, ha, hb⟩ := hs
    refine ⟨?_, rfl⟩
    have h' : a ++ b = pre ++ .raise i :: post := by rw [← hab]; exact h
    rcases append_split h' with ⟨post', hA, _⟩ | ⟨pre', _, hB⟩
    · have := ha (.raise i) (by rw [hA]; simp)
      simp [Ev.isRaise] at this
    · intro e he
      exact hb e (by rw [hB]; simp [he])

/-- **C66** The statement succeeds exactly when no task failed, and then every task of the query and of its subqueries has run
to its end. -/
theorem C66_success (P : Nat → Prog Name R) (q : Query) (out : Nat) (db : Name → List R) :
    ((runQuery P q out db).2 = true ↔ ∀ e ∈ (runQuery P q out db).1.log, e.isRaise = false) ∧
    ((runQuery P q out db).2 = true → ∀ c ∈ cores (queryTask P q out), Ev.stop c.tid ∈ (runQuery P q out db).1.log) := by
  have g := exec_good isTmp _ (C66_distinct_tasks P q out) db
  refine ⟨?_, ?_⟩
  · have hs := g.shape
    show (execQuery isTmp (queryTask P q out) db).2 = true ↔ ∀ e ∈ (execQuery isTmp (queryTask P q out) db).1.log, e.isRaise = false
    cases hok : (execQuery isTmp (queryTask P q out) db).2 with
    | true =>
      rw [hok] at hs
      simpa only [Shape, if_true, true_iff] using hs
    | false =>
      rw [hok] at hs
      simp only [Shape, Bool.false_eq_true, if_false] at hs
      obtain ⟨a, b, hab, hb, _, hb'⟩ := hs
      refine ⟨fun h => (by cases h), fun h => ?_⟩
      obtain ⟨x, hx⟩ := List.exists_mem_of_ne_nil _ hb
      have := h x (by rw [hab]; exact List.mem_append_right _ hx)
      rw [hb' x hx] at this
      cases this
  · intro h c hc
    obtain ⟨p, hp, hpc⟩ := List.mem_flatMap.mp hc
    exact g.stops h p hp c hpc

/-- **C66** Every read finds exactly what was written before: releasing a temporary collection never takes away rows
that are still to be read. -/
theorem C66_reads_find_what_was_written (P : Nat → Prog Name R) (q : Query) (out : Nat) (db : Name → List R)
    (hP : ∀ c ∈ cores (queryTask P q out), c.Honest) (pre post : List (Ev Name R)) (i : Nat) (n : Name) (rows : List R)
    (h : (runQuery P q out db).1.log = pre ++ .read i n rows :: post) : rows = replay db pre n :=
  (exec_inv isTmp _ (queryTask_built P q out).sc hP db).2.2 pre i n rows post h

/-- **C66** When the statement ends, with or without failure, its temporary collections are gone. -/
theorem C66_no_leftovers (P : Nat → Prog Name R) (q : Query) (out : Nat) (db : Name → List R)
    (hP : ∀ c ∈ cores (queryTask P q out), c.Honest) (k : Nat) (h : db (.tmp k) = []) :
    (runQuery P q out db).1.store (.tmp k) = [] :=
  (exec_inv isTmp _ (queryTask_built P q out).sc hP db).1 _ rfl h

/-- **C66** The user's tables hold exactly what the tasks wrote: the release of temporary collections does not touch them. -/
theorem C66_user_tables (P : Nat → Prog Name R) (q : Query) (out : Nat) (db : Name → List R)
    (hP : ∀ c ∈ cores (queryTask P q out), c.Honest) (k : Nat) :
    (runQuery P q out db).1.store (.user k) = replay db (runQuery P q out db).1.log (.user k) :=
  (exec_inv isTmp _ (queryTask_built P q out).sc hP db).2.1 _ rfl

/-- **C66** A temporary collection is emptied as soon as its last reader has ended (whether it failed or not), not only at the end
of the statement; a task that rewrites the collection it reads leaves it. -/
theorem C66_released (c : Core Name R) (s : St Name R) (k : Nat) (hl : c.loader = some (.tmp k))
    (hu : (runProg isTmp c.tid c.prog s).1.mgr (.tmp k) = some 1) :
    (c.outputer ≠ some (.tmp k) → (runCore isTmp c s).1.store (.tmp k) = [] ∧ (runCore isTmp c s).1.mgr (.tmp k) = none) ∧
    (c.outputer = some (.tmp k) → (runCore isTmp c s).1.store (.tmp k) = (runProg isTmp c.tid c.prog s).1.store (.tmp k)) := by
  have ht : isTmp (.tmp k) = true := rfl
  refine ⟨fun ho => ?_, fun ho => ?_⟩
  · simp [runCore, checkFree, hl, ht, ho, TempMem.unuseCollection, TempMem.freeCollection, TempMem.put, hu, setStore]
  · simp [runCore, checkFree, hl, ht, ho]

/-! ### Cases -/

/-- Copies `a` to `b`. -/
def copyProg (a b : Name) : Prog Name Nat := .read a fun rows => .pause (.write b rows .done)

/-- `INSERT INTO t9 SELECT … FROM (SELECT … FROM t1 GROUP BY …) UNION SELECT … FROM t2`: the union reads collection 0 filled by
its branches 3 (over subquery 7, reduced by 8) and 9. -/
def q66 : Query := .union [.select true false [] [.select false true [1] []], .select false false [2] []]

/-- Its programs. -/
def progs66 : Nat → Prog Name Nat
  | 0 => copyProg (.tmp 0) (.user 9)
  | 3 => copyProg (.tmp 6) (.tmp 0)
  | 7 => .read (.user 1) fun rows => .reduce (.tmp 7) (.read (.tmp 7) fun _ => .write (.tmp 7) rows .done)
  | 8 => copyProg (.tmp 7) (.tmp 6)
  | 10 => copyProg (.user 2) (.tmp 0)
  | _ => .done

/-- The same with a crash in the second branch after it has written. -/
def crash66 : Nat → Prog Name Nat
  | 10 => .read (.user 2) fun rows => .write (.tmp 0) rows .raise
  | i => progs66 i

/-- Tables 1 and 2. -/
def db66 : Name → List Nat
  | .user 1 => [5, 6]
  | .user 2 => [7]
  | _ => []

theorem touches_copy (a b : Name) (rd wr : List Name) (ha : a ∈ rd) (hb : b ∈ wr) : Touches rd wr (copyProg a b) :=
  .read ha fun _ => .pause (.write hb .done)

theorem honest66 : ∀ c ∈ cores (queryTask progs66 q66 9), c.Honest := by
  have h : cores (queryTask progs66 q66 9) = [
    ⟨0, some (.tmp 0), [], some (.user 9), progs66 0⟩, ⟨3, some (.tmp 6), [], some (.tmp 0), progs66 3⟩,
    ⟨7, some (.user 1), [], some (.tmp 7), progs66 7⟩, ⟨8, some (.tmp 7), [], some (.tmp 6), progs66 8⟩,
    ⟨10, some (.user 2), [], some (.tmp 0), progs66 10⟩] := rfl
  rw [h]
  intro c hc
  simp only [List.mem_cons, List.not_mem_nil, or_false] at hc
  rcases hc with rfl | rfl | rfl | rfl | rfl
  · exact touches_copy _ _ _ _ (by decide) (by decide)
  · exact touches_copy _ _ _ _ (by decide) (by decide)
  · exact .read (by decide) fun _ => .reduce (by decide) (.read (by decide) fun _ => .write (by decide) .done)
  · exact touches_copy _ _ _ _ (by decide) (by decide)
  · exact touches_copy _ _ _ _ (by decide) (by decide)

theorem honest66_crash : ∀ c ∈ cores (queryTask crash66 q66 9), c.Honest := by
  have h : cores (queryTask crash66 q66 9) = [
    ⟨0, some (.tmp 0), [], some (.user 9), progs66 0⟩, ⟨3, some (.tmp 6), [], some (.tmp 0), progs66 3⟩,
    ⟨7, some (.user 1), [], some (.tmp 7), progs66 7⟩, ⟨8, some (.tmp 7), [], some (.tmp 6), progs66 8⟩,
    ⟨10, some (.user 2), [], some (.tmp 0), crash66 10⟩] := rfl
  rw [h]
  intro c hc
  simp only [List.mem_cons, List.not_mem_nil, or_false] at hc
  rcases hc with rfl | rfl | rfl | rfl | rfl
  · exact touches_copy _ _ _ _ (by decide) (by decide)
  · exact touches_copy _ _ _ _ (by decide) (by decide)
  · exact .read (by decide) fun _ => .reduce (by decide) (.read (by decide) fun _ => .write (by decide) .done)
  · exact touches_copy _ _ _ _ (by decide) (by decide)
  · exact .read (by decide) fun _ => .write (by decide) .raise

/-- The events of the example, in order: innermost subquery, its reduce, first branch, second branch, union. -/
example : (runQuery progs66 q66 9 db66).1.log = [
    .read 7 (.user 1) [5, 6], .read 7 (.tmp 7) [], .write 7 (.tmp 7) [5, 6], .stop 7,
    .read 8 (.tmp 7) [5, 6], .write 8 (.tmp 6) [5, 6], .stop 8,
    .read 3 (.tmp 6) [5, 6], .write 3 (.tmp 0) [5, 6], .stop 3,
    .read 10 (.user 2) [7], .write 10 (.tmp 0) [7], .stop 10,
    .read 0 (.tmp 0) [5, 6, 7], .write 0 (.user 9) [5, 6, 7], .stop 0] := rfl
example : (runQuery progs66 q66 9 db66).2 = true := rfl
example : (runQuery progs66 q66 9 db66).1.store (.tmp 0) = [] := C66_no_leftovers _ _ _ _ honest66 0 rfl
/-- The crash leaves the collections of the union and of the reduce clean, and table 9 as it was. -/
example : (runQuery crash66 q66 9 db66).2 = false ∧ (runQuery crash66 q66 9 db66).1.store (.user 9) = [] := ⟨rfl, rfl⟩
example : (runQuery crash66 q66 9 db66).1.store (.tmp 0) = [] := C66_no_leftovers _ _ _ _ honest66_crash 0 rfl
example : (runQuery crash66 q66 9 db66).1.log.drop 10 =
    [.read 10 (.user 2) [7], .write 10 (.tmp 0) [7], .raise 10, .raise 0] := rfl

/-- `WITH t5 AS (SELECT … FROM t1) SELECT … FROM t5`. -/
def cte66 : Query := .withQuery [5] [.select false false [1] []] (.select false false [5] [])

/-- Its programs. -/
def cteProgs : Nat → Prog Name Nat
  | 0 => copyProg (.user 1) (.user 5)
  | 3 => copyProg (.user 5) (.user 9)
  | _ => .done

/-- **C115** "The statement leaves nothing behind but its result" is false with a WITH clause: the collection of the named query has
the user's name, is not counted as temporary and keeps its rows; the same statement run again reads them twice. -/
theorem C115_with_leftovers_violated :
    (runQuery cteProgs cte66 9 db66).2 = true ∧ (runQuery cteProgs cte66 9 db66).1.store (.user 9) = [5, 6] ∧
    (runQuery cteProgs cte66 9 db66).1.store (.user 5) = [5, 6] ∧
    (runQuery cteProgs cte66 9 (setStore (runQuery cteProgs cte66 9 db66).1.store (.user 9) [])).1.store (.user 9) = [5, 6, 5, 6] :=
  ⟨rfl, rfl, rfl, rfl⟩

end Verif.Props
