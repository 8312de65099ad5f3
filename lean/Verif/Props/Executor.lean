import Verif.Model.Executor
/-! Property theorems C10, C11, C12: the executor queue. -/
namespace Verif.Props
open Verif.Exec

variable {σ Stmt Task : Type}

/-- The tasks a list of log entries ran to completion. -/
def completed (l : List (Task × Outcome)) : List Task :=
  l.filterMap fun p => if p.2 = .done then some p.1 else none

theorem step_log (m : Machine σ Stmt Task) (x : State σ Task) :
    (x.runners = [] ∧ step m x = (x, .returned)) ∨
    ∃ t q o w, x.runners = t :: q ∧ (step m x).1.log = x.log ++ [(t, o)] ∧ (step m x).1.world = w ∧
      m.run t x.world = (w, o) ∧
      ((o = .done ∧ (step m x).1.runners = q ∧ (step m x).2 = .running) ∨
       (o = .again ∧ (step m x).1.runners = q ++ [t] ∧ (step m x).2 = .running) ∨
       (o = .fail ∧ (step m x).1.runners = q ∧ (step m x).2 = .raised)) := by
  unfold step
  cases hr : x.runners with
  | nil => simp
  | cons t q =>
    right
    rcases hm : m.run t x.world with ⟨w, o⟩
    refine ⟨t, q, o, w, rfl, ?_⟩
    cases o <;> simp [hm]

/-- **C10**: when executing the queue returns, with or without streaming, every queued task was run to completion
exactly once, and no other. -/
theorem C10_each_task_completes_once (m : Machine σ Stmt Task) {x y : State σ Task}
    (h : Executes m x y .returned) :
    ∃ l, y.log = x.log ++ l ∧ (completed l).Perm x.runners ∧ y.runners = [] := by
  generalize hs : Status.returned = s at h
  induction h with
  | @returned x y h =>
    rcases step_log m x with ⟨h1, h2⟩ | ⟨t, q, o, w, h1, h2, h3, h4, h5⟩
    · rw [h2] at h; simp at h; subst h
      exact ⟨[], by simp, by simp [completed, h1], h1⟩
    · rw [h] at h5; simp at h5
  | raised => exact absurd hs (by simp)
  | @next x y z s h _ ih =>
    obtain ⟨l, e1, e2, e3⟩ := ih hs
    rcases step_log m x with ⟨h1, h2⟩ | ⟨t, q, o, w, h1, h2, h3, h4, h5⟩
    · rw [h2] at h; simp at h
    · rw [h] at h2 h5
      simp only at h2 h5
      refine ⟨(t, o) :: l, by rw [e1, h2]; simp, ?_, e3⟩
      rw [h1]
      rcases h5 with ⟨ho, hq, _⟩ | ⟨ho, hq, _⟩ | ⟨_, _, hc⟩
      · subst ho
        rw [hq] at e2
        simpa [completed] using e2
      · subst ho
        rw [hq] at e2
        have : completed ((t, Outcome.again) :: l) = completed l := by simp [completed]
        rw [this]
        exact e2.trans (List.perm_append_comm (l₁ := q) (l₂ := [t]))
      · simp at hc

/-- **C10**, order: when no task yields, the tasks run in queue order, each once, up to the end or to the first
failure. -/
theorem C10_submission_order (m : Machine σ Stmt Task) {x y : State σ Task} {s : Status}
    (hy : ∀ t ∈ x.runners, ∀ w, (m.run t w).2 ≠ .again) (h : Executes m x y s) :
    ∃ ran, y.log.map (·.1) = x.log.map (·.1) ++ ran ∧ x.runners = ran ++ y.runners ∧
      (s = .returned → y.runners = []) := by
  induction h with
  | @returned x y h =>
    rcases step_log m x with ⟨h1, h2⟩ | ⟨t, q, o, w, h1, h2, h3, h4, h5⟩
    · rw [h2] at h; simp at h; subst h
      exact ⟨[], by simp, by simp, fun _ => h1⟩
    · rw [h] at h5; simp at h5
  | @raised x y h =>
    rcases step_log m x with ⟨h1, h2⟩ | ⟨t, q, o, w, h1, h2, h3, h4, h5⟩
    · rw [h2] at h; simp at h
    · rw [h] at h2 h5
      simp only at h2 h5
      rcases h5 with ⟨_, _, hc⟩ | ⟨_, _, hc⟩ | ⟨_, hq, _⟩
      · simp at hc
      · simp at hc
      · exact ⟨[t], by simp [h2], by simp [h1, hq], by simp⟩
  | @next x y z s h _ ih =>
    rcases step_log m x with ⟨h1, h2⟩ | ⟨t, q, o, w, h1, h2, h3, h4, h5⟩
    · rw [h2] at h; simp at h
    · rw [h] at h2 h5
      simp only at h2 h5
      have hrun := hy t (by simp [h1]) x.world
      rw [h4] at hrun
      rcases h5 with ⟨_, hq, _⟩ | ⟨ho, _, _⟩ | ⟨_, _, hc⟩
      · obtain ⟨ran, e1, e2, e3⟩ := ih (by
          intro t' ht'
          rw [hq] at ht'
          exact hy t' (by simp [h1, ht']))
        refine ⟨t :: ran, by rw [e1, h2]; simp, ?_, e3⟩
        rw [h1, ← hq, e2]; simp
      · exact absurd ho hrun
      · simp at hc

/-- **C10**, fairness with streaming: whatever yields, the first `n` iterations (`n` at most the queue length) run
the first `n` queued tasks in order, unless an earlier one fails. -/
theorem C10_first_round (m : Machine σ Stmt Task) : ∀ (n : Nat) (x : State σ Task), n ≤ x.runners.length →
    ((execute m n x).2 = .running ∧ (execute m n x).1.log.map (·.1) = x.log.map (·.1) ++ x.runners.take n) ∨
    ((execute m n x).2 = .raised ∧ ∃ k < n, (execute m n x).1.log.map (·.1) = x.log.map (·.1) ++ x.runners.take (k + 1)) := by
  intro n
  induction n with
  | zero => intro x _; left; simp [execute]
  | succ n ih =>
    intro x hn
    rcases step_log m x with ⟨h1, h2⟩ | ⟨t, q, o, w, h1, h2, h3, h4, h5⟩
    · simp [h1] at hn
    · rw [h1] at hn ⊢
      simp at hn
      have hrest : ∀ q' : List Task, (∃ e, q' = q ++ e) → (step m x).1.runners = q' → (step m x).2 = .running →
          ((execute m (n + 1) x).2 = .running ∧
            (execute m (n + 1) x).1.log.map (·.1) = x.log.map (·.1) ++ (t :: q).take (n + 1)) ∨
          ((execute m (n + 1) x).2 = .raised ∧ ∃ k < n + 1,
            (execute m (n + 1) x).1.log.map (·.1) = x.log.map (·.1) ++ (t :: q).take (k + 1)) := by
        rintro q' ⟨e, rfl⟩ hq hs
        have he : execute m (n + 1) x = execute m n (step m x).1 := by
          rcases hst : step m x with ⟨y, st⟩
          rw [hst] at hs; simp at hs; subst hs
          conv => lhs; unfold execute
          simp [hst]
        rw [he]
        have := ih (step m x).1 (by rw [hq]; simp; omega)
        rw [hq, h2] at this
        simp only [List.map_append, List.map_cons, List.map_nil, List.append_assoc, List.cons_append,
          List.nil_append] at this
        rcases this with ⟨a, b⟩ | ⟨a, k, hk, b⟩
        · left
          refine ⟨a, ?_⟩
          rw [b, List.take_append_of_le_length (by omega)]; simp
        · right
          refine ⟨a, k + 1, by omega, ?_⟩
          rw [b, List.take_append_of_le_length (by omega)]; simp
      rcases h5 with ⟨_, hq, hs⟩ | ⟨_, hq, hs⟩ | ⟨_, hq, hs⟩
      · exact hrest q ⟨[], by simp⟩ hq hs
      · exact hrest (q ++ [t]) ⟨[t], rfl⟩ hq hs
      · right
        have he : execute m (n + 1) x = step m x := by
          rcases hst : step m x with ⟨y, st⟩
          rw [hst] at hs; simp at hs; subst hs
          unfold execute
          simp [hst]
        rw [he]
        refine ⟨hs, 0, by omega, ?_⟩
        rw [h2]; simp

/-- Submitting scripts appends: what several `run` calls queue is what one call with all statements queues. -/
theorem C10_run_calls_accumulate (m : Machine σ Stmt Task) (s1 s2 : List Stmt) (x : State σ Task)
    (h : (run m x s1).2 = true) : run m x (s1 ++ s2) = run m (run m x s1).1 s2 := by
  induction s1 generalizing x with
  | nil => rfl
  | cons s ss ih =>
    rcases hs : m.start s x.world with ⟨w, _ | ts⟩
    · simp [run, hs] at h
    · simp only [run, hs, List.cons_append] at h ⊢
      exact ih _ h

/-- `run` only appends to the queue and runs nothing. -/
theorem C10_run_only_appends (m : Machine σ Stmt Task) (ss : List Stmt) (x : State σ Task) :
    ∃ ts, (run m x ss).1.runners = x.runners ++ ts ∧ (run m x ss).1.log = x.log := by
  induction ss generalizing x with
  | nil => exact ⟨[], by simp [run]⟩
  | cons s ss ih =>
    rcases hs : m.start s x.world with ⟨w, _ | ts⟩
    · exact ⟨[], by simp [run, hs]⟩
    · simp only [run, hs]
      obtain ⟨us, h1, h2⟩ := ih { x with world := w, runners := x.runners ++ ts }
      exact ⟨ts ++ us, by rw [h1]; simp, h2⟩

/-- A machine whose tasks are numbers: task 7 yields the first time it is run and completes the second time (the
world is the set of tasks that yielded); task 9 fails; the others complete. -/
def demo : Machine (List Nat) (List Nat) Nat where
  start s w := (w, if s = [] then none else some s)
  run t w := if t = 9 then (w, .fail) else if t = 7 ∧ t ∉ w then (t :: w, .again) else (w, .done)

/-- Non-vacuity for the C10 theorems. -/
example : Executes demo ⟨[], [1, 7, 2], []⟩
    ⟨[7], [], [(1, .done), (7, .again), (2, .done), (7, .done)]⟩ .returned :=
  .next rfl (.next rfl (.next rfl (.next rfl (.returned rfl))))

/-! ## C11 -/

/-- **C11**, first clause: when a task fails, nothing after it is run by that call; what was behind it in the queue
is exactly what stays queued. -/
theorem C11_failure_stops_this_call (m : Machine σ Stmt Task) {x y : State σ Task}
    (hy : ∀ t ∈ x.runners, ∀ w, (m.run t w).2 ≠ .again) (h : Executes m x y .raised) :
    ∃ before t, x.runners = before ++ t :: y.runners ∧
      y.log = x.log ++ before.map (fun u => (u, .done)) ++ [(t, .fail)] := by
  generalize hs : Status.raised = s at h
  induction h with
  | returned => exact absurd hs (by simp)
  | @raised x y h =>
    rcases step_log m x with ⟨h1, h2⟩ | ⟨t, q, o, w, h1, h2, h3, h4, h5⟩
    · rw [h2] at h; simp at h
    · rw [h] at h2 h5
      simp only at h2 h5
      rcases h5 with ⟨_, _, hc⟩ | ⟨_, _, hc⟩ | ⟨ho, hq, _⟩
      · simp at hc
      · simp at hc
      · exact ⟨[], t, by simp [h1, hq], by simp [h2, ho]⟩
  | @next x y z s h _ ih =>
    rcases step_log m x with ⟨h1, h2⟩ | ⟨t, q, o, w, h1, h2, h3, h4, h5⟩
    · rw [h2] at h; simp at h
    · rw [h] at h2 h5
      simp only at h2 h5
      have hrun := hy t (by simp [h1]) x.world
      rw [h4] at hrun
      rcases h5 with ⟨ho, hq, _⟩ | ⟨ho, _, _⟩ | ⟨_, _, hc⟩
      · obtain ⟨before, t', e1, e2⟩ := ih (by
          intro t' ht'
          rw [hq] at ht'
          exact hy t' (by simp [h1, ht'])) hs
        refine ⟨t :: before, t', ?_, ?_⟩
        · rw [h1, ← hq, e1]; simp
        · rw [e2, h2, ho]; simp
      · exact absurd ho hrun
      · simp at hc

/-- **C86 is violated**, in general: after a failure, the next script submitted to the executor is queued behind the
left-over tasks of the failed script, so the next execution runs these first. -/
theorem C86_leftovers_run_first (m : Machine σ Stmt Task) {x y z : State σ Task} {s : Status} (ss : List Stmt)
    (_h : Executes m x y .raised)
    (hy : ∀ t ∈ (run m y ss).1.runners, ∀ w, (m.run t w).2 ≠ .again)
    (h2 : Executes m (run m y ss).1 z .returned) :
    ∃ new, z.log.map (·.1) = y.log.map (·.1) ++ (y.runners ++ new) := by
  obtain ⟨ts, h3, h4⟩ := C10_run_only_appends m ss y
  obtain ⟨ran, e1, e2, e3⟩ := C10_submission_order m hy h2
  refine ⟨ts, ?_⟩
  rw [e1, h4]
  rw [e3 rfl, List.append_nil, h3] at e2
  rw [e2]

/-- **C86 is violated**, concretely: script `[1, 9, 2]` fails at 9; submitting the script `[3]` then runs 2, which
was never resubmitted. -/
theorem C86_violated : ∃ y z, Executes demo (run demo ⟨[], [], []⟩ [[1], [9], [2]]).1 y .raised ∧
    Executes demo (run demo y [[3]]).1 z .returned ∧
    z.log = [(1, .done), (9, .fail), (2, .done), (3, .done)] :=
  ⟨_, _, .next rfl (.raised rfl), .next rfl (.next rfl (.returned rfl)), rfl⟩

/-- A script that fails to compile also leaves its earlier statements queued. -/
theorem C86_compile_error_leaves_statements :
    run demo ⟨[], [], []⟩ [[1], [], [2]] = (⟨[], [1], []⟩, false) := rfl

/-- The interactive prompt does satisfy C11: it clears the queue after every execution, so what the next script
queues is what it would queue on an executor without leftovers. -/
theorem C11_prompt_drops_leftovers (m : Machine σ Stmt Task) (x : State σ Task) (ss : List Stmt) :
    (run m (promptClear x) ss).1.runners = (run m ⟨x.world, [], []⟩ ss).1.runners := by
  have : ∀ (a b : State σ Task), a.world = b.world → a.runners = b.runners →
      (run m a ss).1.runners = (run m b ss).1.runners := by
    induction ss with
    | nil => intro a b _ h; exact h
    | cons s ss ih =>
      intro a b h1 h2
      simp only [run, h1]
      rcases m.start s b.world with ⟨w, _ | ts⟩
      · exact h2
      · exact ih _ _ rfl (by simp [h2])
  exact this _ _ rfl rfl

/-! ## C12 -/

/-- What a script prints when submitted and executed. -/
def scriptOut (ss : List Sql) (vars : Dict Env.Key (Option Int)) : List (Option Int) :=
  (execute sqlMachine (ss.length + 1) (run sqlMachine ⟨⟨vars, []⟩, [], []⟩ ss).1).1.world.out

/-- **C12 is violated**: `SELECT 1 INTO @a; SET @a = 2; SELECT @a` prints 1, in-order execution prints 2. -/
theorem C12_violated :
    let script : List Sql := [.selectInto (.lit (some 1)) "@a".toList, .setLit "@a".toList (some 2),
      .select (.var "@a".toList)]
    scriptOut script [] = [some 1] ∧ (inOrder ⟨[], []⟩ script).out = [some 2] := by
  decide

/-- **C12 is violated** the other way too: `SELECT @a; SET @a = 2` prints 2, not NULL. -/
theorem C12_violated_early :
    let script : List Sql := [.select (.var "@a".toList), .setLit "@a".toList (some 2)]
    scriptOut script [] = [some 2] ∧ (inOrder ⟨[], []⟩ script).out = [none] := by
  decide

/-- A variable name with exactly one leading `@` — as the API and SQL produce. -/
def UserName (k : Env.Key) : Prop := ∃ r, k = '@' :: r ∧ r.head? ≠ some '@'

/-- The variables a query statement reads. -/
def reads : Sql → List Env.Key
  | .select (.var n) => [n]
  | .selectInto (.var n) _ => [n]
  | _ => []

/-- The variables a query statement writes. -/
def writes : Sql → List Env.Key
  | .selectInto _ n => [n]
  | _ => []

/-- The variables assigned by SET literals. -/
def setNames (ss : List Sql) : List Env.Key := ss.filterMap fun | .setLit n _ => some n | _ => none

/-- No SET of a variable comes after a query that reads or writes it. -/
def SetsBeforeUses : List Sql → Prop
  | [] => True
  | .setLit _ _ :: ss => SetsBeforeUses ss
  | q :: ss => (∀ n ∈ setNames ss, n ∉ reads q ∧ n ∉ writes q) ∧ SetsBeforeUses ss

/-- All names are user names. -/
def NamesOk (ss : List Sql) : Prop :=
  ∀ q ∈ ss, (∀ n ∈ reads q, UserName n) ∧ (∀ n ∈ writes q, UserName n) ∧ ∀ n v, q = .setLit n v → UserName n

namespace C12

/-- The value of a variable, NULL for the undefined. -/
def valueOf (vars : Dict Env.Key (Option Int)) (n : Env.Key) : Option Int := (vars.get? n).getD none

/-- Only user names are defined. -/
def Good (vars : Dict Env.Key (Option Int)) : Prop := ∀ k, (vars.get? k).isSome → UserName k

theorem good_set {vars : Dict Env.Key (Option Int)} (h : Good vars) {n : Env.Key} (hn : UserName n) (v) :
    Good (vars.set n v) := by
  intro k hk
  rw [Dict.get?_set] at hk
  split at hk
  · next e => subst e; exact hn
  · exact h k hk

theorem valueOf_set (vars : Dict Env.Key (Option Int)) (n k : Env.Key) (v) :
    valueOf (vars.set n v) k = if n = k then v else valueOf vars k := by
  unfold valueOf
  rw [Dict.get?_set]
  split <;> simp_all

theorem eval_var {vars : Dict Env.Key (Option Int)} (h : Good vars) {n : Env.Key} (hn : UserName n) :
    (Ex.var n).eval vars = valueOf vars n := by
  obtain ⟨r, rfl, hr⟩ := hn
  simp only [Ex.eval, Env.getValue_cons, valueOf]
  cases hk : vars.get? ('@' :: r) with
  | some x => simp
  | none =>
    cases hk' : vars.get? r with
    | none => simp [Env.getValue]
    | some x =>
      obtain ⟨r', hr', _⟩ := h r (by simp [hk'])
      subst hr'
      simp at hr

/-- Equality of worlds as far as anyone can see. -/
structure Same (w1 w2 : SqlWorld) : Prop where
  out : w1.out = w2.out
  val : ∀ n, valueOf w1.vars n = valueOf w2.vars n
  g1 : Good w1.vars
  g2 : Good w2.vars

def exReads : Ex → List Env.Key
  | .var n => [n]
  | .lit _ => []

theorem eval_same {v1 v2 : Dict Env.Key (Option Int)} (g1 : Good v1) (g2 : Good v2) (e : Ex)
    (hu : ∀ n ∈ exReads e, UserName n) (h : ∀ n ∈ exReads e, valueOf v1 n = valueOf v2 n) :
    e.eval v1 = e.eval v2 := by
  cases e with
  | lit v => rfl
  | var n =>
    rw [eval_var g1 (hu n (by simp [exReads])), eval_var g2 (hu n (by simp [exReads])), h n (by simp [exReads])]

theorem reads_select (e : Ex) : reads (.select e) = exReads e := by cases e <;> rfl
theorem reads_into (e : Ex) (n) : reads (.selectInto e n) = exReads e := by cases e <;> rfl

theorem inOrder_same (ss : List Sql) (hn : NamesOk ss) : ∀ {w1 w2 : SqlWorld}, Same w1 w2 →
    Same (inOrder w1 ss) (inOrder w2 ss) := by
  induction ss with
  | nil => intro w1 w2 h; exact h
  | cons q ss ih =>
    intro w1 w2 h
    have ih := @ih (fun q hq => hn q (by simp [hq]))
    have hq := hn q (by simp)
    cases q with
    | setLit n v =>
      apply ih
      exact ⟨h.out, fun k => by simp only [valueOf_set, h.val], good_set h.g1 (hq.2.2 n v rfl) v,
        good_set h.g2 (hq.2.2 n v rfl) v⟩
    | select e =>
      apply ih
      rw [reads_select] at hq
      refine ⟨?_, h.val, h.g1, h.g2⟩
      simp only [h.out, eval_same h.g1 h.g2 e hq.1 (fun n _ => h.val n)]
    | selectInto e n =>
      apply ih
      rw [reads_into] at hq
      have hw := hq.2.1 n (by simp [writes])
      refine ⟨h.out, fun k => ?_, good_set h.g1 hw _, good_set h.g2 hw _⟩
      simp only [valueOf_set, h.val, eval_same h.g1 h.g2 e hq.1 (fun n _ => h.val n)]

/-- The assignments a script performs while being compiled. -/
def startSets : SqlWorld → List Sql → SqlWorld
  | w, [] => w
  | w, .setLit n v :: ss => startSets { w with vars := w.vars.set n v } ss
  | w, .select _ :: ss => startSets w ss
  | w, .selectInto _ n :: ss =>
    startSets { w with vars := if (w.vars.get? n).isSome then w.vars else w.vars.set n none } ss

/-- The query statements. -/
def queries (ss : List Sql) : List Sql := ss.filter fun | .setLit _ _ => false | _ => true

def taskOf : Sql → List SqlTask
  | .setLit _ _ => []
  | .select e => [.query e]
  | .selectInto e n => [.into e n]

theorem run_eq (ss : List Sql) : ∀ (x : State SqlWorld SqlTask),
    run sqlMachine x ss = (⟨startSets x.world ss, x.runners ++ (queries ss).flatMap taskOf, x.log⟩, true) := by
  induction ss with
  | nil => intro x; simp [run, startSets, queries]
  | cons q ss ih =>
    intro x
    cases q <;> simp [run, sqlMachine, startSets, queries, taskOf] <;> rw [← sqlMachine.eq_1, ih] <;>
      simp [queries]

theorem execute_eq (ss : List Sql) (hq : ∀ q ∈ ss, ∀ n v, q ≠ .setLit n v) :
    ∀ (w : SqlWorld) (l) (n : Nat), ss.length < n →
    (execute sqlMachine n ⟨w, ss.flatMap taskOf, l⟩).1.world = inOrder w ss := by
  induction ss with
  | nil =>
    intro w l n hn
    cases n with
    | zero => simp at hn
    | succ n => simp [execute, step, inOrder]
  | cons q ss ih =>
    intro w l n hn
    cases n with
    | zero => simp at hn
    | succ n =>
      have ih := ih (fun q h => hq q (by simp [h]))
      cases q with
      | setLit a b => exact absurd rfl (hq _ (by simp) a b)
      | select e =>
        simp only [List.flatMap_cons, taskOf, execute, step, List.cons_append, List.nil_append, inOrder]
        exact ih _ _ n (by simpa using hn)
      | selectInto e a =>
        simp only [List.flatMap_cons, taskOf, execute, step, List.cons_append, List.nil_append, inOrder]
        exact ih _ _ n (by simpa using hn)

theorem predefine_same {w1 w2 : SqlWorld} (h : Same w1 w2) {n : Env.Key} (hn : UserName n) :
    Same { w1 with vars := if (w1.vars.get? n).isSome then w1.vars else w1.vars.set n none } w2 := by
  split
  · exact h
  · next hk =>
    refine ⟨h.out, fun k => ?_, good_set h.g1 hn _, h.g2⟩
    simp only [valueOf_set]
    split
    · next e =>
      subst e
      rw [← h.val, valueOf]
      cases hg : w1.vars.get? n with
      | none => rfl
      | some x => simp [hg] at hk
    · exact h.val k

/-- Plain assignments of the SET statements. -/
def sets : SqlWorld → List Sql → SqlWorld
  | w, [] => w
  | w, .setLit n v :: ss => sets { w with vars := w.vars.set n v } ss
  | w, .select _ :: ss => sets w ss
  | w, .selectInto _ _ :: ss => sets w ss

theorem startSets_same (ss : List Sql) (hn : NamesOk ss) : ∀ {w1 w2 : SqlWorld}, Same w1 w2 →
    Same (startSets w1 ss) (sets w2 ss) := by
  induction ss with
  | nil => intro w1 w2 h; exact h
  | cons q ss ih =>
    intro w1 w2 h
    have ih := @ih (fun q hq => hn q (by simp [hq]))
    have hq := hn q (by simp)
    cases q with
    | setLit n v =>
      apply ih
      exact ⟨h.out, fun k => by simp only [valueOf_set, h.val], good_set h.g1 (hq.2.2 n v rfl) v,
        good_set h.g2 (hq.2.2 n v rfl) v⟩
    | select e => exact ih h
    | selectInto e n => exact ih (predefine_same h (hq.2.1 n (by simp [writes])))

theorem sets_out (ss : List Sql) (w : SqlWorld) : (sets w ss).out = w.out := by
  induction ss generalizing w with
  | nil => rfl
  | cons q ss ih => cases q <;> simp only [sets, ih]

theorem sets_good (ss : List Sql) (hn : NamesOk ss) {w : SqlWorld} (h : Good w.vars) : Good (sets w ss).vars := by
  induction ss generalizing w with
  | nil => exact h
  | cons q ss ih =>
    have ih := @ih (fun q hq => hn q (by simp [hq]))
    have hq := hn q (by simp)
    cases q with
    | setLit n v => exact ih (good_set h (hq.2.2 n v rfl) v)
    | select e => exact ih h
    | selectInto e n => exact ih h

theorem sets_value_unset (ss : List Sql) (w : SqlWorld) (k : Env.Key) (h : k ∉ setNames ss) :
    valueOf (sets w ss).vars k = valueOf w.vars k := by
  induction ss generalizing w with
  | nil => rfl
  | cons q ss ih =>
    cases q with
    | setLit n v =>
      simp [setNames] at h
      rw [sets, ih _ (by simpa [setNames] using h.2), valueOf_set, if_neg (fun e => h.1 e.symm)]
    | select e => rw [sets, ih _ (by simpa [setNames] using h)]
    | selectInto e n => rw [sets, ih _ (by simpa [setNames] using h)]

theorem sets_value_set (ss : List Sql) (w1 w2 : SqlWorld) (k : Env.Key) (h : k ∈ setNames ss) :
    valueOf (sets w1 ss).vars k = valueOf (sets w2 ss).vars k := by
  induction ss generalizing w1 w2 with
  | nil => simp [setNames] at h
  | cons q ss ih =>
    cases q with
    | setLit n v =>
      by_cases hk : k ∈ setNames ss
      · exact ih _ _ hk
      · rw [sets, sets, sets_value_unset _ _ _ hk, sets_value_unset _ _ _ hk]
        have : n = k := by
          simp [setNames] at h hk
          rcases h with h | ⟨a, h1, h2⟩
          · exact h.symm
          · exact absurd h2 (hk a h1)
        simp [valueOf_set, this]
    | select e => rw [sets, sets]; exact ih _ _ (by simpa [setNames] using h)
    | selectInto e n => rw [sets, sets]; exact ih _ _ (by simpa [setNames] using h)

theorem sets_same (ss : List Sql) (hn : NamesOk ss) {w1 w2 : SqlWorld} (h : Same w1 w2) :
    Same (sets w1 ss) (sets w2 ss) := by
  refine ⟨by rw [sets_out, sets_out, h.out], fun k => ?_, sets_good ss hn h.g1, sets_good ss hn h.g2⟩
  by_cases hk : k ∈ setNames ss
  · exact sets_value_set ss _ _ k hk
  · rw [sets_value_unset _ _ _ hk, sets_value_unset _ _ _ hk, h.val]

theorem same_refl {w : SqlWorld} (h : Good w.vars) : Same w w := ⟨rfl, fun _ => rfl, h, h⟩

theorem Same.trans {a b c : SqlWorld} (h : Same a b) (h' : Same b c) : Same a c :=
  ⟨h.out.trans h'.out, fun n => (h.val n).trans (h'.val n), h.g1, h'.g2⟩

theorem namesOk_queries {ss : List Sql} (hn : NamesOk ss) : NamesOk (queries ss) :=
  fun q hq => hn q (List.mem_filter.mp hq).1

theorem hoist (ss : List Sql) (hn : NamesOk ss) (hs : SetsBeforeUses ss) : ∀ {w : SqlWorld}, Good w.vars →
    Same (inOrder (sets w ss) (queries ss)) (inOrder w ss) := by
  induction ss with
  | nil => intro w h; exact same_refl h
  | cons q ss ih =>
    intro w h
    have hn' : NamesOk ss := fun q hq => hn q (by simp [hq])
    have hq := hn q (by simp)
    cases q with
    | setLit n v => exact ih hn' hs (w := { w with vars := w.vars.set n v }) (good_set h (hq.2.2 n v rfl) v)
    | select e =>
      have e1 : queries (.select e :: ss) = .select e :: queries ss := rfl
      rw [e1, sets, inOrder, inOrder]
      refine Same.trans ?_ (ih hn' hs.2 (w := { w with out := w.out ++ [e.eval w.vars] }) h)
      apply inOrder_same _ (namesOk_queries hn')
      rw [reads_select] at hq
      refine ⟨?_, fun k => ?_, sets_good ss hn' h, sets_good ss hn' h⟩
      · simp only [sets_out]
        rw [eval_same (sets_good ss hn' h) h e hq.1]
        intro n hr
        apply sets_value_unset
        intro hm
        exact (hs.1 n hm).1 (by rw [reads_select]; exact hr)
      · by_cases hk : k ∈ setNames ss
        · exact sets_value_set ss _ _ k hk
        · simp only [sets_value_unset _ _ _ hk]
    | selectInto e n =>
      have e1 : queries (.selectInto e n :: ss) = .selectInto e n :: queries ss := rfl
      rw [e1, sets, inOrder, inOrder]
      rw [reads_into] at hq
      have hw := hq.2.1 n (by simp [writes])
      refine Same.trans ?_ (ih hn' hs.2 (w := { w with vars := w.vars.set n (e.eval w.vars) }) (good_set h hw _))
      apply inOrder_same _ (namesOk_queries hn')
      refine ⟨by simp only [sets_out], fun k => ?_, good_set (sets_good ss hn' h) hw _,
        sets_good ss hn' (good_set h hw _)⟩
      have hne : n ∉ setNames ss := fun hm => (hs.1 n hm).2 (by simp [writes])
      simp only [valueOf_set]
      by_cases hk : k ∈ setNames ss
      · rw [if_neg (fun (e : n = k) => hne (e ▸ hk))]
        exact sets_value_set ss _ _ k hk
      · rw [sets_value_unset _ _ _ hk, sets_value_unset _ _ _ hk, valueOf_set]
        rw [eval_same (sets_good ss hn' h) h e hq.1]
        intro n' hr
        apply sets_value_unset
        intro hm
        exact (hs.1 n' hm).1 (by rw [reads_into]; exact hr)

theorem queries_no_set (ss : List Sql) : ∀ q ∈ queries ss, ∀ n v, q ≠ .setLit n v := by
  intro q hq n v e
  subst e
  simp [queries] at hq

end C12

/-- **C12** (full statement: for every script the printed values are those of executing the statements one after
the other; false, see `C12_violated`).  Proved: it holds for scripts in which no SET of a variable comes after a
query that reads or writes it.  Missing: the other scripts, where the code assigns too early. -/
theorem C12_sets_in_order_partial (ss : List Sql) (vars : Dict Env.Key (Option Int))
    (hv : ∀ k, (vars.get? k).isSome → UserName k) (hn : NamesOk ss) (hs : SetsBeforeUses ss) :
    scriptOut ss vars = (inOrder ⟨vars, []⟩ ss).out := by
  unfold scriptOut
  rw [C12.run_eq]
  have hlen : (C12.queries ss).length < ss.length + 1 :=
    Nat.lt_succ_of_le (List.length_filter_le _ _)
  simp only [List.nil_append]
  rw [C12.execute_eq _ (C12.queries_no_set ss) _ _ _ hlen]
  have h0 := C12.same_refl (w := ⟨vars, []⟩) hv
  have h1 := C12.startSets_same ss hn h0
  exact ((C12.inOrder_same _ (C12.namesOk_queries hn) h1).trans (C12.hoist ss hn hs hv)).out

/-- Non-vacuity: `SET @a=1; SELECT @a INTO @b; SET @c=5; SELECT @b; SELECT @c`. -/
example :
    let ss : List Sql := [.setLit "@a".toList (some 1), .selectInto (.var "@a".toList) "@b".toList,
      .setLit "@c".toList (some 5), .select (.var "@b".toList), .select (.var "@c".toList)]
    SetsBeforeUses ss ∧ NamesOk ss ∧ scriptOut ss [] = [some 1, some 5] := by
  refine ⟨?_, ?_, by decide⟩
  · simp [SetsBeforeUses, setNames, reads, writes]
  · intro q hq
    simp only [List.mem_cons, List.not_mem_nil, or_false] at hq
    have u : ∀ c : Char, c ≠ '@' → UserName ['@', c] := fun c h => ⟨[c], rfl, by simp [h]⟩
    rcases hq with rfl | rfl | rfl | rfl | rfl <;> simp [reads, writes] <;> (try exact u _ (by decide)) <;>
      exact ⟨u _ (by decide), u _ (by decide)⟩

end Verif.Props
