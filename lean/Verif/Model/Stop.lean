/-!
Model of stopping: SIGTERM/SIGHUP (main.py:31-33) or `terminal()` (__init__.py:72-76, 189-194) call `Executor.terminate`
(executor.py:179-182), which reaches the tasker that is running: taskers/query.py:212-216, taskers/into.py:70-74,
taskers/explain.py:37-41, taskers/execute.py:68-72; taskers/set.py:70-71, taskers/use.py:33-34 and taskers/show.py:22-23 ignore it.

Assumed of the library: a core task whose `terminate` was called raises `SystemError` when it would make its next step (query.py:434-438
and main.py:90-92 handle this).  What a statement does is a list of actions; a signal comes before one of them.
-/
namespace Verif.Stop

/-- A statement: a query (SELECT, INSERT, DELETE, INTO, EXPLAIN) with what its subqueries do, its first pass and its second pass
(query.py:174-175); a statement without a query, or what happens between two statements and while compiling (executor.py:158-177:
`self.tasker` is None or ignores the signal); EXECUTE of a file (execute.py:53-66), with an executor of its own. -/
inductive Stmt (A : Type) where
  | query (deps first second : List A)
  | other (acts : List A)
  | file (body : List (Stmt A))

variable {A : Type}

mutual
/-- What the statement does if nothing happens. -/
def acts : Stmt A → List A
  | .query d f s => d ++ f ++ s
  | .other a => a
  | .file b => actsAll b
/-- Of a list of statements. -/
def actsAll : List (Stmt A) → List A
  | [] => []
  | s :: l => acts s ++ actsAll l
end

/-- How it goes on: the statement has ended, the signal is still to come after so many actions (or not at all any more); or `SystemError`
was raised. -/
inductive After where
  | goesOn (signal : Option Nat)
  | stopped
  deriving DecidableEq

mutual
/-- Running one statement; `signal`: how many actions there are before the signal.  The signal reaches the core task of the first pass
only (query.py:215): its subqueries go on to their end (195-202) before it would make a step, the second pass is another core task
(342-372).  A signal that finds no core task is forgotten (213-214, executor.py:180-181). -/
def run : Option Nat → Stmt A → List A × After
  | none, s => (acts s, .goesOn none)
  | some n, .query d f s =>
    if n < (d ++ f).length then ((d ++ f).take (max n d.length), .stopped)
    else if n < (d ++ f ++ s).length then (d ++ f ++ s, .goesOn none)
    else (d ++ f ++ s, .goesOn (some (n - (d ++ f ++ s).length)))
  | some n, .other a => if n < a.length then (a, .goesOn none) else (a, .goesOn (some (n - a.length)))
  | some n, .file b => runAll (some n) b
/-- executor.py:170-177: the statements of a queue, until one raises. -/
def runAll : Option Nat → List (Stmt A) → List A × After
  | sig, [] => ([], .goesOn sig)
  | sig, s :: l =>
    match run sig s with
    | (a, .stopped) => (a, .stopped)
    | (a, .goesOn sig) =>
      let r := runAll sig l
      (a ++ r.1, r.2)
end

end Verif.Stop
