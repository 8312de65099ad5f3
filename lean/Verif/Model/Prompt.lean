import Verif.Model.Executor
import Verif.Model.Parser
/-!
Model of the interactive loop `CliPrompt.run` (prompt.py:198-262), on top of the executor queue (`Verif.Exec`).  Printing of errors,
the completer and the history file (C70) are left out.
-/
namespace Verif.Prompt
open Verif.Exec Verif.Parser

/-- What `session.prompt` delivers (prompt.py:213): a submitted text, Control-C, or the end of the input. -/
inductive Event where
  | line (text : List Char)
  | interrupt
  | eof
  deriving DecidableEq, Repr

/-- The world outside the executor. -/
structure Outside (σ Task : Type) where
  /-- The white space of `str.strip` and `str.lower`. -/
  isSpace : Char → Bool
  lower : List Char → List Char
  /-- prompt.py:256-257 `os.system`. -/
  system : List Char → σ → σ
  /-- prompt.py:260-262 `os.chdir` and the variable `cwd`; a failing `chdir` raises, which the loop prints. -/
  chdir : List Char → σ → σ
  /-- The worlds in which Control-C can leave a running task. -/
  broken : Task → σ → σ → Prop

variable {σ Task : Type}

/-- A statement as the executor gets it: the text and its number (prompt.py:227 `SqlSegment(text, lineno)`). -/
abbrev Stmt := List Char × Nat

/-- The state of the loop. -/
structure PState (σ Task : Type) where
  x : State σ Task
  lineno : Nat

/-- Whether the loop goes on or has ended. -/
inductive Ctl where
  | go
  | exit
  deriving DecidableEq, Repr

/-- prompt.py:258-262 `run_magic_cmd`. -/
def magic (o : Outside σ Task) (cmd : List Char) (w : σ) : σ :=
  if o.lower (cmd.take 3) = ['c', 'd', ' '] then o.chdir (cmd.drop 3) w else w

/-- What a submitted text is to the loop. -/
inductive Kind where
  | blank
  | exit
  | system (cmd : List Char)
  | magic (cmd : List Char)
  | sql (text : List Char)
  deriving DecidableEq, Repr

/-- prompt.py:215-226: the tests on the text, in their order. -/
def kind (o : Outside σ Task) (text : List Char) : Kind :=
  match strip o.isSpace text with
  | [] => .blank
  | c :: r =>
    if (o.lower (c :: r)).take 4 = ['e', 'x', 'i', 't'] then .exit
    else if c = '!' then .system r
    else if c = '%' then .magic r
    else .sql (c :: r)

/-- executor.py:170-177: some iterations of the loop of `execute`. -/
inductive Iterates (m : Machine σ Stmt Task) : State σ Task → State σ Task → Prop where
  | here (x) : Iterates m x x
  | next {x y z} : step m x = (y, .running) → Iterates m y z → Iterates m x z

/-- prompt.py:211-242: one turn of the loop. -/
inductive Turn (m : Machine σ Stmt Task) (o : Outside σ Task) : PState σ Task → Event → PState σ Task → Ctl → Prop where
  /-- prompt.py:236-237 -/
  | interrupt (s) : Turn m o s .interrupt s .go
  /-- prompt.py:238-239 -/
  | eof (s) : Turn m o s .eof s .exit
  /-- prompt.py:216-217 -/
  | blank (s t) : kind o t = .blank → Turn m o s (.line t) s .go
  /-- prompt.py:218-219 -/
  | exit (s t) : kind o t = .exit → Turn m o s (.line t) s .exit
  /-- prompt.py:220-222 -/
  | system (s t c) : kind o t = .system c → Turn m o s (.line t) { s with x := { s.x with world := o.system c s.x.world } } .go
  /-- prompt.py:223-225 -/
  | magic (s t c) : kind o t = .magic c → Turn m o s (.line t) { s with x := { s.x with world := magic o c s.x.world } } .go
  /-- prompt.py:227, 240-241: `executor.run` raised, the message is printed. -/
  | refused (s t q y) : kind o t = .sql q → run m s.x [(q, s.lineno)] = (y, false) → Turn m o s (.line t) { s with x := y } .go
  /-- prompt.py:227-234: the statement was queued and executed, normally or not; the queue is cleared. -/
  | executed (s t q y z st) : kind o t = .sql q → run m s.x [(q, s.lineno)] = (y, true) → Executes m y z st →
      Turn m o s (.line t) ⟨promptClear z, s.lineno + 1⟩ .go
  /-- prompt.py:227-237: Control-C while a task runs: the `finally` clears the queue, too. -/
  | broken (s t q y z j js w) : kind o t = .sql q → run m s.x [(q, s.lineno)] = (y, true) → Iterates m y z → z.runners = j :: js →
      o.broken j z.world w → Turn m o s (.line t) ⟨promptClear { z with world := w, runners := js }, s.lineno + 1⟩ .go

/-- The loop over the events, up to the first that ends it. -/
inductive Session (m : Machine σ Stmt Task) (o : Outside σ Task) : PState σ Task → List Event → PState σ Task → Prop where
  | nil (s) : Session m o s [] s
  | stop {s e s' es} : Turn m o s e s' .exit → Session m o s (e :: es) s'
  | more {s e s' es s''} : Turn m o s e s' .go → Session m o s' es s'' → Session m o s (e :: es) s''

end Verif.Prompt
