import Verif.Model.Table
import Verif.Model.Executor
import Verif.Model.Aggregate
/-!
Model of tables that are named by a variable (`FROM @t`): compiler.py:2535-2542 (`parse_table`), taskers/query.py:397-420, 452-457 (names
that are only known when the query runs), and the scripts they occur in: executor.py:142-186, taskers/set.py:10-30, taskers/into.py:11-66.
The query itself is left abstract: a function of the names of its tables, the databases of its configuration and the data.
Not modelled: the mapping of back-quoted names is already undone (2544); a variable whose value is itself such a replaced name.
-/
namespace Verif.TableVar
open Verif.Val (Str Val Py)
open Verif.Env (Key getValue)
open Verif.Table (Os Ref Db Info parseTables)

/-- A table as it is written in a statement: `ref.name`, or, if `isVar`, the value of the variable `@ref.name`. -/
structure TRef where
  ref : Ref
  isVar : Bool

/-- `"#{env_variable__@"` -/
def markStart : Str := "#{env_variable__@".toList

/-- compiler.py:2540: the name that stands for the value of a variable that is NULL when the query is compiled. -/
def mark (v : Str) : Str := markStart ++ v ++ ['}']

/-- compiler.py:2535-2543: the name of a table when the query is compiled; `none`: the query is refused. -/
def bindName (chain : List (Dict Key Val)) (t : TRef) : Option Ref :=
  if t.isVar then
    match getValue chain ('@' :: t.ref.name) with
    | none => none
    | some .null => some { t.ref with name := mark t.ref.name }
    | some (.str s) => some { t.ref with name := s }
    | some _ => none
  else some t.ref

/-- The name of a loader or outputer: database, dot, table. -/
def fullName (i : Info) : Str := i.db ++ '.' :: i.name

/-- The names of the tables of a query and the databases of its configuration. -/
def located (os : Os) (rs : List Ref) : List Str × List Db :=
  ((parseTables os [] rs).1.map fullName, (parseTables os [] rs).2)

/-- compiler.py:2526-2635 for the tables of a statement. -/
def bindTables (os : Os) (chain : List (Dict Key Val)) (ts : List TRef) : Option (List Str × List Db) :=
  (ts.mapM (bindName chain)).map (located os)

/-- query.py:401-408, 419: the first two parts of the name; if the second is a mark, the database and the name of the variable
(`table_name[16:-1]`). -/
def lateKey (name : Str) : Option (Str × Key) :=
  let db := name.takeWhile (· ≠ '.')
  let table := ((name.dropWhile (· ≠ '.')).drop 1).takeWhile (· ≠ '.')
  if markStart.isPrefixOf table = true ∧ table.getLast? = some '}' then some (db, (table.drop 16).dropLast) else none

/-- query.py:410-418: the name when the query runs; `none`: `KeyError`. -/
def rename (py : Py) (chain : List (Dict Key Val)) (name : Str) : Option Str :=
  match lateKey name with
  | none => some name
  | some (db, key) => (getValue chain key).map fun v => db ++ '.' :: Agg.Py.pyStr py v

/-- What the statements act on: the variables of the session (`own`) and of those it was made from, and the data. -/
structure World (δ : Type) where
  own : Dict Key Val
  parents : List (Dict Key Val)
  data : δ

/-- All variables that can be seen. -/
def World.chain {δ : Type} (w : World δ) : List (Dict Key Val) := w.own :: w.parents

/-- Statements. -/
inductive Stmt (δ : Type) where
  /-- `SET key = constant` -/
  | set (key : Key) (v : Val)
  /-- a query of any kind that reads and writes these tables -/
  | query (tables : List TRef) (act : List Str → List Db → δ → δ)
  /-- `SELECT … FROM tables … INTO key` -/
  | into (key : Key) (tables : List TRef) (value : List Str → List Db → δ → Val)

/-- What is queued. -/
inductive Job (δ : Type) where
  | query (names : List Str) (dbs : List Db) (act : List Str → List Db → δ → δ)
  | into (key : Key) (names : List Str) (dbs : List Db) (value : List Str → List Db → δ → Val)

/-- into.py:12-15: the variable of INTO is defined when the statement is started. -/
def define (own : Dict Key Val) (k : Key) : Dict Key Val := if (own.get? k).isSome then own else own.set k .null

/-- executor.py:158-168, set.py:10-30, into.py:11-19: compiling a statement and starting it. -/
def start {δ : Type} (os : Os) : Stmt δ → World δ → World δ × Option (List (Job δ))
  | .set k v, w => ({ w with own := w.own.set k v }, some [])
  | .query ts act, w =>
    match bindTables os w.chain ts with
    | none => (w, none)
    | some b => (w, some [.query b.1 b.2 act])
  | .into k ts value, w =>
    match bindTables os w.chain ts with
    | none => (w, none)
    | some b => ({ w with own := define w.own k }, some [.into k b.1 b.2 value])

/-- query.py:153-155, 410-418, 452-457 and into.py:21-66: running what was queued. -/
def runJob {δ : Type} (py : Py) : Job δ → World δ → World δ × Exec.Outcome
  | .query names dbs act, w =>
    match names.mapM (rename py w.chain) with
    | none => (w, .fail)
    | some ns => ({ w with data := act ns dbs w.data }, .done)
  | .into k names dbs value, w =>
    match names.mapM (rename py w.chain) with
    | none => (w, .fail)
    | some ns => ({ w with own := w.own.set k (value ns dbs w.data) }, .done)

/-- The executor for these statements. -/
def machine {δ : Type} (os : Os) (py : Py) : Exec.Machine (World δ) (Stmt δ) (Job δ) := ⟨start os, runJob py⟩

end Verif.TableVar
