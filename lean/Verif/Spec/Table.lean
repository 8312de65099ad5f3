import Verif.Model.Table
/-! What a table name means. -/
namespace Verif.TableSpec
open Verif.Val (Str) 
open Verif.Table (Os Ref Db Info database)

/-- The file extensions and how they are read. -/
def reader : List (Str × Str) :=
  [(".txt".toList, "textline".toList), (".json".toList, "json".toList), (".csv".toList, "csv".toList),
   (".xls".toList, "execl".toList), (".xlsx".toList, "execl".toList)]

/-- `path` names the file `base` of the directory `dir`, to be read with `driver`. -/
def IsFile (os : Os) (path dir base driver : Str) : Prop :=
  '/' ∉ base ∧
  (∃ stem ext, base = stem ++ ext ∧ (∃ c ∈ stem, c ≠ '.') ∧ (ext, driver) ∈ reader) ∧
  ((path = base ∧ dir = os.cwd) ∨
   (∃ d slashes, path = d ++ slashes ++ base ∧ slashes ≠ [] ∧ (∀ c ∈ slashes, c = '/') ∧
     ((d = [] ∧ dir = os.abspath slashes) ∨ (∃ d' c, d = d' ++ [c] ∧ c ≠ '/' ∧ dir = os.abspath d))))

/-- The format given to a text file: the first of these that is among the options. -/
def Format (driver : Str) (opts : List Str) (f : Option Str) : Prop :=
  if driver = "textline".toList then
    (f = some "csv".toList ∧ "csv".toList ∈ opts) ∨
    (f = some "json".toList ∧ "csv".toList ∉ opts ∧ "json".toList ∈ opts) ∨
    (f = some "richtable".toList ∧ "csv".toList ∉ opts ∧ "json".toList ∉ opts ∧ "richtable".toList ∈ opts) ∨
    (f = some "print".toList ∧ "csv".toList ∉ opts ∧ "json".toList ∉ opts ∧ "richtable".toList ∉ opts ∧ "print".toList ∈ opts) ∨
    (f = none ∧ "csv".toList ∉ opts ∧ "json".toList ∉ opts ∧ "richtable".toList ∉ opts ∧ "print".toList ∉ opts)
  else f = none

/-- `name` is written `n` or `n<option,…,option>`. -/
def Written (name n : Str) (opts : List Str) : Prop :=
  (name = n ∧ opts = [] ∧ ¬ ('<' ∈ n ∧ '>' ∈ n)) ∨
  (name = n ++ '<' :: List.intercalate [','] opts ++ ['>'] ∧ '<' ∉ n ∧ opts ≠ [] ∧ ∀ o ∈ opts, ',' ∉ o)

/-- What a table can be: the console, standard input and output in a format, a file, a table of a database. -/
inductive Source where
  | console
  | stdio (format : Str)
  | file (dir base driver : Str) (format : Option Str)
  | table (db name : Str)

/-- Names with a meaning of their own. -/
def special : List Str := [['_'], ['.'], ".txt".toList, ".csv".toList, ".json".toList]

/-- What a table reference denotes. -/
inductive Denotes (os : Os) (r : Ref) : Source → Prop
  | console (n opts) : Written r.name n opts → r.catalog = none → n = ['_'] ∨ n = ['.'] → Denotes os r .console
  | stdio (f opts) : Written r.name ('.' :: f) opts → r.catalog = none → f = "txt".toList ∨ f = "csv".toList ∨ f = "json".toList →
      Denotes os r (.stdio f)
  | named (db n opts) : Written r.name n opts → r.catalog = none → r.db = some db → n ∉ special → Denotes os r (.table db n)
  | catalog (c db n opts) : Written r.name n opts → r.catalog = some c → r.db = some db → db ≠ [] → Denotes os r (.table c (db ++ '.' :: n))
  | file (n opts dir base driver f) : Written r.name n opts → r.catalog = none → r.db = none → IsFile os n dir base driver →
      Format driver opts f → Denotes os r (.file dir base driver f)
  | memory (n opts) : Written r.name n opts → r.catalog = none → r.db = none → n ∉ special →
      (∀ dir base driver, ¬ IsFile os n dir base driver) → Denotes os r (.table ['-', '-'] n)

/-- The tables of one query do not get in each other's way: directories whose paths differ only in characters that are neither
letters nor digits are the same directory, read in one way; and no text file has the format of a standard input or output. -/
def Compatible (os : Os) (l : List Source) : Prop :=
  (∀ dir base driver f dir' base' driver' f', .file dir base driver f ∈ l → .file dir' base' driver' f' ∈ l →
    dir.map (fun c => if os.alnum c then c else '_') = dir'.map (fun c => if os.alnum c then c else '_') →
    dir = dir' ∧ driver = driver' ∧ f = f') ∧
  (∀ dir base f f', .file dir base "textline".toList (some f) ∈ l → .stdio f' ∈ l → f ≠ f')

/-- `i`, with the databases of the query, leads to the source. -/
def Found (dbs : List Db) (i : Info) : Source → Prop
  | .console => i.db = ['-'] ∧ i.name = ['&', '1']
  | .stdio f => i.name = ['&', '1'] ∧ ∃ d, database dbs i.db = some d ∧ d.driver = "textline".toList ∧ d.path = none ∧ d.format = some f
  | .file dir base driver f => i.name = base ∧ ∃ d, database dbs i.db = some d ∧ d.driver = driver ∧ d.path = some dir ∧ d.format = f
  | .table db name => i.db = db ∧ i.name = name

end Verif.TableSpec
