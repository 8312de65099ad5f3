import Verif.Model.Value
/-!
Model of table names: compiler.py:2526-2635 `parse_table` and the databases it adds to the configuration of a query.
Not modelled: names that start with `file://` (urllib), names given by a variable (2535-2542: `Model/TableVar`), table names with dots (2528-2534)
(they are the name with dots put back), the hint
`@use_output_type` (2559-2565: one more option).
-/
namespace Verif.Table
open Verif.Val (Str)

/-- A database of the configuration. `path = none`: standard input and output. -/
structure Db where
  name : Str
  driver : Str
  path : Option Str
  format : Option Str
  deriving DecidableEq

/-- The file system and Unicode as the code uses them: `os.path.abspath`, `os.getcwd()`, `c.isalpha() or c.isdigit()`. -/
structure Os where
  abspath : Str → Str
  cwd : Str
  alnum : Char → Bool

/-- A table as it is written: sqlglot's `Table` with the back-quoted name put back (2545). -/
structure Ref where
  catalog : Option Str
  db : Option Str
  name : Str
  alias : Option Str

/-- `os.path.split`: up to the last slash, without the slashes at its end unless it has nothing else; and the rest. -/
def pathSplit (p : Str) : Str × Str :=
  let tail := (p.reverse.takeWhile (· ≠ '/')).reverse
  let head := (p.reverse.dropWhile (· ≠ '/')).reverse
  (if head.all (· = '/') then head else (head.reverse.dropWhile (· = '/')).reverse, tail)

/-- `os.path.splitext(name)[-1]` of a name without slashes: from the last dot on, if anything but dots is before it. -/
def extension (name : Str) : Str :=
  let after := name.reverse.takeWhile (· ≠ '.')
  match name.reverse.dropWhile (· ≠ '.') with
  | [] => []
  | dot :: before => if before.all (· = '.') then [] else dot :: after.reverse

/-- compiler.py:2597-2598: the driver of a file extension. -/
def driverOf (ext : Str) : Option Str :=
  if ext = ".txt".toList then some "textline".toList
  else if ext = ".json".toList then some "json".toList
  else if ext = ".csv".toList then some "csv".toList
  else if ext = ".xls".toList then some "execl".toList
  else if ext = ".xlsx".toList then some "execl".toList
  else none

/-- Python `s.split(",")`. -/
def splitComma : Str → List Str
  | [] => [[]]
  | c :: s =>
    if c = ',' then [] :: splitComma s
    else match splitComma s with
      | [] => [[c]]
      | w :: ws => (c :: w) :: ws

/-- compiler.py:2546-2553: `name<option,option>`: from the first `<` to the last `>`; what follows is dropped. -/
def options (origin : Str) : Str × List Str :=
  if '<' ∈ origin ∧ '>' ∈ origin then
    let start := origin.idxOf '<'
    let stop := origin.length - 1 - origin.reverse.idxOf '>'
    (origin.take start, splitComma ((origin.take stop).drop (start + 1)))
  else (origin, [])

/-- compiler.py:2601: the name of the database of a directory. -/
def dirName (os : Os) (path : Str) : Str := "dir__".toList ++ path.map fun c => if os.alnum c then c else '_'

/-- compiler.py:2620-2623: the format of a text file. -/
def formatOf (driver : Str) (opts : List Str) : Option Str :=
  if driver = "textline".toList then ["csv".toList, "json".toList, "richtable".toList, "print".toList].find? (fun f => opts.contains f)
  else none

/-- compiler.py:2604-2624: the database of a directory is looked for, updated or added; the name of the database used. -/
def openDir (name driver path : Str) (format : Option Str) : List Db → Str × List Db
  | [] => (name, [⟨name, driver, some path, format⟩])
  | d :: ds =>
    if d.name = name then (name, ⟨name, driver, some path, format.or d.format⟩ :: ds)
    else if d.driver = driver ∧ d.path = some path then (d.name, { d with format := format.or d.format } :: ds)
    else ((openDir name driver path format ds).1, d :: (openDir name driver path format ds).2)

/-- compiler.py:2568-2580: the database of standard input and output with a format. -/
def openStdio (format : Str) : List Db → Str × List Db
  | [] => ("stdio-".toList ++ format, [⟨"stdio-".toList ++ format, "textline".toList, none, some format⟩])
  | d :: ds =>
    if d.driver = "textline".toList ∧ d.format = some format then (d.name, d :: ds)
    else ((openStdio format ds).1, d :: (openStdio format ds).2)

/-- What `parse_table` returns (2627-2634), as far as it is used to find the data: `db`, `name`, `table_name`. -/
structure Info where
  db : Str
  name : Str
  tableName : Str
  typingOptions : List Str
  deriving DecidableEq

/-- compiler.py:2554-2555. -/
def withCatalog (r : Ref) (name : Str) : Option Str × Str :=
  match r.catalog with
  | some c => (some c, (match r.db with | some d => d ++ ['.'] | none => []) ++ name)
  | none => (r.db, name)

/-- compiler.py:2566-2626: the database and the name in it. `dbs` are the databases of the configuration so far.  Python takes an
empty database name as none. -/
def locate (os : Os) (dbs : List Db) (db : Option Str) (name : Str) (opts : List Str) : Str × Str × List Db :=
  if name = ['_'] ∨ name = ['.'] then (['-'], ['&', '1'], dbs)
  else if name = ".txt".toList ∨ name = ".csv".toList ∨ name = ".json".toList then
    ((openStdio (name.drop 1) dbs).1, ['&', '1'], (openStdio (name.drop 1) dbs).2)
  else match db with
    | some d => (d, name, dbs)
    | none =>
      match driverOf (extension (pathSplit name).2) with
      | some driver =>
        let path := if (pathSplit name).1 = [] then os.cwd else os.abspath (pathSplit name).1
        let o := openDir (dirName os path) driver path (formatOf driver opts) dbs
        (o.1, (pathSplit name).2, o.2)
      | none => (['-', '-'], name, dbs)

/-- compiler.py:2526-2635 `parse_table`. -/
def parseTable (os : Os) (dbs : List Db) (r : Ref) : Info × List Db :=
  let o := options r.name
  let c := withCatalog r o.1
  let l := locate os dbs c.1 c.2 o.2
  (⟨l.1, l.2.1, r.alias.getD (l.1 ++ '.' :: l.2.1), o.2⟩, l.2.2)

/-- The tables of a query, one after the other. -/
def parseTables (os : Os) : List Db → List Ref → List Info × List Db
  | dbs, [] => ([], dbs)
  | dbs, r :: rs =>
    let a := parseTable os dbs r
    let b := parseTables os a.2 rs
    (a.1 :: b.1, b.2)

/-- The database a task opens under a name: the one of its configuration. -/
def database (dbs : List Db) (name : Str) : Option Db := dbs.find? fun d => d.name = name

end Verif.Table
