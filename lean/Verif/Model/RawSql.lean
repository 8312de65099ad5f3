import Verif.Model.Env
/-!
Model of raw SQL blocks: `RAW_SQL_RE` (executor.py:21), the loop of `Executor.run` over its matches (executor.py:147-157), how the
`SET` it makes is taken apart (compiler.py:149-156) and its value read (set.py:42-47).

The classes `\w` and `\s` are parameters (`str.strip` removes the characters of `\s`).  That sqlglot hands a `SET` over as the text
behind the keyword is assumed; `parse_mapping` of that text (see `Model.Mapping`) is left out here.
-/
namespace Verif.RawSql
open Verif.Env (replaceAll)

variable (isW isS : Char → Bool)

/-- A match: `group(1)`, `group(2)`, `group(4)`. -/
structure Block where
  text : List Char
  name : List Char
  body : List Char
  deriving DecidableEq, Repr

/-- The letters of `endraw`. -/
def endrawL : List Char := ['e', 'n', 'd', 'r', 'a', 'w']

/-- The text `raw(`. -/
def rawL : List Char := ['r', 'a', 'w', '(']

/-- `(\)\s*\/\*)?\s*` behind the blanks: the group is taken whenever there is one, as `endraw` does not begin with `)`. -/
def skipClose (s : List Char) : List Char :=
  match s with
  | ')' :: r =>
    match r.dropWhile isS with
    | '/' :: '*' :: r' => r'.dropWhile isS
    | _ => s
  | _ => s

/-- `endraw\s*\*\/`: the text behind it. -/
def matchEnd (s : List Char) : Option (List Char) :=
  if endrawL.isPrefixOf s then
    match (s.drop 6).dropWhile isS with
    | '*' :: '/' :: r => some r
    | _ => none
  else none

/-- `\s*(\)\s*\/\*)?\s*endraw\s*\*\/` at the beginning of the text: the text behind it.  Neither `)` nor `endraw` begins with a
blank, so the greedy repetitions never have to give anything back. -/
def matchTail (s : List Char) : Option (List Char) := matchEnd isS (skipClose isS (s.dropWhile isS))

/-- `(.*?)` followed by `matchTail`: the shortest body for which the rest matches, and the text behind the match. -/
def findTail : List Char → Option (List Char × List Char)
  | [] => (matchTail isS []).map fun r => ([], r)
  | c :: cs =>
    match matchTail isS (c :: cs) with
    | some r => some ([], r)
    | none => (findTail cs).map fun p => (c :: p.1, p.2)

/-- `(\*\/\s*\()?\s*` behind the blanks. -/
def skipOpen (s : List Char) : List Char :=
  match s with
  | '*' :: '/' :: v =>
    match v.dropWhile isS with
    | '(' :: w => w.dropWhile isS
    | _ => s
  | _ => s

/-- `([\w\.]+?)\)` and the rest of the expression: the name, the body, the text behind the match. -/
def matchName (s : List Char) : Option (List Char × List Char × List Char) :=
  let isName := fun c => isW c || c = '.'
  let name := s.takeWhile isName
  if name = [] then none
  else match s.dropWhile isName with
    | ')' :: u => (findTail isS (skipOpen isS (u.dropWhile isS))).map fun p => (name, p.1, p.2)
    | _ => none

/-- `RAW_SQL_RE` at the beginning of the text (executor.py:21), and the text behind the match.  The parts before the body match in
one way only (what the group `(\*\/\s*\()?` and the blanks around it take cannot hold an `endraw`, so giving it back does not
help). -/
def matchRaw (s : List Char) : Option (Block × List Char) :=
  match s with
  | '/' :: '*' :: t =>
    if rawL.isPrefixOf (t.dropWhile isS) then
      (matchName isW isS ((t.dropWhile isS).drop 4)).map fun p => (⟨s.take (s.length - p.2.2.length), p.1, p.2.1⟩, p.2.2)
    else none
  | _ => none

/-- executor.py:147 `RAW_SQL_RE.findall(sql)`.  A match is longer than `fuel` never (`fuel` is the length of the text at first). -/
def findAll : Nat → List Char → List Block
  | 0, _ => []
  | _ + 1, [] => []
  | fuel + 1, c :: cs =>
    match matchRaw isW isS (c :: cs) with
    | some (b, rest) => b :: findAll fuel rest
    | none => findAll fuel cs

/-- `str.strip()`. -/
def strip (s : List Char) : List Char := ((s.dropWhile isS).reverse.dropWhile isS).reverse

/-- executor.py:149-151: `raw_name.split(".")` has two parts. -/
def splitName (name : List Char) : Option (List Char × List Char) :=
  match name.dropWhile (· ≠ '.') with
  | '.' :: r => if '.' ∈ r then none else some (name.takeWhile (· ≠ '.'), r)
  | _ => none

/-- executor.py:152-153: the statement that defines the view. -/
def setText (db view body : List Char) : List Char :=
  "set @config.databases.".toList ++ db ++ ".virtual_views.".toList ++ view ++ "='''\n".toList ++ strip isS body ++ "\n'''".toList

/-- `str.replace` (of the empty text it would be something else, a match is never empty). -/
def replace (old new s : List Char) : List Char := if h : old ≠ [] then replaceAll old new h s else s

/-- executor.py:148-156: the loop over the matches.  The statements compiled before the statement itself, and the statement
itself (`none`: the exception of a bad name). -/
def rewriteLoop : List Block → List Char → List (List Char) × Option (List Char)
  | [], sql => ([], some sql)
  | b :: bs, sql =>
    match splitName b.name with
    | none => ([], none)
    | some (db, view) =>
      let r := rewriteLoop bs (replace b.text b.name sql)
      (setText isS db view b.body :: r.1, r.2)

/-- executor.py:146-157 for one statement. -/
def rewrite (sql : List Char) : List (List Char) × Option (List Char) :=
  rewriteLoop isS (findAll isW isS sql.length sql) sql

/-! ### What the `SET` does -/

/-- compiler.py:149-155: key and value of a `SET` command, from the text behind the keyword. -/
def keyValue (text : List Char) : List Char × List Char :=
  (strip isS (text.takeWhile (· ≠ '=')), strip isS ((text.dropWhile (· ≠ '=')).drop 1))

/-- set.py:42-47: the value of a text in quotes; `none` stands for all other values. -/
def quotedValue (v : List Char) : Option (List Char) :=
  match v with
  | c :: _ =>
    if c = '"' ∨ c = '\'' then
      if v.take 3 = "'''".toList ∨ v.take 3 = "\"\"\"".toList then some (strip isS ((v.drop 3).take (v.length - 6)))
      else some (strip isS ((v.drop 1).take (v.length - 2)))
    else none
  | [] => none

/-- set.py:15-21, config.py: the configuration key that is set and its value, for a statement `set …`. -/
def setting (stmt : List Char) : List Char × Option (List Char) :=
  let kv := keyValue isS (stmt.drop 4)
  (strip isS (kv.1.drop 8), quotedValue isS kv.2)

end Verif.RawSql
