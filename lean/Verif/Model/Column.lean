import Verif.Model.Value
/-!
Model of columns with type annotations (`a[int;str %d]`) and casts (`CAST(a AS T)`, `a::T`, `convert_T(a)`): compiler.py:2637-2699
`parse_column`, 2753-2778 `parse_cast_typing_filter`, 1979-1996 `compile_column`, and of the key under which a condition on such a
column is pushed to the data source (compiler.py:889-905).

The name of a column is the text the user wrote between back quotes (`origin_name`, after `Mapping`).  `known` says which names the
library has a filter for (`find_filter`).  Not modelled: tables, `a.b.c` and `<…>` options.
-/
namespace Verif.Column
open Verif.Val

/-- compiler.py:101-106 `TYPE_FILTERS`. -/
def typeFilters : List (String × String) :=
  [("int", "int"), ("float", "float"), ("str", "str"), ("string", "str"), ("bytes", "bytes"), ("bool", "bool"), ("array", "array"),
   ("set", "set"), ("map", "map"), ("objectid", "objectid"), ("uuid", "uuid"), ("datetime", "datetime"), ("date", "date"),
   ("time", "time"), ("char", "str"), ("varchar", "str"), ("nchar", "str"), ("text", "str"), ("mediumtext", "str"),
   ("tinytext", "str"), ("bigint", "int"), ("mediumint", "int"), ("smallint", "int"), ("tinyint", "int"), ("decimal", "decimal"),
   ("double", "float"), ("boolean", "bool"), ("binary", "bytes"), ("varbinary", "bytes"), ("blob", "bytes"), ("timestamp", "datetime")]

/-- Python's `s.split(c)`. -/
def pieces (c : Char) : Str → List Str
  | [] => [[]]
  | x :: s => if x = c then [] :: pieces c s else
    match pieces c s with
    | [] => [[x]]
    | p :: ps => (x :: p) :: ps

/-- Python's `c.join(l)`. -/
def join (c : Char) : List Str → Str
  | [] => []
  | [p] => p
  | p :: ps => p ++ c :: join c ps

/-- compiler.py:2666-2678: the filter for one of the types between the brackets, if there is one.  (`Char.toLower` is `str.lower` on
ASCII only.) -/
def filterOf (known : Str → Bool) (piece : Str) : Option Str :=
  let words := pieces ' ' piece
  let name := lower (words.headD [])
  match typeFilters.lookup (String.ofList name) with
  | some f => some (join ' ' (f.toList :: words.tail))
  | none => if known name then some (join ' ' (name :: words.tail)) else none

/-- compiler.py:2664, 2679: the text in front of the first `[`, and that between it and the last `]`. -/
def annotation (s : Str) : Option (Str × Str) :=
  if '[' ∈ s ∧ ']' ∈ s then
    let start := (s.takeWhile (· ≠ '[')).length
    let stop := s.length - 1 - (s.reverse.takeWhile (· ≠ ']')).length
    some (s.take start, (s.take stop).drop (start + 1))
  else none

/-- A column as it is written: its name, and the filter of the cast around it (2650-2657). -/
structure Expr where
  name : Str
  cast : Option Str := none

/-- compiler.py:2688-2699. -/
structure Parsed where
  name : Str
  filters : List Str
  typingName : Str

/-- compiler.py:2659-2684. -/
def parse (known : Str → Bool) (e : Expr) : Parsed :=
  match annotation e.name with
  | some (name, types) =>
    let filters := e.cast.toList ++ (pieces ';' types).filterMap (filterOf known)
    ⟨name, filters, match filters with | f :: _ => name ++ '|' :: f | [] => name⟩
  | none => ⟨e.name, e.cast.toList, e.name⟩

/-- Compiled columns: `$.name|filter`, `:$.*|filter` and `[column, column]`. -/
inductive C where
  | get (name : Str) (filter : Option Str)
  | sub (filter : Str)
  | seq (first next : C)

/-- compiler.py:1990-1994 `compile_column_filter`. -/
def compileFilter (first : C) : List Str → C
  | [] => first
  | [f] => .sub f
  | _ :: fs => .seq first (compileFilter first fs)

/-- compiler.py:1984-1996 `compile_column`. -/
def compile (p : Parsed) : C :=
  match p.filters with
  | [] => .get p.name none
  | [f] => .get p.name (some f)
  | f :: fs => .seq (.get p.name (some f)) (compileFilter (.get p.name (some f)) fs)

/-- What compiled columns mean: `conv f` is the conversion of the filter `f`; in `[a, b]`, `b` works on the value of `a`. -/
def eval {V : Type} (conv : Str → V → V) (row : Str → V) (cur : V) : C → V
  | .get name f => match f with
    | some f => conv f (row name)
    | none => row name
  | .sub f => conv f cur
  | .seq a b => eval conv row (eval conv row cur a) b

/-- compiler.py:889-905 `build_query_condition`: the column of a pushed condition. -/
def whereKey (known : Str → Bool) (e : Expr) : Str := (parse known e).typingName

/-- compiler.py:879-881, 1054-1055, 1074-1075: the column of the subquery a column is compared with; `typing_filters` is a list, so
that adding it to a text raises TypeError. -/
def subqueryColumn (known : Str → Bool) (e : Expr) (column : Str) : Option Str :=
  if (parse known e).filters.isEmpty then some column else none

end Verif.Column
