import Verif.Model.Value
/-!
Model of `GET_VALUE(x, key, …)`, which reaches into documents: compiler.py:1542-1570.

The texts it makes, `:$.` and a path, are read by the library: a path is a sequence of members separated by `.`, where `:i`, `:i:j` and
`:i:j:k` mean an element or a slice of a list (examples/get_value/get_value.sql); `Lib` is what members and elements of documents are.
This reading of paths is assumed.
-/
namespace Verif.GetValue
open Verif.Val

/-- An argument after the first: a constant, or a variable with the value it has when the statement is compiled (2730-2741); a list in
parentheses, `none` for members that are no constants; anything else. -/
inductive Key where
  | const (v : Val)
  | tuple (vs : List (Option Val))
  | other

/-- `isinstance(v, (int, float))` and `int(v)`: True and False are numbers, too. -/
def asInt : Val → Option Int
  | .int i => some i
  | .flt q => some (trunc q)
  | .bool b => some (if b then 1 else 0)
  | .null => none
  | .str _ => none

/-- `':'.join(…)`, with a `:` in front. -/
def colons : List Int → Str
  | [] => []
  | i :: is => ':' :: intText i ++ colons is

/-- compiler.py:1554-1563: the path of a key, without the `:$.`; `none`: an error.  `str(None)` is `None`; `str` of numbers is not
needed here. -/
def path : Key → Option Str
  | .const v => match asInt v, v with
    | some i, _ => some (':' :: intText i)                                    -- 1556
    | none, .str s => some s
    | none, _ => some ['N', 'o', 'n', 'e']
  | .tuple vs => match (vs.filterMap fun v => v.bind asInt).take 3 with       -- 1557-1561
    | [] => some [':']
    | is => some (colons is)
  | .other => none                                                            -- 1562-1563

/-- What the documents of the library offer. -/
structure Lib (D : Type) where
  member : Str → D → D
  element : Int → D → D
  slice : List Int → D → D
  /-- a part of a path that begins with `:` and is none of the texts this program writes -/
  odd : Str → D → D

/-- `text.split(c)`. -/
def splitOn (c : Char) : Str → List Str
  | [] => [[]]
  | a :: s => if a = c then [] :: splitOn c s else match splitOn c s with
    | [] => [[a]]
    | p :: ps => (a :: p) :: ps

/-- One part of a path: `:` and numbers between colons, or the name of a member. -/
def part {D : Type} (py : Py) (lib : Lib D) (p : Str) (d : D) : D :=
  match p with
  | ':' :: rest => match (splitOn ':' rest).mapM py.int with
    | some [i] => lib.element i d
    | some is => lib.slice is d
    | none => lib.odd p d
  | p => lib.member p d

/-- A path. -/
def follow {D : Type} (py : Py) (lib : Lib D) (s : Str) (d : D) : D :=
  (splitOn '.' s).foldl (fun d p => part py lib p d) d

/-- compiler.py:1543-1570: `none`: refused. -/
def getValue {D : Type} (py : Py) (lib : Lib D) (x : D) (keys : List Key) : Option D :=
  (keys.mapM path).map fun ps => ps.foldl (fun d s => follow py lib s d) x

end Verif.GetValue
