import Verif.Model.Nest
import Verif.Model.Literal
import Verif.Model.Str
/-!
Model of `INSERT INTO t [(columns)] SELECT …` (compiler.py:271-316 `compile_insert_into`, 352-381 of `compile_union`, 577-580 of
`compile_select`): where the rows go, how they are written, and which rows.  (VALUES: `Model.Literal`.)

The output of a task is a text `&.database.table::keys use mode` that the compiler takes apart and puts together again.
-/
namespace Verif.Insert
open Verif.Val Verif.Select Verif.Nest

/-- compiler.py:301-309: the output of an INSERT; `mode` is `Literal.updateType`, and `I` for the console. -/
def insertOutput (upper : Str → Str) (db name : Str) (options : List Str) : Str :=
  if db = ['-'] ∧ name = ['_'] then "&.-.&1::id use I".toList
  else "&.".toList ++ db ++ ['.'] ++ name ++ "::".toList ++ "id".toList ++ " use ".toList ++ Literal.updateType upper options

/-- `s.split(d)[0]`. -/
def firstPart (d s : Str) : Str := (Str.splitGo d [] s).headD []
/-- `s.split(d)[-1]`. -/
def lastPart (d s : Str) : Str := (Str.splitGo d [] s).getLastD []

/-- compiler.py:577-580: the end of `compile_select`; `keys` is `"+".join(outputer_primary_keys)` or `id`, `useOutput` the value of
`@use_output`. -/
def selectOutput (useOutput : Option Str) (keys out : Str) : Str :=
  firstPart "::".toList out ++ "::".toList ++ keys ++ " use ".toList ++
    (if Str.contains out " use ".toList then lastPart " use ".toList out else useOutput.getD "I".toList)

/-- compiler.py:352-381: the keys of the first branch, and the way of writing: the one of the first branch that is not `I`.  The
arguments of the branches are those of `CONST_CONFIG_KEYS` (config.py:21), without `@use_output`; a branch's output begins as
`&.-.&1::id` (215). -/
def branchInfo (keys : Str) : Str × Option Str :=
  let l := Str.splitGo " use ".toList [] (lastPart "::".toList (selectOutput none keys "&.-.&1::id".toList))
  (l.headD [], l[1]?)

/-- The type of the primary key in the first part that gives one. -/
def unionType : Str → List Str → Str
  | t, [] => t
  | t, k :: ks => unionType (if t = ['I'] then ((branchInfo k).2.getD t) else t) ks

/-- compiler.py:380-381; `strip` of the type is not modelled, it has no blanks. -/
def unionOutput (keys : List Str) (out : Str) : Str :=
  firstPart "::".toList out ++ "::".toList ++ (branchInfo (keys.headD [])).1 ++ " use ".toList ++ unionType ['I'] keys

variable {S : Type} (py : Py) (calls : Str → List Val → Val) (en : Engine)

/-- compiler.py:311-316: the rows: those of the SELECT or UNION.  A WITH of the SELECT (`INSERT INTO t WITH … SELECT …`) is not
looked at: only `compile_query` (226-227) does, and it is called on the INSERT. -/
def sourceRows (st : Store) : Rel S → Option (List Out)
  | .withq _ _ b => sourceRows st b
  | e => Nest.result py calls en st e

/-- It is a UNION. -/
def isUnion : Rel S → Bool
  | .union _ _ => true
  | .withq _ _ b => isUnion b
  | _ => false

/-- compiler.py:271-316: the statement; `keys` are the keys of its SELECTs.  The listed columns are used for VALUES only. -/
def insertSelect (upper : Str → Str) (useOutput : Option Str) (db name : Str) (options : List Str) (_columns : Option (List Str))
    (keys : List Str) (st : Store) (e : Rel S) : Option (Str × List Out) :=
  (sourceRows py calls en st e).map fun rows =>
    ((if isUnion e then unionOutput keys (insertOutput upper db name options)
      else selectOutput useOutput (keys.headD []) (insertOutput upper db name options)), rows)

end Verif.Insert
