import Verif.Model.Value
/-!
Model of how the options of a statement reach its subqueries: at compilation each subquery gets the options of `CONST_CONFIG_KEYS`
(compiler.py:236-251 `compile_with`, 253-269 `compile_subquery`, 355-360 of `compile_union`) and what it ends with is put into the options
of the query around it under `name@key`; when the tasks are started each gets back what is under its name (taskers/query.py:113-121; the
same in query_tasker_calculater.py:20-29).

Simplified: of a query only what concerns the options is kept: the subqueries in the order in which they are compiled (WITH, FROM, joins,
WHERE, …), and what LIMIT and UNION do to `@limit` at the end.
-/
namespace Verif.SubArgs
open Verif.Val (Str)

/-- Values of options. -/
inductive Arg where
  | int (n : Int)
  | bool (b : Bool)
  | text (s : Str)
  | null
  deriving DecidableEq

/-- The dictionary `arguments`. -/
abbrev Args := Str → Option Arg

/-- Python `d[k] = v`. -/
def put (k : Str) (v : Arg) (d : Args) : Args := fun x => if x = k then some v else d x

/-- config.py:21-22 `CONST_CONFIG_KEYS`. -/
def constKeys : List Str :=
  ["@verbose".toList, "@timeout".toList, "@limit".toList, "@batch".toList, "@streaming".toList, "@recovery".toList,
   "@join_batch".toList, "@insert_batch".toList, "@primary_order".toList]

/-- compiler.py:240, 262, 356: the options a subquery is compiled with. -/
def inherited (d : Args) : Args := fun k => if k ∈ constKeys then d k else none

/-- What is left of a text behind a prefix. -/
def after : Str → Str → Option Str
  | [], s => some s
  | _ :: _, [] => none
  | p :: ps, c :: s => if p = c then after ps s else none

/-- compiler.py:245, 267, 361: `arguments.update({name + "@" + key: value …})`. -/
def putAll (name : Str) (sub d : Args) : Args := fun k =>
  match after (name ++ ['@']) k with
  | some k' => (sub k').or (d k)
  | none => d k

/-- What the end of a query does to its own options. -/
inductive End where
  /-- 536-549: no LIMIT, or LIMIT by slicing. -/
  | keep
  /-- 550: LIMIT by reading `n` rows. -/
  | limit (n : Nat)
  /-- 382-384 (UNION), 607-608 (pipelines): everything is read. -/
  | all

/-- A subquery: how it is compiled. -/
inductive Place where
  /-- 236-251: a member of WITH. -/
  | member
  /-- 253-269: a subquery of a SELECT. -/
  | inner
  /-- 355-361: a branch of a UNION. -/
  | branch
  deriving DecidableEq

/-- A query. `loops`: for members of WITH, the names of its dependencies that read the member's own table (247-251). -/
inductive Query where
  | mk (name : Str) (place : Place) (subs : List Query) (loops : List Str) (stop : End)

def Query.name : Query → Str | .mk n _ _ _ _ => n
def Query.place : Query → Place | .mk _ p _ _ _ => p
def Query.subs : Query → List Query | .mk _ _ s _ _ => s
def Query.loops : Query → List Str | .mk _ _ _ l _ => l
def Query.stop : Query → End | .mk _ _ _ _ e => e

/-- The end of a query. -/
def finish (e : End) (d : Args) : Args :=
  match e with
  | .keep => d
  | .limit n => put "@limit".toList (.int n) d
  | .all => put "@limit".toList (.int 0) (put "@primary_order".toList (.bool false) d)

/-- compiler.py:247-251. -/
def putLoops (name : Str) : List Str → Args → Args
  | [], d => d
  | l :: ls, d => putLoops name ls
      (put (name ++ ['@'] ++ l ++ "@@loop".toList) (.bool true) (put (name ++ ['@'] ++ l ++ "@@batch".toList) (.int 1) d))

mutual
/-- The options a query ends with, compiled with the options `d`. -/
def compile (d : Args) : Query → Args
  | .mk _ _ subs _ stop => finish stop (compileSubs d subs)
/-- Its subqueries, one after the other. -/
def compileSubs (d : Args) : List Query → Args
  | [] => d
  | .mk name place subs loops stop :: qs =>
    let d' := putAll name (compile (inherited d) (.mk name place subs loops stop)) d
    compileSubs (match place with
      | .member => putLoops name loops d'
      | .inner => put "@primary_order".toList (.bool false) d'
      | .branch => d') qs
end

/-- taskers/query.py:114-118: the options under a name. -/
def under (name : Str) (d : Args) : Args := fun k => d (name ++ ['@'] ++ k)

mutual
/-- taskers/query.py:113-121: the tasks of a query with the options they are started with. -/
def tasks (d : Args) : Query → List (Str × Args)
  | .mk name _ subs _ _ => (name, d) :: tasksOf d subs
/-- Those of its subqueries. -/
def tasksOf (d : Args) : List Query → List (Str × Args)
  | [] => []
  | .mk name place subs loops stop :: qs => tasks (under name d) (.mk name place subs loops stop) ++ tasksOf d qs
end

end Verif.SubArgs
