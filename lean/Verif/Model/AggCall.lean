import Verif.Model.Aggregate
/-!
Model of the calls of aggregates: which calculater a call gets and over which values (compiler.py:1173-1198 of
`compile_aggregate_column`, 1282-1312 `compile_aggregate_value`, 1316-1347 `compile_aggregate_calculate`, 2896-2915
`is_aggregate`), and of COUNT(DISTINCT a, b, …) (calculaters/aggregate_calculater.py:83-122 with lists).
-/
namespace Verif.AggCall
open Verif.Val Verif.Agg

/-- The aggregates the library knows by a class of their own (compiler.py:2899-2901). -/
inductive Kind where
  | count | sum | max | min | avg | groupConcat | groupUniqArray
  deriving DecidableEq

/-- What stands in the first place of a call. -/
inductive This (ε : Type) where
  | star
  | distinct (es : List ε)
  | one (e : ε)

/-- A call as the library reads it: of one of these classes, with a first argument (`args["this"]`) and further ones (the second
argument of GROUP_CONCAT, the further ones of COUNT, MAX and MIN); or of any other name (`Anonymous`), whose first argument may be
`DISTINCT …`. -/
inductive Call (ε : Type) where
  | typed (k : Kind) (this : This ε) (more : List ε)
  | named (name : Str) (distinct : Bool) (args : List ε)

/-- What is computed of each row (compiler.py:1282-1312, 1204, 1212): a constant, a value, or the list of several. -/
inductive Value (ε : Type) where
  | zero
  | null
  | one (e : ε)
  | many (es : List ε)

/-- compiler.py:1282-1312, 1204: one column is taken for itself, several are put into a list. -/
def valueOf {ε : Type} : List ε → Value ε
  | [] => .null
  | [e] => .one e
  | es => .many es

/-- compiler.py:1330-1331: the second spellings. -/
def aliases : List (Str × Str) :=
  [("grouparray".toList, "group_array".toList), ("groupuniqarray".toList, "group_uniq_array".toList),
   ("groupbitand".toList, "group_bit_and".toList), ("groupbitor".toList, "group_bit_or".toList),
   ("groupbitxor".toList, "group_bit_xor".toList)]

/-- compiler.py:1330-1334. -/
def calcName (name : Str) : Str :=
  let n := lower name
  match aliases.find? (·.1 = n) with
  | some p => p.2
  | none => n

/-- compiler.py:1316-1328: the calculaters of the classes. -/
def kindName : Kind → Str
  | .count => "aggregate_count".toList
  | .sum => "aggregate_sum".toList
  | .max => "aggregate_max".toList
  | .min => "aggregate_min".toList
  | .avg => "aggregate_avg".toList
  | .groupConcat => "group_concat".toList
  | .groupUniqArray => "group_uniq_array".toList

/-- compiler.py:2903-2914 `is_aggregate` of a call of any other name; `known`: the registered aggregate calculaters
(`find_aggregate_calculater`), among them those of imported modules. -/
def isAggregate (known : Str → Bool) (name : Str) : Bool :=
  aliases.any (fun p => p.1 = lower name || p.2 = lower name) || known (lower name)

/-- compiler.py:1177-1196 and 1316-1347: the calculater and what it is given; `none`: SyncanySqlCompileException.  Simplification:
`*` in the place of an expression other than of COUNT is refused here (in the code by `compile_calculate`). -/
def compile {ε : Type} (known : Str → Bool) : Call ε → Option (Str × Value ε)
  | .typed k (.distinct es) _ => if k = .count then some ("aggregate_distinct_count".toList, valueOf es) else none
  | .typed k .star _ => if k = .count then some (kindName k, .zero) else none
  | .typed k (.one e) _ => some (kindName k, .one e)
  | .named name distinct args =>
    if distinct then none
    else if known (calcName name) then some (calcName name, valueOf args) else none

/-- What a row gives the calculater. -/
inductive Arg where
  | one (v : Val)
  | many (l : List Val)
  deriving DecidableEq

/-- What the argument gives on a row (compiler.py:1172-1246). -/
def Value.eval {ε ρ : Type} (ev : ε → ρ → Val) (r : ρ) : Value ε → Arg
  | .zero => .one (.int 0)
  | .null => .one .null
  | .one e => .one (ev e r)
  | .many es => .many (es.map fun e => ev e r)

/-- Python's equality of the hashed values: of two scalars, and of two tuples member by member (NULL equals NULL). -/
def argKey : Arg → List (Option Key) × Bool
  | .one v => ([keyOf v], false)
  | .many l => (l.map keyOf, true)

/-- `set.add`. -/
def addArg (s : List Arg) (a : Arg) : List Arg := if s.any (fun b => argKey b = argKey a) then s else s ++ [a]

/-- aggregate_calculater.py:83-122 `AggregateDistinctCountCalculater`: a list is not hashable and added as a tuple (91-94, 101-104).
Not modelled: lists of values that are lists or dictionaries themselves (their texts are added). -/
def distinctCount : Calc Arg (List Arg) Val where
  step s a := match a with
    | .one .null => some s
    | a => some (some (match s with | none => [a] | some l => addArg l a))
  reduce := reduceWith fun a b => some (b.foldl addArg a)
  final s := match s with | none => .int 0 | some l => .int l.length

/-- aggregate_calculater.py:66-81 `AggregateCountCalculater`: a list is not None. -/
def count : Calc Arg Int Val where
  step s a := match a with
    | .one .null => some (some (s.getD 0))
    | _ => some (some (match s with | none => 1 | some n => n + 1))
  reduce := reduceWith fun a b => some (a + b)
  final s := match s with | none => .null | some n => .int n

/-- COUNT in all its forms over the rows of a group; `none`: refused. -/
def countOf {ε ρ : Type} (known : Str → Bool) (ev : ε → ρ → Val) (this : This ε) (more : List ε) (rows : List ρ) : Option Val :=
  (compile known (.typed .count this more)).bind fun p =>
    if p.1 = "aggregate_distinct_count".toList then
      (distinctCount.run none (rows.map fun r => p.2.eval ev r)).map distinctCount.final
    else (count.run none (rows.map fun r => p.2.eval ev r)).map count.final

end Verif.AggCall
