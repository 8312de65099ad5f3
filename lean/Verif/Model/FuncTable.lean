import Verif.Model.Call
/-!
Model of how the table of SQL functions is made of the function modules (calculaters/mysql_funcs/__init__.py:5-18 and the last line of
each of its modules: json_funcs.py:325 and the same in the others), and of calls of functions that the parser knows
(compiler.py:1698-1713).
-/
namespace Verif.FuncTable
open Verif.Call Verif.Val

section
variable {V : Type}

/-- The functions of a module under the names of their `def`s, in order: a later `def` of a name replaces an earlier one. -/
def globals (defs : List (Str × Fn V)) : Table V := defs.foldl (fun t d => register d.1 d.2 t) []

/-- The beginning of the names that are looked for. -/
def mysql : Str := ['m', 'y', 's', 'q', 'l', '_']

/-- `{key[6:]: value for key, value in globals().items() if key.startswith("mysql_")}` (json_funcs.py:325, datetime_funcs.py,
logical_funcs.py, number_funcs.py:307, regexp_funcs.py, string_funcs.py:310: last lines). -/
def exported (t : Table V) : Table V := t.filterMap fun e => if mysql.isPrefixOf e.1 then some (e.1.drop 6, e.2) else none

/-- `dict.update`. -/
def update (t u : Table V) : Table V := u.foldl (fun t e => register e.1 e.2 t) t

/-- mysql_funcs/__init__.py:12-18, for the modules in the order of the lines. -/
def table (mods : List (List (Str × Fn V))) : Table V := mods.foldl (fun t m => update t (exported (globals m))) []
end

/-! ### Functions that the parser knows -/

/-- A class of functions of the parser: its key (the name of the class in small letters), the names of its arguments, and whether the
last of them takes all the arguments that are left (sqlglot: `Func.key`, `arg_types`, `is_var_len_args`). -/
structure Known where
  key : Str
  argTypes : List Str
  varLen : Bool

/-- An argument of an expression of the parser: an expression or a list. -/
inductive Slot (A : Type) where
  | one (a : A)
  | many (l : List A)

/-- `Expression.args`. -/
abbrev Args (A : Type) := List (Str × Slot A)

/-- `dict(zip(arg_types, args))`. -/
def zipped {A : Type} : List Str → List A → Args A
  | n :: ns, a :: as => (n, .one a) :: zipped ns as
  | _, _ => []

/-- sqlglot's `Func.from_arg_list`, assumed: the arguments by the names of `arg_types`; too many are refused (`none`). -/
def parseArgs {A : Type} (k : Known) (args : List A) : Option (Args A) :=
  if k.varLen then
    match k.argTypes.getLast? with
    | none => none
    | some last => some (zipped k.argTypes.dropLast (args.take (k.argTypes.length - 1)) ++
        [(last, .many (args.drop (k.argTypes.length - 1)))])
  else if k.argTypes.length < args.length then none
  else some (zipped k.argTypes args)

/-- `args.get(name)`. -/
def slot {A : Type} (n : Str) : Args A → Option (Slot A)
  | [] => none
  | (m, s) :: d => if m = n then some s else slot n d

/-- The name of a class with arguments of its own (compiler.py:1700). -/
def substringKey : Str := ['s', 'u', 'b', 's', 't', 'r', 'i', 'n', 'g']

/-- compiler.py:1699-1704: the names that are looked for. -/
def argNames (k : Known) : List Str :=
  if k.key = substringKey then [['t', 'h', 'i', 's'], ['s', 't', 'a', 'r', 't'], ['l', 'e', 'n', 'g', 't', 'h']]
  else if k.argTypes ≠ [] then k.argTypes
  else [['t', 'h', 'i', 's'], "expression".toList, "expressions".toList]

/-- compiler.py:1705-1712: the arguments that are compiled, in order. -/
def compileArgs {A : Type} (k : Known) (d : Args A) : List A :=
  (argNames k).flatMap fun n => match slot n d with
    | none => []
    | some (.one a) => [a]
    | some (.many l) => l

/-- compiler.py:1702-1703: what the call is compiled to. -/
def knownTarget {V : Type} (t : Table V) (k : Known) : Target :=
  if (find t k.key).isSome then .mysql k.key else .library k.key

/-- A call of a function that the parser knows, as a whole; `none`: it is refused. -/
def runKnown {V : Type} (null : V) (library : Str → List V → Outcome V) (t : Table V) (k : Known) (args : List V) : Option (Outcome V) :=
  (parseArgs k args).map fun d => match knownTarget t k with
    | .mysql name => match find t name with
      | some f => calculate null f (compileArgs k d)
      | none => library name (compileArgs k d)
    | .special name => library name (compileArgs k d)
    | .library name => library name (compileArgs k d)

end Verif.FuncTable
