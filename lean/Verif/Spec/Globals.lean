import Verif.Model.Globals
/-!
Specification of the command line and environment (C151, C152), independent of how the dictionary is built.
-/
namespace Verif.GlobalsSpec
open Verif.Env Verif.Globals

/-- A process with an empty environment for defining examples. -/
def quiet : Process := ⟨[], "/h".toList, "/h/.syncany".toList, "/w".toList, "linux".toList, []⟩

/-- The argument is `--k` or `--k=…`. -/
def Names (k : Key) (arg : List Char) : Prop := arg = '-' :: '-' :: k ∨ ∃ v, arg = '-' :: '-' :: (k ++ '=' :: v)

/-- What an argument means to its user: `--k` is a flag, `--k=v` gives the text `v`, `--k="v"` and `--k='v'` give `v` (a `v` that
itself starts with a quote must be written quoted). -/
inductive Says : List Char → Key → GVal → Prop where
  | flag (k) : Says ('-' :: '-' :: k) k (.bool true)
  | bare (k v) : (∀ c r, v = c :: r → c ≠ '"' ∧ c ≠ '\'') → Says ('-' :: '-' :: (k ++ '=' :: v)) k (.text v)
  | quoted (k v) (q : Char) : q = '"' ∨ q = '\'' → Says ('-' :: '-' :: (k ++ '=' :: q :: (v ++ [q]))) k (.text v)

/-- The value has no `=` in it. -/
def NoEq : GVal → Prop
  | .text v => '=' ∉ v
  | _ => True

/-- The names the program itself defines, and what they stand for. -/
inductive Builtin (p : Process) : Key → List Char → Prop where
  | home : Builtin p "home".toList p.home
  | syncanyHome : Builtin p "syncany_home".toList p.syncanyHome
  | cwd : Builtin p "cwd".toList p.cwd
  | platform : Builtin p "platform".toList p.platform

/-- The program defines this name. -/
def IsBuiltin (k : Key) : Prop := k ∈ ["home".toList, "syncany_home".toList, "cwd".toList, "platform".toList]

instance (k : Key) : Decidable (IsBuiltin k) := by unfold IsBuiltin; infer_instance

end Verif.GlobalsSpec
