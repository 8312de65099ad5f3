import Verif.Model.Call
/-! Which function the source files define for a SQL function, independent of the tables made of them. -/
namespace Verif.FuncSpec
open Verif.Call Verif.Val

variable {V : Type}

/-- The last `def` of `n` in the file is `f`. -/
def Defines (defs : List (Str × Fn V)) (n : Str) (f : Fn V) : Prop :=
  ∃ before after, defs = before ++ (n, f) :: after ∧ ∀ d ∈ after, d.1 ≠ n

/-- The last of the files that has a `def mysql_<name>` has `f` for it. -/
def Provides (mods : List (List (Str × Fn V))) (name : Str) (f : Fn V) : Prop :=
  ∃ before m after, mods = before ++ m :: after ∧ Defines m ("mysql_".toList ++ name) f ∧
    ∀ m' ∈ after, ∀ d ∈ m', d.1 ≠ "mysql_".toList ++ name

/-- No file has a `def mysql_<name>`. -/
def Missing (mods : List (List (Str × Fn V))) (name : Str) : Prop := ∀ m ∈ mods, ∀ d ∈ m, d.1 ≠ "mysql_".toList ++ name

end Verif.FuncSpec
