import Verif.Model.Command
/-! What the commands are for: the form of a SET statement, names of variables, the order in which a queue runs. -/
namespace Verif.Spec.Command
open Verif.Val Verif.Env Verif.Command

/-- No blanks at the ends. -/
def Trim (s : Str) : Prop :=
  s ≠ [] ∧ (∀ c, s.head? = some c → isBlank c = false) ∧ (∀ c, s.getLast? = some c → isBlank c = false)

/-- `text` is `key = value`, with blanks anywhere around. -/
def Says (text key value : Str) : Prop :=
  Trim key ∧ '=' ∉ key ∧ Trim value ∧ ∃ b1 b2 b3 b4 : Str, text = b1 ++ key ++ b2 ++ '=' :: (b3 ++ value ++ b4) ∧
    ∀ c ∈ b1 ++ b2 ++ b3 ++ b4, isBlank c = true

/-- Names `@x` that mean a variable: not a section of the configuration, not beginning with `config`. -/
def VarName (x : Str) : Prop :=
  x.takeWhile (· ≠ '.') ∉ ["databases".toList, "imports".toList, "sources".toList, "defines".toList, "variables".toList,
    "options".toList, "caches".toList, "virtual_views".toList] ∧ x.take 6 ≠ "config".toList

/-- The worlds differ in nothing but variables. -/
def OnlyVars {Q V S : Type} (w w' : World Q V S) : Prop := w'.own = w.own ∧ w'.store = w.store ∧ w'.log = w.log

/-- The worlds differ in nothing but configurations. -/
def OnlyConfig {Q V S : Type} (w w' : World Q V S) : Prop := w'.env = w.env ∧ w'.store = w.store ∧ w'.log = w.log

/-- A session (its variables and its settings) is as before. -/
def Same {Q V S : Type} (w w' : World Q V S) (a : Nat) : Prop := w'.env.dict a = w.env.dict a ∧ w'.own a = w.own a

mutual
/-- A queue read from left to right, files where they stand. -/
def events {Q : Type} (ctx : List Nat) : Job Q → List (Event Q)
  | .query q => [.query ctx q]
  | .into q x => [.into ctx q x]
  | .shell c => [.shell c]
  | .file c ts => eventsAll c ts
def eventsAll {Q : Type} (ctx : List Nat) : List (Job Q) → List (Event Q)
  | [] => []
  | t :: ts => events ctx t ++ eventsAll ctx ts
end

end Verif.Spec.Command
