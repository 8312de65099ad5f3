import Verif.Model.Prompt
/-!
Specification of an interactive session (C153): a sequence of effects on the world, without any queue.
-/
namespace Verif.PromptSpec
open Verif.Exec Verif.Prompt Verif.Parser

variable {σ Task : Type}

/-- What a text is to its user: nothing, `exit` in any case, `!command`, `%cd directory`, another `%command`, or a statement. -/
def IsText (o : Outside σ Task) (typed text : List Char) : Prop :=
  ∃ a b, typed = a ++ text ++ b ∧ (∀ c ∈ a, o.isSpace c) ∧ (∀ c ∈ b, o.isSpace c) ∧ text ≠ [] ∧
    (∀ c ∈ text.head?, o.isSpace c = false) ∧ (∀ c ∈ text.getLast?, o.isSpace c = false)

/-- The effect of a statement given alone to a new executor in the world `w`: it is refused; it is executed to an end (normal or an
error); or Control-C breaks off one of its tasks.  The flag tells that it was accepted. -/
inductive Alone (m : Machine σ Stmt Task) (o : Outside σ Task) (q : Stmt) (w : σ) : σ → Bool → Prop where
  | refused {w'} : m.start q w = (w', none) → Alone m o q w w' false
  | executed {w1 ts z st} : m.start q w = (w1, some ts) → Executes m ⟨w1, ts, []⟩ z st → Alone m o q w z.world true
  | broken {w1 ts z j js w'} : m.start q w = (w1, some ts) → Iterates m ⟨w1, ts, []⟩ z → z.runners = j :: js → o.broken j z.world w' →
      Alone m o q w w' true

/-- What one event does to the world and to the number of the next statement, as the user sees it; the last argument tells whether
the session goes on.  (`exit` in any case and with anything behind it ends the session.) -/
inductive Act (m : Machine σ Stmt Task) (o : Outside σ Task) : σ → Nat → Event → σ → Nat → Bool → Prop where
  | eof (w n) : Act m o w n .eof w n false
  | interrupt (w n) : Act m o w n .interrupt w n true
  | blank {t} (w n) : (∀ c ∈ t, o.isSpace c) → Act m o w n (.line t) w n true
  | exit {t text} (w n) : IsText o t text → (o.lower text).take 4 = ['e', 'x', 'i', 't'] → Act m o w n (.line t) w n false
  | system {t c} (w n) : IsText o t ('!' :: c) → (o.lower ('!' :: c)).take 4 ≠ ['e', 'x', 'i', 't'] →
      Act m o w n (.line t) (o.system c w) n true
  | chdir {t c} (w n) : IsText o t ('%' :: c) → (o.lower ('%' :: c)).take 4 ≠ ['e', 'x', 'i', 't'] →
      o.lower (c.take 3) = ['c', 'd', ' '] → Act m o w n (.line t) (o.chdir (c.drop 3) w) n true
  | unknown {t c} (w n) : IsText o t ('%' :: c) → (o.lower ('%' :: c)).take 4 ≠ ['e', 'x', 'i', 't'] →
      o.lower (c.take 3) ≠ ['c', 'd', ' '] → Act m o w n (.line t) w n true
  | sql {t text w' ok} (w n) : IsText o t text → (o.lower text).take 4 ≠ ['e', 'x', 'i', 't'] → text.head? ≠ some '!' →
      text.head? ≠ some '%' → Alone m o (text, n) w w' ok → Act m o w n (.line t) w' (if ok then n + 1 else n) true

/-- A session as the user sees it: world and number of the next statement before, the events, world and number after. -/
inductive Sees (m : Machine σ Stmt Task) (o : Outside σ Task) : σ → Nat → List Event → σ → Nat → Prop where
  | nil (w n) : Sees m o w n [] w n
  | last {w n e w' n'} (es) : Act m o w n e w' n' false → Sees m o w n (e :: es) w' n'
  | more {w n e w1 n1 es w' n'} : Act m o w n e w1 n1 true → Sees m o w1 n1 es w' n' → Sees m o w n (e :: es) w' n'

end Verif.PromptSpec
