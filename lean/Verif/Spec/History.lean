import Verif.Basic
/-! What the history of the prompt means: a list of texts, oldest first.  Entering a text adds it at the end (texts that begin with
`exit`, in any case, are not kept); starting the prompt shows the whole list, newest first, and keeps the 50 newest. -/
namespace Verif.Spec.History

/-- The text starts with the letters e, x, i, t, each in either case. -/
def StartsWithExit (t : List Char) : Prop :=
  ∃ a b c d rest, t = a :: b :: c :: d :: rest ∧ a ∈ ['e', 'E'] ∧ b ∈ ['x', 'X'] ∧ c ∈ ['i', 'I'] ∧ d ∈ ['t', 'T']

/-- The newest `n` of a list that has the oldest first. -/
def newest (n : Nat) (l : List (List Char)) : List (List Char) := (l.reverse.take n).reverse

inductive Event where
  | enter (t : List Char)
  | start

/-- `Run before events after shown`: the list before, the events, the list after, and what each start showed. -/
inductive Run : List (List Char) → List Event → List (List Char) → List (List (List Char)) → Prop where
  | nil {h} : Run h [] h []
  | exit {h t es h' s} : StartsWithExit t → Run h es h' s → Run h (.enter t :: es) h' s
  | enter {h t es h' s} : ¬ StartsWithExit t → Run (h ++ [t]) es h' s → Run h (.enter t :: es) h' s
  | start {h es h' s} : Run (newest 50 h) es h' s → Run h (.start :: es) h' (h.reverse :: s)

end Verif.Spec.History
