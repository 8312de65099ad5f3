import Verif.Model.Stop
/-! C177: a signal stops the script. -/
namespace Verif.Props.StopLemmas
open Verif.Stop

variable {A : Type}

theorem runAll_none (l : List (Stmt A)) : runAll none l = (actsAll l, .goesOn none) := by
  induction l with
  | nil => rfl
  | cons s l ih => simp only [runAll, run, ih, actsAll]

mutual
/-- A signal that comes later does not disturb. -/
theorem run_later (s : Stmt A) (n : Nat) : run (some ((acts s).length + n)) s = (acts s, .goesOn (some n)) := by
  match s with
  | .query d f s =>
    show run (some ((d ++ f ++ s).length + n)) (.query d f s) = (d ++ f ++ s, .goesOn (some n))
    rw [run, if_neg (by simp only [List.length_append]; omega), if_neg (by omega), Nat.add_sub_cancel_left]
  | .other a =>
    show run (some (a.length + n)) (.other a) = (a, .goesOn (some n))
    rw [run, if_neg (by omega), Nat.add_sub_cancel_left]
  | .file b => exact runAll_later b n
theorem runAll_later (l : List (Stmt A)) (n : Nat) : runAll (some ((actsAll l).length + n)) l = (actsAll l, .goesOn (some n)) := by
  match l with
  | [] => simp only [actsAll, runAll, List.length_nil, Nat.zero_add]
  | s :: l =>
    have e : (actsAll (s :: l)).length + n = (acts s).length + ((actsAll l).length + n) := by
      simp only [actsAll, List.length_append]; omega
    rw [e]
    simp only [runAll, run_later s, runAll_later l, actsAll]
end

theorem runAll_append (pre post : List (Stmt A)) (sig : Option Nat) : runAll sig (pre ++ post) =
    match runAll sig pre with
    | (a, .stopped) => (a, .stopped)
    | (a, .goesOn sig) => (a ++ (runAll sig post).1, (runAll sig post).2) := by
  induction pre generalizing sig with
  | nil => simp only [List.nil_append, runAll]
  | cons s pre ih =>
    rcases hr : run sig s with ⟨a, _ | sig'⟩
    · simp only [List.cons_append, runAll, hr, ih]
      rename_i sig'
      rcases runAll sig' pre with ⟨b, _ | _⟩ <;> simp only [List.append_assoc]
    · simp only [List.cons_append, runAll, hr]

end Verif.Props.StopLemmas

namespace Verif.Props
open Verif.Stop StopLemmas

variable {A : Type}

/-- **C177** (full statement: after a signal nothing more is done; false, see `C177_lost_violated`).  Proved: a signal before the `n`-th
action of a query, in its subqueries or its first pass, stops the script: what was done before stays done, the subqueries of this
query are finished if they were not, nothing else is done, and none of the statements after it. -/
theorem C177_stops_partial (pre post : List (Stmt A)) (d f s : List A) (n : Nat) (hn : n < d.length + f.length) :
    runAll (some ((actsAll pre).length + n)) (pre ++ .query d f s :: post) = (actsAll pre ++ (d ++ f).take (max n d.length), .stopped) := by
  rw [runAll_append, runAll_later]
  simp only [runAll, run, List.length_append, if_pos hn]

/-- **C177**: in particular, when there are no subqueries or they have ended, exactly the actions before the signal are done. -/
theorem C177_at_once_partial (pre post : List (Stmt A)) (d f s : List A) (n : Nat) (hd : d.length ≤ n) (hn : n < d.length + f.length) :
    runAll (some ((actsAll pre).length + n)) (pre ++ .query d f s :: post) =
      ((actsAll (pre ++ .query d f s :: post)).take ((actsAll pre).length + n), .stopped) := by
  have app : ∀ l m : List (Stmt A), actsAll (l ++ m) = actsAll l ++ actsAll m := by
    intro l m
    induction l with
    | nil => rfl
    | cons s l ih => simp only [List.cons_append, actsAll, ih, List.append_assoc]
  rw [C177_stops_partial pre post d f s n hn, Nat.max_eq_left hd, app]
  simp only [actsAll, acts, List.take_length_add_append, List.append_assoc]
  congr 2
  have e : d ++ (f ++ (s ++ actsAll post)) = (d ++ f) ++ (s ++ actsAll post) := by simp
  rw [e, List.take_append_of_le_length (l₁ := d ++ f) (by rw [List.length_append]; omega)]

/-- **C177**: a file that is executed is stopped like the statements in its place. -/
theorem C177_file (pre post body : List (Stmt A)) (sig : Option Nat) :
    runAll sig (pre ++ .file body :: post) = runAll sig (pre ++ body ++ post) := by
  have h : ∀ sig, runAll sig (Stmt.file body :: post) = runAll sig (body ++ post) := by
    intro sig
    rw [runAll_append]
    cases sig with
    | none => simp only [runAll, run, runAll_none, acts]
    | some n =>
      simp only [runAll, run]
      rcases runAll (some n) body with ⟨a, sig' | _⟩ <;> rfl
  rw [List.append_assoc, runAll_append, runAll_append]
  rcases runAll sig pre with ⟨a, sig' | _⟩
  · simp only [h]
  · rfl

/-- **C177 is violated**: a signal during the second pass of a query, in a statement without a query, between two statements or while
statements are compiled is lost: all that follows is done as if there had been none. -/
theorem C177_lost_violated (pre post : List (Stmt A)) (d f s a : List A) (n : Nat) :
    (d.length + f.length ≤ n → n < d.length + f.length + s.length →
      runAll (some ((actsAll pre).length + n)) (pre ++ .query d f s :: post) = (actsAll (pre ++ .query d f s :: post), .goesOn none)) ∧
    (n < a.length →
      runAll (some ((actsAll pre).length + n)) (pre ++ .other a :: post) = (actsAll (pre ++ .other a :: post), .goesOn none)) := by
  have app : ∀ l m : List (Stmt A), actsAll (l ++ m) = actsAll l ++ actsAll m := by
    intro l m
    induction l with
    | nil => rfl
    | cons s l ih => simp only [List.cons_append, actsAll, ih, List.append_assoc]
  refine ⟨fun h1 h2 => ?_, fun h => ?_⟩
  · rw [runAll_append, runAll_later, app]
    simp only [runAll, run, List.length_append, if_neg (Nat.not_lt.2 h1), if_pos h2, runAll_none, actsAll, acts]
  · rw [runAll_append, runAll_later, app]
    simp only [runAll, run, if_pos h, runAll_none, actsAll, acts]

/-- A grouped query after another statement: stopped in its first pass, not in its second. -/
example : runAll (some 3) [.other [1], .query [2] [3, 4] [5], .query [] [6] []] = ([1, 2, 3], .stopped) ∧
    runAll (some 1) [.other [1], .query [2] [3, 4] [5], .query [] [6] []] = ([1, 2], .stopped) ∧
    runAll (some 4) [.other [1], .query [2] [3, 4] [5], .query [] [6] []] = ([1, 2, 3, 4, 5, 6], .goesOn none) := by
  refine ⟨rfl, rfl, rfl⟩

end Verif.Props
