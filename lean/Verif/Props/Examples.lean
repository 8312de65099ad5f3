import Verif.Props.Parser
import Verif.Props.Command
import Verif.Props.Value
/-! Concrete cases of the hypotheses of C02, C04, C05, C49 and C82. -/
namespace Verif.Props
open Verif.Parser Verif.Script

/-- C02: a script with a comment, two statements and a `;` in a literal is split, and the second statement is on line 2. -/
example : ∃ segs, split Char.isAlpha "a;--x\nb ';' ;".toList = .ok segs ∧ segs = [⟨"a".toList, 1⟩, ⟨"b ';' ".toList, 2⟩] :=
  ⟨_, by decide +kernel, rfl⟩

/-- C04: an open literal makes splitting fail, and a script without quotes and `/*` meets the second clause. -/
example : (∃ p, split Char.isAlpha "a 'b;".toList = .error p) ∧ (∀ c ∈ "a - b; c".toList, ¬ isQuote c) ∧
    ¬ (['/', '*'] <:+: ("a - b; c".toList)) := by
  refine ⟨?_, by decide, ?_⟩
  · have : (match split Char.isAlpha "a 'b;".toList with | .error _ => true | .ok _ => false) = true := by decide +kernel
    cases h : split Char.isAlpha "a 'b;".toList with
    | error p => exact ⟨p, rfl⟩
    | ok s => rw [h] at this; cases this
  · rintro ⟨a, b, h⟩
    have h1 : '/' ∈ "a - b; c".toList := by rw [← h]; simp
    exact absurd h1 (by decide)

/-- C05: `'it\'s' x` is a literal with an escaped quote. -/
example : LitBody '\'' ['i', 't', '\\', '\'', 's'] ∧ (P.init ['\'', 'i', 't', '\\', '\'', 's', '\'', 'x']).rest
    = '\'' :: (['i', 't', '\\', '\'', 's'] ++ '\'' :: ['x']) :=
  ⟨.char (by decide) (by decide) (.char (by decide) (by decide) (.esc (.char (by decide) (by decide) .nil))), rfl⟩

/-- C49: `select ';'` is not submitted, `select ';';` is. -/
example : needsMoreInput (· = ' ') "select ';' ".toList = true ∧ needsMoreInput (· = ' ') "select ';'; ".toList = false ∧
    strip (· = ' ') "select ';' ".toList ≠ [] ∧ (strip (· = ' ') "select ';' ".toList).take 4 ≠ "exit".toList := by
  decide +kernel

/-- C82: ` @x = 1 ` says that `@x` is `1`, and `x` is a variable's name. -/
example : Spec.Command.Says " @x = 1 ".toList "@x".toList "1".toList ∧ Spec.Command.VarName "x".toList ∧
    Spec.Command.Says "GLOBAL @x=1".toList ("GLOBAL".toList ++ ' ' :: '@' :: "x".toList) "1".toList ∧
    Spec.Command.Says "@options.a = 1".toList ('@' :: Str.join ['.'] ["options".toList, "a".toList]) "1".toList := by
  refine ⟨⟨⟨by decide, by decide, by decide⟩, by decide, ⟨by decide, by decide, by decide⟩, [' '], [' '], [' '], [' '], by decide, by decide⟩,
    by unfold Spec.Command.VarName; decide, ⟨⟨by decide, by decide, by decide⟩, by decide, ⟨by decide, by decide, by decide⟩, [], [], [], [], by decide, by decide⟩,
    ⟨⟨by decide, by decide, by decide⟩, by decide, ⟨by decide, by decide, by decide⟩, [], [' '], [' '], [], by decide, by decide⟩⟩

end Verif.Props
