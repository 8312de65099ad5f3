import Verif.Model.Regexp
/-!
What the matches of a pattern in a text are, independently of how they are looked for.
-/
namespace Verif.Spec.Regexp
open Verif.Val Verif.Regexp

/-- There is a match of length `n` at offset `i` of the text (looking at the whole text). -/
def Match (p : Pattern) (s : Str) (i n : Nat) : Prop := i ≤ s.length ∧ p.at_ (s.take i) (s.drop i) = some n

/-- The occurrences of a pattern in a text from offset `o` on: the leftmost match, then the leftmost one behind it, and so on;
each as offset and length. -/
inductive Occurrences (p : Pattern) (s : Str) : Nat → List (Nat × Nat) → Prop
  | none {o} : (∀ i n, o ≤ i → ¬ Match p s i n) → Occurrences p s o []
  | next {o i n l} : o ≤ i → Match p s i n → (∀ j k, o ≤ j → j < i → ¬ Match p s j k) →
      Occurrences p s (i + n) l → Occurrences p s o ((i, n) :: l)

/-- What `REGEXP_REPLACE` without an occurrence looks for, also for patterns with empty matches: the leftmost match, then the
leftmost one behind it; an empty match is not looked for again at the same place. -/
inductive Scan (p : Pattern) (s : Str) : Nat → List (Nat × Nat) → Prop
  | none {o} : (∀ i n, o ≤ i → ¬ Match p s i n) → Scan p s o []
  | next {o i n l} : o ≤ i → 0 < n → Match p s i n → (∀ j k, o ≤ j → j < i → ¬ Match p s j k) →
      Scan p s (i + n) l → Scan p s o ((i, n) :: l)
  | empty {o i l} : o ≤ i → Match p s i 0 → (∀ j k, o ≤ j → j < i → ¬ Match p s j k) →
      Scan p s (i + 1) l → Scan p s o ((i, 0) :: l)

/-- The text from offset `o` on with the given occurrences replaced by `rs`. -/
def replaced (s rs : Str) (o : Nat) : List (Nat × Nat) → Str
  | [] => s.drop o
  | (i, n) :: l => (s.drop o).take (i - o) ++ rs ++ replaced s rs (i + n) l

/-- A match does not reach over the end of the text (true of every engine). -/
def Sound (p : Pattern) : Prop := ∀ b r n, p.at_ b r = some n → n ≤ r.length

/-- The pattern has no empty match. -/
def NonEmpty (p : Pattern) : Prop := ∀ b r, p.at_ b r ≠ some 0

/-- Whether the pattern matches at a position does not depend on what is before it: no `^`, `\b`, lookbehind. -/
def ContextFree (p : Pattern) : Prop := ∀ b r, p.at_ b r = p.at_ [] r

/-- The replacement text is not a template. -/
def Plain (p : Pattern) (rs : Str) : Prop := ∀ b r, p.expand rs b r = some rs

end Verif.Spec.Regexp
