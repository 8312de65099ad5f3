/-
Specification of SQL scripts, independent of the scanner: a script is a list of lexical elements, and its
statements are read off that list.  Nothing here mentions indices, parser states or loops.
-/
namespace Verif.Script

/-- The body of a quoted literal delimited by `q`: ordinary characters, or a backslash followed by any character. -/
inductive LitBody (q : Char) : List Char → Prop
  | nil : LitBody q []
  | char {c : Char} {b : List Char} : c ≠ q → c ≠ '\\' → LitBody q b → LitBody q (c :: b)
  | esc {c : Char} {b : List Char} : LitBody q b → LitBody q ('\\' :: c :: b)

/-- The quote characters of a script. -/
def isQuote (c : Char) : Prop := c = '`' ∨ c = '"' ∨ c = '\''

instance (c : Char) : Decidable (isQuote c) := by unfold isQuote; infer_instance

/-- Lexical elements of a script. -/
inductive Tok where
  | plain (c : Char)                                  -- one ordinary character (`;` included)
  | lit (q : Char) (body : List Char)                 -- quoted literal
  | line (dashes : Bool) (body : List Char)           -- `--…⏎` or `#…⏎`
  | block (body : List Char)                          -- `/*…*/`
  deriving DecidableEq, Repr

/-- The text of an element. -/
def Tok.text : Tok → List Char
  | .plain c => [c]
  | .lit q b => q :: (b ++ [q])
  | .line true b => '-' :: '-' :: (b ++ ['\n'])
  | .line false b => '#' :: (b ++ ['\n'])
  | .block b => '/' :: '*' :: (b ++ ['*', '/'])

/-- The text of a list of elements. -/
def text (ts : List Tok) : List Char := ts.flatMap Tok.text

/-- No quote character (of the two kinds the comment scanner honours). -/
def NoQuote (b : List Char) : Prop := ∀ c ∈ b, c ≠ '"' ∧ c ≠ '\''

/-- An element is well formed.  Comments must not contain `"` or `'` — this is the restriction under
which the code treats comments as inert (see property C03). -/
def Tok.WF : Tok → Prop
  | .plain c => ¬ isQuote c ∧ c ≠ '#'
  | .lit q b => isQuote q ∧ LitBody q b
  | .line _ b => NoQuote b ∧ '\n' ∉ b
  | .block b => NoQuote b ∧ ¬ (['*', '/'] <:+: ('*' :: b))

/-- Two neighbouring elements do not form an accidental comment marker: a plain `-` is not followed by
`-`, and a `/` (plain, or closing a block comment) is not followed by `*`. -/
def Adj (t u : Tok) : Prop :=
  (t = .plain '-' → u.text.head? ≠ some '-') ∧
  ((t = .plain '/' ∨ ∃ b, t = .block b) → u.text.head? ≠ some '*')

/-- A well-formed script. -/
def WF : List Tok → Prop
  | [] => True
  | [t] => t.WF
  | t :: u :: ts => t.WF ∧ Adj t u ∧ WF (u :: ts)

/-- Number of newlines. -/
def newlines (s : List Char) : Nat := s.count '\n'

/-- Cut a list of elements at its plain `;` elements. 
-/
def pieces : List Tok → List (List Tok)
  | [] => [[]]
  | t :: ts =>
    if t = .plain ';' then [] :: pieces ts
    else match pieces ts with
      | [] => [[t]]
      | p :: ps => (t :: p) :: ps

/-- Drop what comes before the first letter of a piece. -/
def trimHead (isAlpha : Char → Bool) : List Tok → List Tok
  | [] => []
  | .plain c :: ts => if isAlpha c then .plain c :: ts else trimHead isAlpha ts
  | _ :: ts => trimHead isAlpha ts

/-- The statements of a script: the pieces, without what precedes their first letter, dropping those
without a letter outside literals and comments. -/
def statements (isAlpha : Char → Bool) (ts : List Tok) : List (List Char) :=
  ((pieces ts).map (fun p => text (trimHead isAlpha p))).filter (· ≠ [])

end Verif.Script

namespace Verif.Script

/-- A text that a scanner honouring the quote characters `quote` passes over without being inside a literal
at its end: ordinary characters and complete literals. -/
inductive Passed (quote : Char → Prop) : List Char → Prop
  | nil : Passed quote []
  | char {c : Char} {u : List Char} : ¬ quote c → Passed quote u → Passed quote (c :: u)
  | lit {q : Char} {b u : List Char} : quote q → LitBody q b → Passed quote u →
      Passed quote (q :: (b ++ q :: u))

/-- The two quote characters honoured inside comments. -/
def isQuote2 (c : Char) : Prop := c = '"' ∨ c = '\''

instance (c : Char) : Decidable (isQuote2 c) := by unfold isQuote2; infer_instance

/-- A text in which `m` occurs outside quoted literals. -/
def OccursOutside (quote : Char → Prop) (m s : List Char) : Prop :=
  ∃ u r, Passed quote u ∧ s = u ++ (m ++ r)

/-- A text that begins with a quote character but has no complete literal at its beginning. -/
def OpenLiteral (s : List Char) : Prop :=
  ∃ q t, isQuote q ∧ s = q :: t ∧ ¬ ∃ b r, LitBody q b ∧ t = b ++ q :: r

/-- A text that begins with `/*` but in which the comment is not closed outside quotes. -/
def OpenBlockComment (s : List Char) : Prop :=
  (∃ t, s = '/' :: '*' :: t) ∧ ¬ OccursOutside isQuote2 ['*', '/'] s

end Verif.Script
