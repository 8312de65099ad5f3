import Verif.Basic
/-!
Model of the interactive history file: prompt.py:157-191 `CliFileHistory`.

The file is its text (`List Char`): it is read and written in binary, line by line, and no byte of a multi-byte UTF-8 character is
a line feed, so lines of bytes are lines of characters; a write cut inside a character is taken as cut before it.
`FileHistory.store_string`, which prompt.py:191 calls, is prompt_toolkit's: it appends `"\n# <time>\n"` and one line `+…` per line of
the entry.
-/
namespace Verif.History

/-- Texts. -/
abbrev Text := List Char

/-- prompt.py:162 `for line_bytes in f`: the lines, each with its line feed (the last one possibly without). -/
def fileLines : Text → List Text
  | [] => []
  | c :: cs =>
    if c = '\n' then [c] :: fileLines cs
    else match fileLines cs with
      | [] => [[c]]
      | l :: ls => (c :: l) :: ls

/-- One entry as read: the `#` line seen last, and the text. -/
structure Entry where
  time : Text
  text : Text
deriving DecidableEq, Repr

/-- prompt.py:159: `strings`/`time_strings`, `lines`, `time_line`. -/
structure St where
  entries : List Entry
  lines : List Text
  time : Text

/-- prompt.py:171-173, 176-178: `"".join(lines)[:-1]`. -/
def flush (s : St) : St :=
  if s.lines = [] then s
  else { entries := s.entries ++ [{ time := s.time, text := s.lines.flatten.dropLast }], lines := [], time := s.time }

/-- prompt.py:163-173: one line of the file. -/
def step (s : St) (line : Text) : St :=
  match line with
  | '#' :: _ => flush { s with time := line }
  | '+' :: rest => { s with lines := s.lines ++ [rest] }
  | _ => flush s

/-- prompt.py:159-178: the entries of the file, oldest first (an absent file is an empty one). -/
def load (file : Text) : List Entry :=
  (flush ((fileLines file).foldl step { entries := [], lines := [], time := [] })).entries

/-- Python `str.split("\n")`. -/
def splitNl : Text → List Text
  | [] => [[]]
  | c :: cs =>
    if c = '\n' then [] :: splitNl cs
    else match splitNl cs with
      | [] => [[c]]
      | l :: ls => (c :: l) :: ls

/-- prompt.py:185-186 (and prompt_toolkit's `store_string`): one line `+…` per line of the entry. -/
def plusLines (text : Text) : Text := (splitNl text).flatMap fun l => '+' :: l ++ ['\n']

/-- prompt.py:184-186: how the trimmed file writes an entry; the `#` line it kept still has its line feed. -/
def rewriteEntry (e : Entry) : Text := '\n' :: e.time ++ plusLines e.text

/-- prompt.py:182-186: the last 50 entries. -/
def rewrite (es : List Entry) : Text := (es.drop (es.length - 50)).flatMap rewriteEntry

/-- prompt.py:158-187 `load_history_strings`: the texts handed to the prompt, newest first, and the file afterwards. -/
def openHistory (file : Text) : List Text × Text :=
  let es := load file
  ((es.map (·.text)).reverse, if es.length ≤ 50 then file else rewrite es)

/-- prompt.py:158-187: what the file can hold at some moment of `load_history_strings`: opening it to write (182) empties it, then
the text is written from its beginning. -/
def DuringOpen (file state : Text) : Prop := state = file ∨ (50 < (load file).length ∧ state <+: rewrite (load file))

/-- prompt_toolkit's `FileHistory.store_string`: what it appends. -/
def record (now : Text) (text : Text) : Text := '\n' :: '#' :: ' ' :: now ++ '\n' :: plusLines text

/-- prompt.py:189-190 `string.lower()[:4] == "exit"`. -/
def isExit (text : Text) : Bool := (text.map Char.toLower).take 4 = "exit".toList

/-- prompt.py:189-192 `store_string`. -/
def store (now : Text) (text : Text) (file : Text) : Text :=
  if isExit text then file else file ++ record now text

/-- What happens to the history file: the prompt is opened, or a text is entered. -/
inductive Op where
  | enter (now text : Text)
  | start

/-- The file after the operations, and what each start of the prompt was given. -/
def run : Text → List Op → Text × List (List Text)
  | file, [] => (file, [])
  | file, .enter now text :: ops => run (store now text file) ops
  | file, .start :: ops =>
    let r := openHistory file
    let r' := run r.2 ops
    (r'.1, r.1 :: r'.2)

end Verif.History
