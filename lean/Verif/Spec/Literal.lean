import Verif.Model.Literal
/-! What literals and `INSERT … VALUES` mean. -/
namespace Verif.SqlLiteral
open Verif.Val Verif.Literal

/-- How a character is written inside a quoted literal: backslash and control characters are escaped. -/
def written (c : Char) : List Char :=
  if c = '\\' then ['\\', '\\']
  else if c = '\n' then ['\\', 'n']
  else if c = '\t' then ['\\', 't']
  else if c = '\r' then ['\\', 'r']
  else [c]

/-- The number written with digits of a base. -/
def number (base : Nat) (ds : List Nat) : Nat := ds.foldl (fun n d => base * n + d) 0

/-- How a hexadecimal digit is written, in lower or upper case. -/
def hexChar (d : Fin 16) (upper : Bool) : Char :=
  if d.val < 10 then Char.ofNat (48 + d.val) else if upper then Char.ofNat (55 + d.val) else Char.ofNat (87 + d.val)

/-- How an octal digit is written. -/
def octChar (d : Fin 8) : Char := Char.ofNat (48 + d.val)

/-- The letters that stand for a control character behind a backslash. -/
def control : List (Char × Nat) := [('a', 7), ('b', 8), ('t', 9), ('n', 10), ('v', 11), ('f', 12), ('r', 13)]

/-- The pieces of a literal: characters and Python's escapes. -/
inductive Piece where
  /-- a character for itself -/
  | char (c : Char)
  /-- backslash and quotes behind a backslash -/
  | quoted (c : Char)
  | control (a : Char) (n : Nat)
  /-- a character by its code, in hexadecimal digits -/
  | hex (ds : List (Fin 16 × Bool))
  /-- a character by its code, in octal digits -/
  | oct (ds : List (Fin 8))
  /-- a backslash before a line end -/
  | joined
  /-- a backslash before any other character -/
  | other (a : Char)

/-- The letter of a code of so many digits. -/
def hexMark : Nat → Char
  | 2 => 'x'
  | 4 => 'u'
  | _ => 'U'

/-- How a piece is written. -/
def Piece.text : Piece → List Char
  | .char c => [c]
  | .quoted c => ['\\', c]
  | .control a _ => ['\\', a]
  | .hex ds => '\\' :: hexMark ds.length :: ds.map fun d => hexChar d.1 d.2
  | .oct ds => '\\' :: ds.map octChar
  | .joined => ['\\', '\n']
  | .other a => ['\\', a]

/-- What it stands for. -/
def Piece.means : Piece → List Char
  | .char c => [c]
  | .quoted c => [c]
  | .control _ n => [Char.ofNat n]
  | .hex ds => [Char.ofNat (number 16 (ds.map fun d => d.1.val))]
  | .oct ds => [Char.ofNat (number 8 (ds.map Fin.val))]
  | .joined => []
  | .other a => ['\\', a]

/-- The piece is one. Characters of the codes 128 to 256 are left out (see C110). -/
def Piece.Ok : Piece → Prop
  | .char c => c ≠ '\\' ∧ (c.toNat < 128 ∨ 256 < c.toNat)
  | .quoted c => c = '\\' ∨ c = '\'' ∨ c = '"'
  | .control a n => (a, n) ∈ SqlLiteral.control
  | .hex ds => (ds.length = 2 ∨ ds.length = 4 ∨ ds.length = 8) ∧ (number 16 (ds.map fun d => d.1.val)).isValidChar
  | .oct ds => 1 ≤ ds.length ∧ ds.length ≤ 3
  | .joined => True
  | .other a => a.toNat < 128 ∧ a ∉ ['\\', '\'', '"', 'a', 'b', 't', 'n', 'v', 'f', 'r', 'x', 'u', 'U', 'N', '\n',
      '0', '1', '2', '3', '4', '5', '6', '7']

/-- Behind an octal code of less than three digits there is no other octal digit. -/
def Ends (ps : List Piece) : Prop :=
  ∀ a ds c b, ps = a ++ .oct ds :: .char c :: b → ds.length = 3 ∨ ∀ d, c ≠ octChar d

/-- The number or truth value written, with its signs; variables have their value. `minus`: SQL's unary minus on the values that
are not numbers. -/
def value (env : Str → Option Val) (minus : Val → Val) : CE → Val
  | .int n | .hex n | .bit n => .int n
  | .float q => .flt q
  | .text s => .str s
  | .bool b => .bool b
  | .null => .null
  | .param name => (env ('@' :: name)).getD .null
  | .neg e => match value env minus e with
    | .int i => .int (-i)
    | .flt q => .flt (-q)
    | .null => .null
    | v => minus v
  | .other => .null

/-- The records of `INSERT INTO t (names) VALUES rows`: the i-th value under the i-th name, NULL where there is no value. -/
def records (names : List Str) (rows : List (List Val)) : List (List (Str × Val)) :=
  rows.map fun r => names.zip (r ++ List.replicate (names.length - r.length) .null)

end Verif.SqlLiteral
