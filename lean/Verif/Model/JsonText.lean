import Verif.Model.Json
/-!
Model of JSON texts: json_funcs.py:170-176 `JSON_ENCODE`, `JSON_DECODE`, 315-322 `JSON_VALID`, and the reading of documents given as
texts by the other JSON functions (201-205, 217-221, 235-239, 246-250, 259-263, 270-274, 288-292, 302-306).

`json.dumps` (with `ensure_ascii=False`) and `json.loads` of Python's standard library are written out.  Not modelled: values that are not
JSON (written as the text `str` gives), keys that are not texts, NaN and the infinities, `\u` escapes that are half of a pair and no
pair (no `Char`), and Python's limits on depth and on the digits of integers.
-/
namespace Verif.JsonText
open Verif.Val Verif.Json

/-! ### Writing -/

/-- A hexadecimal digit. -/
def hexDigit (n : Nat) : Char := if n < 10 then Char.ofNat (48 + n) else Char.ofNat (87 + n)

/-- One character of a text, `ESCAPE_DCT` of the standard library. -/
def escape (c : Char) : Str :=
  if c = '"' then ['\\', '"'] else if c = '\\' then ['\\', '\\'] else if c = '\n' then ['\\', 'n'] else if c = '\r' then ['\\', 'r']
  else if c = '\t' then ['\\', 't'] else if c.toNat = 12 then ['\\', 'f'] else if c.toNat = 8 then ['\\', 'b']
  else if c.toNat < 32 then ['\\', 'u', '0', '0', hexDigit (c.toNat / 16), hexDigit (c.toNat % 16)] else [c]

/-- A text in quotes. -/
def quote (s : Str) : Str := '"' :: s.flatMap escape ++ ['"']

mutual
/-- `json.dumps(value, ensure_ascii=False)` (json_funcs.py:171). -/
def dumps (py : Py) : J → Str
  | .null => ['n', 'u', 'l', 'l']
  | .bool true => ['t', 'r', 'u', 'e']
  | .bool false => ['f', 'a', 'l', 's', 'e']
  | .int i => intText i
  | .flt q => py.floatText q
  | .str s => quote s
  | .arr [] => ['[', ']']
  | .arr (x :: l) => '[' :: (dumps py x ++ (dumpsL py l ++ [']']))
  | .obj [] => ['{', '}']
  | .obj ((k, x) :: d) => '{' :: (quote k ++ (':' :: ' ' :: (dumps py x ++ (dumpsO py d ++ ['}']))))
/-- The elements after the first. -/
def dumpsL (py : Py) : List J → Str
  | [] => []
  | x :: l => ',' :: ' ' :: (dumps py x ++ dumpsL py l)
/-- The members after the first. -/
def dumpsO (py : Py) : List (Str × J) → Str
  | [] => []
  | (k, x) :: d => ',' :: ' ' :: (quote k ++ (':' :: ' ' :: (dumps py x ++ dumpsO py d)))
end

/-! ### Reading -/

/-- Blanks (`WHITESPACE`). -/
def skip (s : Str) : Str := s.dropWhile fun c => c = ' ' || c = '\t' || c = '\n' || c = '\r'

/-- The value of a hexadecimal digit. -/
def hexVal (c : Char) : Option Nat :=
  if '0' ≤ c ∧ c ≤ '9' then some (c.toNat - 48) else if 'a' ≤ c ∧ c ≤ 'f' then some (c.toNat - 87)
  else if 'A' ≤ c ∧ c ≤ 'F' then some (c.toNat - 55) else none

/-- Four of them. -/
def hex4 (a b c d : Char) : Option Nat :=
  (hexVal a).bind fun a => (hexVal b).bind fun b => (hexVal c).bind fun c => (hexVal d).map fun d => ((a * 16 + b) * 16 + c) * 16 + d

/-- `BACKSLASH` of the standard library. -/
def simple (e : Char) : Option Nat :=
  if e = '"' then some 34 else if e = '\\' then some 92 else if e = '/' then some 47 else if e = 'b' then some 8
  else if e = 'f' then some 12 else if e = 'n' then some 10 else if e = 'r' then some 13 else if e = 't' then some 9 else none

/-- `scanstring` after the opening quote, strict: the codes of the text and what comes after the closing quote. -/
def units : Str → Option (List Nat × Str)
  | [] => none
  | c :: s =>
    if c = '"' then some ([], s)
    else if c = '\\' then
      match s with
      | 'u' :: a :: b :: c :: d :: s => (hex4 a b c d).bind fun n => (units s).map fun r => (n :: r.1, r.2)
      | e :: s => (simple e).bind fun n => (units s).map fun r => (n :: r.1, r.2)
      | [] => none
    else if c.toNat < 32 then none else (units s).map fun r => (c.toNat :: r.1, r.2)

/-- The characters of the codes: two halves of a pair are one character. -/
def chars : List Nat → Option Str
  | [] => some []
  | n :: l =>
    if 0xD800 ≤ n ∧ n < 0xDC00 then
      match l with
      | m :: l => if 0xDC00 ≤ m ∧ m < 0xE000 then (chars l).map (Char.ofNat (0x10000 + (n - 0xD800) * 1024 + (m - 0xDC00)) :: ·) else none
      | [] => none
    else if 0xDC00 ≤ n ∧ n < 0xE000 then none
    else (chars l).map (Char.ofNat n :: ·)

/-- A text after its opening quote. -/
def string (s : Str) : Option (Str × Str) := (units s).bind fun r => (chars r.1).map fun t => (t, r.2)

/-- `0|[1-9]\d*`. -/
def intPart : Str → Option (Str × Str)
  | [] => none
  | c :: s => if c = '0' then some (['0'], s) else if isDigit c then some (c :: s.takeWhile isDigit, s.dropWhile isDigit) else none

/-- `(\.\d+)?`. -/
def fracPart (s : Str) : Str × Str :=
  match s with
  | '.' :: r => if r.takeWhile isDigit = [] then ([], s) else ('.' :: r.takeWhile isDigit, r.dropWhile isDigit)
  | _ => ([], s)

/-- `[-+]?`. -/
def signPart (s : Str) : Str × Str :=
  match s with
  | '-' :: r => (['-'], r)
  | '+' :: r => (['+'], r)
  | _ => ([], s)

/-- `([eE][-+]?\d+)?`. -/
def expPart (s : Str) : Str × Str :=
  match s with
  | c :: r => if (c = 'e' ∨ c = 'E') ∧ (signPart r).2.takeWhile isDigit ≠ [] then
      (c :: (signPart r).1 ++ (signPart r).2.takeWhile isDigit, (signPart r).2.dropWhile isDigit) else ([], s)
  | [] => ([], s)

/-- `NUMBER_RE`: `(-?(?:0|[1-9]\d*))(\.\d+)?([eE][-+]?\d+)?`. -/
def number (py : Py) (s : Str) : Option (J × Str) :=
  let g := if s.head? = some '-' then (['-'], s.tail) else ([], s)
  (intPart g.2).bind fun i =>
    let f := fracPart i.2
    let e := expPart f.2
    if f.1 = [] ∧ e.1 = [] then (simpleInt (g.1 ++ i.1)).map fun n => (.int n, e.2)
    else (py.float (g.1 ++ i.1 ++ f.1 ++ e.1)).map fun q => (.flt q, e.2)

/-- The words. -/
def word (py : Py) (s : Str) : Option (J × Str) :=
  match s with
  | 'n' :: 'u' :: 'l' :: 'l' :: r => some (.null, r)
  | 't' :: 'r' :: 'u' :: 'e' :: r => some (.bool true, r)
  | 'f' :: 'a' :: 'l' :: 's' :: 'e' :: r => some (.bool false, r)
  | s => number py s

mutual
/-- `scan_once`: the value that stands at the beginning, and what comes after it. The number bounds the depth of the calls. -/
def value (py : Py) : Nat → Str → Option (J × Str)
  | 0, _ => none
  | n + 1, s =>
    match s with
    | '"' :: s => (string s).map fun r => (.str r.1, r.2)
    | '[' :: s =>
      match skip s with
      | ']' :: s => some (.arr [], s)
      | s => (elements py n s).map fun r => (.arr r.1, r.2)
    | '{' :: s =>
      match skip s with
      | '}' :: s => some (.obj [], s)
      | s => (members py n [] s).map fun r => (.obj r.1, r.2)
    | s => word py s
/-- `JSONArray`. -/
def elements (py : Py) : Nat → Str → Option (List J × Str)
  | 0, _ => none
  | n + 1, s => (value py n s).bind fun r =>
    match skip r.2 with
    | ']' :: s => some ([r.1], s)
    | ',' :: s => (elements py n (skip s)).map fun t => (r.1 :: t.1, t.2)
    | _ => none
/-- `JSONObject`, with the members so far: `dict(pairs)`, a later member of the same name replaces the value of an earlier one. -/
def members (py : Py) : Nat → List (Str × J) → Str → Option (List (Str × J) × Str)
  | 0, _, _ => none
  | n + 1, d, s =>
    match s with
    | '"' :: s => (string s).bind fun k =>
      match skip k.2 with
      | ':' :: s => (value py n (skip s)).bind fun r =>
        match skip r.2 with
        | '}' :: s => some (put k.1 r.1 d, s)
        | ',' :: s => members py n (put k.1 r.1 d) (skip s)
        | _ => none
      | _ => none
    | _ => none
end

/-- `json.loads(text)`; `none`: `ValueError`. -/
def loads (py : Py) (s : Str) : Option J :=
  (value py (s.length + 1) (skip s)).bind fun r => if skip r.2 = [] then some r.1 else none

/-! ### The functions -/

/-- json_funcs.py:170-171 `mysql_json_encode`. -/
def jsonEncode (py : Py) (j : J) : J := .str (dumps py j)

/-- json_funcs.py:173-176 `mysql_json_decode`; the `ValueError` makes NULL (mysql_calculater.py:58-66). -/
def jsonDecode (py : Py) : J → J
  | .str s => (loads py s).getD .null
  | _ => .null

/-- json_funcs.py:314-322 `mysql_json_valid`. -/
def jsonValid (py : Py) : J → J
  | .str s => .int (if (loads py s).isSome then 1 else 0)
  | _ => .int 1

/-- json_funcs.py:235-239 and in the other functions: a text is read, if it can be. -/
def document (py : Py) : J → J
  | .str s => (loads py s).getD (.str s)
  | j => j

/-- json_funcs.py:234-243 `JSON_EXTRACT` of what the caller passes. -/
def jsonExtract (py : Py) (j : J) (paths : List Str) : J := extract (document py j) paths
/-- json_funcs.py:216-231 `JSON_CONTAINS_PATH` of what the caller passes. -/
def jsonContainsPath (py : Py) (j : J) (all : Bool) (paths : List Str) : Option Bool := containsPath (document py j) all paths
/-- json_funcs.py:200-212 `JSON_CONTAINS` of what the caller passes. -/
def jsonContains (py : Py) (target candidate : J) (path : Str) : Option Bool :=
  contains (document py target) (document py candidate) path
/-- json_funcs.py:268-283 `JSON_DEPTH` of what the caller passes. -/
def jsonDepth (py : Py) (j : J) : Nat := depth (document py j)
/-- json_funcs.py:285-297 `JSON_KEYS` of what the caller passes. -/
def jsonKeys (py : Py) (j : J) (path : Str) : List Str := keys (document py j) path
/-- json_funcs.py:299-311 `JSON_LENGTH` of what the caller passes. -/
def jsonLength (py : Py) (j : J) (path : Str) : Nat := length (document py j) path
/-- json_funcs.py:245-255 `JSON_SET` on lists and dictionaries. -/
def jsonSetOf (py : Py) (j : J) (kvs : List (Str × J)) : J := jsonSet (document py j) kvs
/-- json_funcs.py:257-266 `JSON_REMOVE` of what the caller passes. -/
def jsonRemoveOf (py : Py) (j : J) (paths : List Str) : J := jsonRemove (document py j) paths

end Verif.JsonText
