import Verif.Model.Scalar
/-!
Model of the string functions (calculaters/mysql_funcs/string_funcs.py) and of `LIKE` (regexp_funcs.py:111-118).

Each function is given as `…Raw`, which is `none` when the Python function raises, and as SQL sees it (exceptions become NULL,
mysql_calculater.py:45-53).  The `typing_filter` decorators only declare the result type and are not modelled.
Arguments are numbers, texts, booleans and NULL; dates, bytes and collections are not modelled.
-/
namespace Verif.Str
open Verif.Val

/-! ### Python's operations on texts -/

/-- Python's resolution of a slice bound against a length. -/
def bound (n : Nat) (i : Int) : Nat := if i < 0 then (n + i).toNat else min i.toNat n

/-- Python `s[a:b]`; `none` is an absent (or `None`) bound. -/
def slice {α : Type} (s : List α) (a b : Option Int) : List α :=
  let lo := match a with | none => 0 | some i => bound s.length i
  let hi := match b with | none => s.length | some i => bound s.length i
  (s.drop lo).take (hi - lo)

/-- The integer an argument is when used as an index or count: `int` or `bool`; others raise `TypeError`. -/
def index : Val → Option Int
  | .int i => some i
  | .bool b => some (if b then 1 else 0)
  | _ => none

/-- A slice bound that may also be `None`. -/
def indexOrNone : Val → Option (Option Int)
  | .null => some none
  | v => (index v).map some

/-- Python `s.split(d)` for non-empty `d`: the first piece and the others; `cur` is the piece being read, reversed. -/
def splitGo (d : Str) (cur : Str) (s : Str) : List Str :=
  match s with
  | [] => [cur.reverse]
  | c :: t =>
    match d with
    | [] => [(cur.reverse ++ c :: t)]
    | x :: d' =>
      if (x :: d').isPrefixOf (c :: t) then cur.reverse :: splitGo (x :: d') [] (t.drop d'.length)
      else splitGo (x :: d') (c :: cur) t
  termination_by s.length
  decreasing_by all_goals (simp_wf; try omega)

/-- Python `s.split(d)`; an empty separator raises `ValueError`. -/
def split (s d : Str) : Option (List Str) := if d = [] then none else some (splitGo d [] s)

/-- Python `d.join(l)`. -/
def join (d : Str) : List Str → Str
  | [] => []
  | [s] => s
  | s :: l => s ++ d ++ join d l

/-- Python `s.replace(a, b)`: for an empty `a`, `b` is put before each character and at the end. -/
def replace (s a b : Str) : Str :=
  if a = [] then s.flatMap (fun c => b ++ [c]) ++ b else join b (splitGo a [] s)

/-- Python `a in s`. -/
def contains (s a : Str) : Bool := (List.range (s.length + 1)).any fun i => a.isPrefixOf (s.drop i)

/-- `l.index(x) + 1`, 0 for `ValueError`; Python's `==`. -/
def indexOf (eq : Val → Bool) : List Val → Nat
  | [] => 0
  | v :: l => if eq v then 1 else match indexOf eq l with | 0 => 0 | n + 1 => n + 2

/-- Python `x == y` on values (identity first, as `list.index` does). -/
def pyEq (a b : Val) : Bool := a = b || pyOp .eq a b = some true

/-- Length of the UTF-8 encoding. -/
def utf8Len (s : Str) : Nat := (s.map fun c => c.utf8Size).sum

/-! ### The functions -/

variable (py : Py)

/-- string_funcs.py:64-67 `mysql_bit_length` and 70-73 `mysql_length`: `s.encode` exists for texts only. -/
def lengthRaw : Val → Option Val
  | .null => some .null
  | .str s => some (.int (utf8Len s))
  | _ => none
/-- `mysql_bit_length`. -/
def bitLengthRaw : Val → Option Val
  | .null => some .null
  | .str s => some (.int (utf8Len s * 8))
  | _ => none
/-- `LENGTH` as it is called: exceptions become NULL (mysql_calculater.py:58-66). -/
def length (s : Val) : Val := caught (lengthRaw s)
/-- `BIT_LENGTH` as it is called: exceptions become NULL (mysql_calculater.py:58-66). -/
def bitLength (s : Val) : Val := caught (bitLengthRaw s)

/-- string_funcs.py:76-85 `mysql_char_length`, `mysql_character_length`. -/
def charLengthRaw : Val → Option Val
  | .null => some .null
  | v => (py.ensureStr v).map fun s => .int s.length
/-- `CHAR_LENGTH` as it is called: exceptions become NULL (mysql_calculater.py:58-66). -/
def charLength (s : Val) : Val := caught (charLengthRaw py s)

/-- string_funcs.py:88-89 `mysql_concat`. -/
def concatRaw (args : List Val) : Option Val := (args.mapM py.ensureStr).map fun l => .str l.flatten
/-- `CONCAT` as it is called: exceptions become NULL (mysql_calculater.py:58-66). -/
def concat (args : List Val) : Val := caught (concatRaw py args)

/-- string_funcs.py:92-93 `mysql_concat_ws`: the separator must be a text. -/
def concatWsRaw (sep : Val) (args : List Val) : Option Val :=
  match sep with
  | .str d => (args.mapM py.ensureStr).map fun l => .str (join d l)
  | _ => none
/-- `CONCAT_WS` as it is called: exceptions become NULL (mysql_calculater.py:58-66). -/
def concatWs (sep : Val) (args : List Val) : Val := caught (concatWsRaw py sep args)

/-- string_funcs.py:96-98 `mysql_insert`. -/
def insertRaw (s1 x l s2 : Val) : Option Val := do
  let s ← py.ensureStr s1
  let t ← py.ensureStr s2
  let x ← index x
  let l ← index l
  pure (.str (slice s none (some (x - 1)) ++ t ++ slice s (some (x + l - 1)) none))
/-- `INSERT` as it is called: exceptions become NULL (mysql_calculater.py:58-66). -/
def insert (s1 x l s2 : Val) : Val := caught (insertRaw py s1 x l s2)

/-- string_funcs.py:119-122 `mysql_left`. -/
def leftRaw (s x : Val) : Option Val :=
  if s = .null then some .null else do
    let t ← py.ensureStr s
    let i ← indexOrNone x
    pure (.str (slice t none i))
/-- `LEFT` as it is called: exceptions become NULL (mysql_calculater.py:58-66). -/
def left (s x : Val) : Val := caught (leftRaw py s x)

/-- string_funcs.py:125-128 `mysql_right`. -/
def rightRaw (s x : Val) : Option Val :=
  if s = .null then some .null else do
    let t ← py.ensureStr s
    let i ← index x
    pure (.str (slice t (some (-i)) none))
/-- `RIGHT` as it is called: exceptions become NULL (mysql_calculater.py:58-66). -/
def right (s x : Val) : Val := caught (rightRaw py s x)

/-- string_funcs.py:131-134 `mysql_trim` (blanks: the ASCII ones). -/
def trimRaw : Val → Option Val
  | .null => some .null
  | v => (py.ensureStr v).map fun s => .str (strip s)
/-- `TRIM` as it is called: exceptions become NULL (mysql_calculater.py:58-66). -/
def trim (s : Val) : Val := caught (trimRaw py s)

/-- `args[i]` of a Python tuple. -/
def item (args : List Val) (i : Int) : Option Val :=
  if 0 ≤ i then args[i.toNat]? else if 0 ≤ args.length + i then args[(args.length + i).toNat]? else none

/-- string_funcs.py:137-138 `mysql_elt`. -/
def eltRaw (n : Val) (args : List Val) : Option Val := do
  let i ← index n
  if i < args.length then item args (i - 1) else pure .null
/-- `ELT` as it is called: exceptions become NULL (mysql_calculater.py:58-66). -/
def elt (n : Val) (args : List Val) : Val := caught (eltRaw n args)

/-- string_funcs.py:141-147 `mysql_field`. -/
def field (s : Val) (args : List Val) : Val :=
  if s = .null then .null else .int (indexOf (fun v => pyEq v s) args)

/-- string_funcs.py:150-156 `mysql_find_in_set`. -/
def findInSetRaw (s ss : Val) : Option Val :=
  if s = .null then some .null else do
    let t ← py.ensureStr ss
    pure (.int (indexOf (fun v => pyEq v s) ((splitGo [','] [] t).map .str)))
/-- `FIND_IN_SET` as it is called: exceptions become NULL (mysql_calculater.py:58-66). -/
def findInSet (s ss : Val) : Val := caught (findInSetRaw py s ss)

/-- string_funcs.py:159-162 `mysql_replace`: the other arguments must be texts. -/
def replaceRaw (s a b : Val) : Option Val :=
  if s = .null then some .null else do
    let t ← py.ensureStr s
    match a, b with
    | .str a, .str b => pure (.str (replace t a b))
    | _, _ => none
/-- `REPLACE` as it is called: exceptions become NULL (mysql_calculater.py:58-66). -/
def mysqlReplace (s a b : Val) : Val := caught (replaceRaw py s a b)

/-- string_funcs.py:165-180 `mysql_substring`, `mysql_substr`; `l` absent is `None`; a length that is not an integer is
ignored. -/
def substringRaw (s n : Val) (l : Val) : Option Val :=
  if s = .null then some .null else do
    let t ← py.ensureStr s
    let n ← index n
    match index l with
    | some l => pure (.str (slice t (some (n - 1)) (some (n + l - 1))))
    | none => pure (.str (slice t (some (n - 1)) none))
/-- `SUBSTRING` as it is called: exceptions become NULL (mysql_calculater.py:58-66). -/
def substring (s n : Val) (l : Val := .null) : Val := caught (substringRaw py s n l)

/-- string_funcs.py:183-189 `mysql_substring_index`; the count is compared with 0 first (a float would raise only later). -/
def substringIndexRaw (s d c : Val) : Option Val :=
  if s = .null then some .null else do
    let t ← py.ensureStr s
    let d ← py.ensureStr d
    let c ← index c
    let l ← split t d
    if c < 0 then pure (.str (join d (slice l (some (-c)) none))) else pure (.str (join d (slice l none (some c))))
/-- `SUBSTRING_INDEX` as it is called: exceptions become NULL (mysql_calculater.py:58-66). -/
def substringIndex (s d c : Val) : Val := caught (substringIndexRaw py s d c)

/-- string_funcs.py:192-195 `mysql_repeat`: a count below 1 gives the empty text. -/
def repeatRaw (s c : Val) : Option Val :=
  if s = .null then some .null else do
    let t ← py.ensureStr s
    let c ← index c
    pure (.str (List.replicate c.toNat t).flatten)
/-- `REPEAT` as it is called: exceptions become NULL (mysql_calculater.py:58-66). -/
def mysqlRepeat (s c : Val) : Val := caught (repeatRaw py s c)

/-- string_funcs.py:198-201 `mysql_reverse`. -/
def reverseRaw : Val → Option Val
  | .null => some .null
  | v => (py.ensureStr v).map fun s => .str s.reverse
/-- `REVERSE` as it is called: exceptions become NULL (mysql_calculater.py:58-66). -/
def reverse (s : Val) : Val := caught (reverseRaw py s)

/-- Two texts or NULL (214-235). -/
def twoTexts (f : Str → Str → Val) (a b : Val) : Option Val :=
  if a = .null ∨ b = .null then some .null else do
    let s ← py.ensureStr a
    let t ← py.ensureStr b
    pure (f s t)
/-- string_funcs.py:204-208 `mysql_strcmp`. -/
def strcmp (a b : Val) : Val :=
  caught (twoTexts py (fun s t => if s = t then .int 0 else if strCmp s t = .lt then .int (-1) else .int 1) a b)
/-- string_funcs.py:211-215 `mysql_startswith`. -/
def startswith (a b : Val) : Val := caught (twoTexts py (fun s t => ofBool (t.isPrefixOf s)) a b)
/-- string_funcs.py:218-222 `mysql_endswith`. -/
def endswith (a b : Val) : Val := caught (twoTexts py (fun s t => ofBool (t.isSuffixOf s)) a b)
/-- string_funcs.py:225-232 `mysql_contains` (for values that are no collections the first attempt raises unless both are
texts). -/
def mysqlContains (a b : Val) : Val := caught (twoTexts py (fun s t => ofBool (contains s t)) a b)

/-! ### LIKE -/

/-- A piece of the regular expression `LIKE` is turned into: an escaped character, or `.*`. -/
inductive Tok where
  | lit (c : Char)
  | star
  deriving DecidableEq, Repr

/-- regexp_funcs.py:114, without the special case: `re.escape` (which leaves `%` and `_` alone since Python 3.7), the text
split at `%%`, `%` replaced by `.*` in the pieces, and the pieces joined with nothing between them. -/
def toks : Str → List Tok
  | [] => []
  | '%' :: '%' :: r => toks r
  | '%' :: r => .star :: toks r
  | c :: r => .lit c :: toks r

/-- regexp_funcs.py:114. -/
def likeToks (r : Str) : List Tok := if r = ['%', '%'] then [.star] else toks r

/-- `re.match`: the tokens match some prefix of the text.  `same` is equality of characters up to case; `.` matches
everything but a newline. -/
def reMatch (same : Char → Char → Bool) : List Tok → Str → Bool
  | [], _ => true
  | .lit c :: ts, s => match s with
    | [] => false
    | d :: s => same c d && reMatch same ts s
  | .star :: ts, s => reMatch same ts s || match s with
    | [] => false
    | d :: s => d ≠ '\n' && reMatch same (.star :: ts) s
  termination_by ts s => ts.length + s.length

/-- regexp_funcs.py:111-118 `mysql_like` without a third argument. -/
def likeRaw (same : Char → Char → Bool) (s r : Val) : Option Val :=
  if r = .null ∨ s = .null then some .null
  else match r, s with
    | .str r, .str s => some (ofBool (reMatch same (likeToks r) s))
    | .str _, _ => some (.int 0)
    | _, _ => none
/-- `LIKE` as it is called: exceptions become NULL (mysql_calculater.py:58-66). -/
def like (same : Char → Char → Bool) (s r : Val) : Val := caught (likeRaw same s r)

end Verif.Str
