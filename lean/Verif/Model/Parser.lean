/-
Model of `syncanysql/parser.py` (class `SqlParser`) and of the two users of its scanner in
`syncanysql/compiler.py` (`parse_mapping`, `to_sql`) and `syncanysql/prompt.py` (`check_complete`).

Simplifications, valid for the whole file:
* A Python `str` is a `List Char`.
* The parser object (fields `sql`, `index`, `lineno`, `len`; parser.py:21-25) is a zipper:
  `pre` is the consumed text *reversed*, `rest` the text from `index` on, so
  `index = pre.length` and `sql = pre.reverse ++ rest`.
* `EOFError` is `Except.error` carrying the parser state at the time of the raise (the callers that
  catch it go on using the mutated parser).
* `str.isalpha` is a parameter `isAlpha : Char → Bool`: every theorem holds whatever the Unicode table says.
-/
namespace Verif.Parser

/-- The parser object; parser.py:21-25 (`__init__`). -/
structure P where
  pre : List Char
  rest : List Char
  line : Nat
  deriving DecidableEq, Repr

/-- parser.py:21-25 `__init__`: index 0, lineno 1. -/
def P.init (sql : List Char) : P := ⟨[], sql, 1⟩

/-- `self.index`. -/
def P.index (p : P) : Nat := p.pre.length

/-- `self.sql`. -/
def P.sql (p : P) : List Char := p.pre.reverse ++ p.rest

/-- Python slice `self.sql[i: j]` for `0 ≤ i`, `0 ≤ j`. -/
def P.slice (p : P) (i j : Nat) : List Char := (p.sql.drop i).take (j - i)

/-- parser.py:27-32 `next`: advance one character, counting newlines; no effect at the end. -/
def P.next (p : P) : P :=
  match p.rest with
  | [] => p
  | d :: r => ⟨d :: p.pre, r, if d = '\n' then p.line + 1 else p.line⟩

/-- parser.py:45-49: number of backslashes immediately before the current index. -/
def bsCount (pre : List Char) : Nat := (pre.takeWhile (· = '\\')).length

/-- parser.py:41-56, the `while` loop of `skip_escape`.  In the code `backslash` ends at
`index - 1 - n` for `n = bsCount pre`, hence `index - backslash + 1 = n + 2`. -/
def skipLoop (c : Char) : List Char → List Char → Nat → Except P P
  | pre, [], line => .error ⟨pre, [], line⟩
  | pre, d :: r, line =>
    let line' := if d = '\n' then line + 1 else line
    if d ≠ c then skipLoop c (d :: pre) r line'
    else if (bsCount pre + 2) % 2 ≠ 0 then skipLoop c (d :: pre) r line'
    else .ok ⟨d :: pre, r, line'⟩

/-- parser.py:38-56 `skip_escape`: consume the opening quote, then up to and including the closing one.
(The final `self.next()` before the `raise` is at the end of the text: no effect.) -/
def skipEscape (c : Char) (p : P) : Except P P :=
  skipLoop c p.next.pre p.next.rest p.next.line

theorem skipLoop_rest {c : Char} {pre rest : List Char} {line : Nat} {q : P}
    (h : skipLoop c pre rest line = .ok q) : q.rest.length < rest.length := by
  fun_induction skipLoop c pre rest line <;> grind

theorem skipEscape_rest {c : Char} {p q : P} (h : skipEscape c p = .ok q) :
    q.rest.length < p.rest.length := by
  have h1 := skipLoop_rest h
  unfold P.next at h1
  split at h1 <;> simp_all <;> omega

theorem P.next_rest {p : P} {d : Char} {r : List Char} (h : p.rest = d :: r) :
    p.next.rest.length < p.rest.length := by
  unfold P.next; simp [h]

/-- parser.py:58-68 `read_util(cs, escape_chars)`: skip quoted strings, stop *at* the first `cs`.
The Python result is `(start, index + len(cs) - 1, sql[start : index + len(cs) - 1])`, recomputed by the
callers from the two parser states. -/
def readUtil (cs : List Char) (esc : Char → Bool) (p : P) : Except P P :=
  match hp : p.rest with
  | [] => .error p
  | d :: _ =>
    if esc d then
      match hs : skipEscape d p with
      | .error q => .error q
      | .ok q => readUtil cs esc q
    else if cs.isPrefixOf p.rest then .ok p
    else readUtil cs esc p.next
termination_by p.rest.length
decreasing_by
  · exact skipEscape_rest hs
  · exact P.next_rest hp

/-- parser.py:58, default `escape_chars=('"', "'")`. -/
def dq (c : Char) : Bool := c = '"' || c = '\''

/-- parser.py:81 and 87: the three quote characters. -/
def tq (c : Char) : Bool := c = '`' || c = '"' || c = '\''

theorem readUtil_rest {cs : List Char} {esc : Char → Bool} {p q : P}
    (h : readUtil cs esc p = .ok q) : q.rest.length ≤ p.rest.length := by
  fun_induction readUtil cs esc p with
  | case1 => simp at h
  | case2 => simp at h
  | case3 p d r hp he q' hs ih => have := skipEscape_rest hs; have := ih h; omega
  | case4 => simp at h; subst h; omega
  | case5 p d r hp he hn ih => have := P.next_rest hp; have := ih h; omega

/-- parser.py:9-15 `SqlSegment`. -/
structure Segment where
  sql : List Char
  lineno : Nat
  deriving DecidableEq, Repr

/-- parser.py:90-96 and 98-104: a line comment; `EOFError` is swallowed, then `next`. -/
def skipLineComment (p : P) : P :=
  match readUtil ['\n'] dq p with
  | .ok q => q.next
  | .error q => q.next

theorem skipLoop_error_rest {c : Char} {pre rest : List Char} {line : Nat} {q : P}
    (h : skipLoop c pre rest line = .error q) : q.rest = [] := by
  fun_induction skipLoop c pre rest line <;> grind

theorem readUtil_error_rest {cs : List Char} {esc : Char → Bool} {p q : P}
    (h : readUtil cs esc p = .error q) : q.rest = [] := by
  fun_induction readUtil cs esc p with
  | case1 p hp => simp at h; subst h; exact hp
  | case2 p d r hp he q' hs => simp at h; subst h; exact skipLoop_error_rest hs
  | case3 p d r hp he q' hs ih => exact ih h
  | case4 => simp at h
  | case5 p d r hp he hn ih => exact ih h

theorem P.next_rest_le (p : P) : p.next.rest.length ≤ p.rest.length := by
  unfold P.next; split <;> simp_all

theorem readUtil_next_rest {cs : List Char} {esc : Char → Bool} {p q : P} (hne : p.rest ≠ [])
    (h : readUtil cs esc p = .ok q) : q.next.rest.length < p.rest.length := by
  have h1 := readUtil_rest h
  have : 0 < p.rest.length := List.length_pos_iff.mpr hne
  cases hq : q.rest with
  | nil => simp [P.next, hq]; omega
  | cons d r => have := P.next_rest hq; omega

theorem skipLineComment_rest {p : P} (hne : p.rest ≠ []) :
    (skipLineComment p).rest.length < p.rest.length := by
  have h0 : 0 < p.rest.length := List.length_pos_iff.mpr hne
  unfold skipLineComment
  split
  · next q h => exact readUtil_next_rest hne h
  · next q h => have := readUtil_error_rest h; simp [P.next, this]; omega

/-- parser.py:113-114 and 121-122: append `sql[start_index: index]` when `start_index < index`. -/
def emit (p : P) (start : Option (Nat × Nat)) (acc : List Segment) : List Segment :=
  match start with
  | none => acc
  | some (ln, s) => if s < p.index then acc ++ [⟨p.slice s p.index, ln⟩] else acc

/-- parser.py:83-123, the loop of `split`.  `start` is `(lineno, start_index)` of the current
statement (`None` when no statement has begun), `acc` is `segments`. -/
def splitLoop (isAlpha : Char → Bool) (p : P) (start : Option (Nat × Nat)) (acc : List Segment) :
    Except P (List Segment) :=
  match hp : p.rest with
  | [] => .ok (emit p start acc)
  | d :: _ =>
    if tq d then
      match hs : skipEscape d p with
      | .error q => .error q
      | .ok q => splitLoop isAlpha q start acc
    else if d = '#' then splitLoop isAlpha (skipLineComment p) start acc
    else if ['-', '-'].isPrefixOf p.rest then splitLoop isAlpha (skipLineComment p) start acc
    else if ['/', '*'].isPrefixOf p.rest then
      match hs : readUtil ['*', '/'] dq p with
      | .error q => .error q
      | .ok q => splitLoop isAlpha q.next start acc
    else if d = ';' then
      match start with
      | none => splitLoop isAlpha p.next none acc
      | some _ => splitLoop isAlpha p.next none (emit p start acc)
    else if start.isNone && isAlpha d then splitLoop isAlpha p.next (some (p.line, p.index)) acc
    else splitLoop isAlpha p.next start acc
termination_by p.rest.length
decreasing_by
  · exact skipEscape_rest hs
  · exact skipLineComment_rest (by simp [hp])
  · exact skipLineComment_rest (by simp [hp])
  · exact readUtil_next_rest (by simp [hp]) hs
  · exact P.next_rest hp
  · exact P.next_rest hp
  · exact P.next_rest hp
  · exact P.next_rest hp

/-- parser.py:83-123 `split` on a fresh parser. -/
def split (isAlpha : Char → Bool) (sql : List Char) : Except P (List Segment) :=
  splitLoop isAlpha (P.init sql) none []

/-- parser.py:79-81 `read_util_complete`: `None` when at the end, else `read_util(';', ...)`.
`Except.ok none` is Python's `None`. -/
def readUtilComplete (p : P) : Except P (Option P) :=
  match p.rest with
  | [] => .ok none
  | _ => (readUtil [';'] tq p).map some

/-- Python `str.strip()`: drop white space at both ends (`isSpace` is the Unicode table, a parameter). -/
def strip (isSpace : Char → Bool) (s : List Char) : List Char :=
  ((s.dropWhile isSpace).reverse.dropWhile isSpace).reverse

/-- prompt.py:244-254 `check_complete`: `true` means "keep on reading lines" (the value of the `multiline`
condition), `false` means the text is submitted. -/
def needsMoreInput (isSpace : Char → Bool) (content : List Char) : Bool :=
  let content := strip isSpace content
  match content with
  | [] => false
  | c :: _ =>
    if content.take 4 = ['e', 'x', 'i', 't'] || c = '!' || c = '%' then false
    else match readUtilComplete (P.init content) with
      | .error _ => true
      | .ok _ => false

end Verif.Parser
