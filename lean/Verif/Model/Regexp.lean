import Verif.Model.Str
/-!
Model of the regular-expression functions (calculaters/mysql_funcs/regexp_funcs.py:8-108; `LIKE` is in Model/Str).

The engine of Python's `re` is a parameter: for a pattern and flags it is `none` when the pattern does not compile, and otherwise
says, given the text before a position and the text from it on, the length of the match at that position, if any.
Simplified: subject, pattern, replacement and match type are texts or NULL, position and occurrence are integers.  A position or
occurrence that is not a number raises before anything is returned and gives what an invalid pattern gives.
-/
namespace Verif.Regexp
open Verif.Val

/-- A compiled pattern: the length of the match at a position, from the text before it and the text from it on; and what a
replacement text stands for at a match (`re` expands `\1`, `\g<name>`, `\n` … in it; `none`: it raises). -/
structure Pattern where
  at_ : Str → Str → Option Nat
  expand : Str → Str → Str → Option Str

/-- The library: pattern and flags to compiled pattern; `none`: `re.error`. -/
abbrev Engine := Str → Nat → Option Pattern

/-- Python's `re.IGNORECASE`, `re.MULTILINE`, `re.DOTALL`, `re.UNICODE`. -/
def IGNORECASE : Nat := 2
/-- `re.M`. -/
def MULTILINE : Nat := 8
/-- `re.S`. -/
def DOTALL : Nat := 16
/-- `re.U`. -/
def UNICODE : Nat := 32

/-- regexp_funcs.py:14-24, one letter. -/
def flagStep (flags : Nat) (c : Char) : Nat :=
  if c = 'c' then flags ^^^ (flags &&& IGNORECASE)
  else if c = 'i' then flags ||| IGNORECASE
  else if c = 'm' then flags ||| MULTILINE
  else if c = 'n' then flags ||| DOTALL
  else if c = 'u' then flags ||| UNICODE
  else flags

/-- The number a text of decimal digits is. -/
def digits (s : Str) : Nat := s.foldl (fun n c => 10 * n + (c.toNat - '0'.toNat)) 0

/-- regexp_funcs.py:8-25 `parse_flags`.  Simplified: digits and letters are the ASCII ones. -/
def parseFlags : Option Str → Nat
  | none => IGNORECASE
  | some s =>
    if s = [] then IGNORECASE
    else if s.all Char.isDigit then digits s ||| IGNORECASE
    else (s.map Char.toLower).foldl flagStep IGNORECASE

/-- `re.search(r, cs)`: the leftmost match, as `m.span()`. -/
def search (p : Pattern) (cs : Str) : Option (Nat × Nat) :=
  (List.range (cs.length + 1)).findSome? fun i => (p.at_ (cs.take i) (cs.drop i)).map fun n => (i, i + n)

/-- regexp_funcs.py:28-43 `mysql_regexp` and `mysql_regexplike`: `re.match` only looks at the beginning of the text. -/
def like (E : Engine) (s r mt : Option Str) : Option Nat :=
  match r, s with
  | some r, some s =>
    match E r (parseFlags mt) with
    | none => some 0
    | some p => some (if (p.at_ [] s).isSome then 1 else 0)
  | _, _ => none

/-- regexp_funcs.py:51-61, 75-84, 95-105: the loop of the three functions, with `k` occurrences to skip: the values of `pos`,
`start_index`, `end_index` and `cs` when the wanted occurrence is found; `none`: there are not so many. -/
def loop (p : Pattern) : Nat → Str → Int → Option (Int × Nat × Nat × Str)
  | k, cs, pos =>
    if cs = [] then none
    else
      match search p cs with
      | none => none
      | some (a, b) =>
        match k with
        | 0 => some (pos, a, b, cs)
        | k + 1 => loop p k (cs.drop b) (pos + b)

/-- `s[pos-1:]`. -/
def from_ (s : Str) (pos : Int) : Str := Verif.Str.slice s (some (pos - 1)) none

/-- regexp_funcs.py:45-64 `mysql_regexp_instr`. -/
def instr (E : Engine) (s r : Option Str) (pos occ : Int) (ret : Bool) (mt : Option Str) : Option Int :=
  match r, s with
  | some r, some s =>
    match E r (parseFlags mt) with
    | none => some 0
    | some p =>
      match loop p (occ - 1).toNat (from_ s pos) pos with
      | none => some 0
      | some (pos, a, b, _) => some (pos + (if ret then (b : Int) else a))
  | _, _ => none

/-- regexp_funcs.py:89-108 `mysql_regexp_substr`. -/
def substr (E : Engine) (s r : Option Str) (pos occ : Int) (mt : Option Str) : Option Str :=
  match r, s with
  | some r, some s =>
    match E r (parseFlags mt) with
    | none => none
    | some p =>
      match loop p (occ - 1).toNat (from_ s pos) pos with
      | none => none
      | some (_, a, b, cs) => some (Verif.Str.slice cs (some a) (some b))
  | _, _ => none

/-- `re.sub(r, rs, cs)` from a position on: `before` is the text already passed, `rest` what is left, `wait` how many characters of
the last match are still to be dropped.  Simplified: after an empty match the next one is looked for behind the next character. -/
def sub (p : Pattern) (rs : Str) : Nat → Str → Str → Option Str
  | wait, before, [] =>
    if wait = 0 then
      match p.at_ before [] with
      | none => some []
      | some _ => p.expand rs before []
    else some []
  | wait + 1, before, c :: t => sub p rs wait (before ++ [c]) t
  | 0, before, c :: t =>
    match p.at_ before (c :: t) with
    | none => (sub p rs 0 (before ++ [c]) t).map (c :: ·)
    | some 0 => (p.expand rs before (c :: t)).bind fun e => (sub p rs 0 (before ++ [c]) t).map fun o => e ++ c :: o
    | some (n + 1) => (p.expand rs before (c :: t)).bind fun e => (sub p rs n (before ++ [c]) t).map (e ++ ·)

/-- regexp_funcs.py:66-87 `mysql_regexp_replace`. -/
def replace (E : Engine) (s r rs : Option Str) (pos occ : Int) (mt : Option Str) : Option Str :=
  match r, s, rs with
  | some r, some s, some rs =>
    match E r (parseFlags mt) with
    | none => none
    | some p =>
      if occ ≤ 0 then sub p rs 0 [] (from_ s pos)
      else
        match loop p (occ - 1).toNat (from_ s pos) pos with
        | none => some s
        | some (pos, a, b, _) =>
          some (Verif.Str.slice s none (some (pos + a - 1)) ++ rs ++ Verif.Str.slice s (some (pos + b - 1)) none)
  | _, _, _ => none

end Verif.Regexp
