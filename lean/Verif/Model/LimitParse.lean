import Verif.Model.Limit
/-!
Model of the reading of LIMIT and OFFSET at the end of a SELECT (compiler.py:56-85, `CompilerDialect.Parser._parse_limit` and
`_parse_offset`), and of what `compile_select` takes from it (compiler.py:536-537).

The base class of the parser (the sqlglot library) is a parameter.  It is taken to ask for the LIMIT first and for the OFFSET
next, at the place where the first stopped (its table of query modifiers).
-/
namespace Verif.LimitParse

/-- Tokens. Number tokens carry their value: simplification, the token holds the text, and the text of a decimal makes `int()` of
compiler.py:536-537 raise. -/
inductive Tok where
  | limit
  | offset
  | comma
  | number (n : Nat)
  /-- an operator, which continues an expression -/
  | op (name : List Char)
  | other (text : List Char)
  deriving DecidableEq

/-- What stands after LIMIT or OFFSET: a number, or any other expression. -/
inductive Ex where
  | number (n : Nat)
  | other
  deriving DecidableEq

/-- The library's `_parse_limit` and `_parse_offset`: what they find at the beginning of the tokens and what they leave; `none` in
the first place: nothing found. An exception is `none` as a whole. -/
structure Base where
  limit : List Tok → Option (Option Ex × List Tok)
  offset : List Tok → Option (Option Ex × List Tok)

/-- compiler.py:56-69 `_parse_limit`: nothing is consumed for `LIMIT o, n`. -/
def parseLimit (b : Base) (ts : List Tok) : Option (Option Ex × List Tok) :=
  match ts with
  | .limit :: .number _ :: .comma :: .number n :: _ => some (some (.number n), ts)
  | _ => b.limit ts

/-- compiler.py:71-85 `_parse_offset`: `LIMIT o, n` is consumed here. -/
def parseOffset (b : Base) (ts : List Tok) : Option (Option Ex × List Tok) :=
  match ts with
  | .limit :: .number o :: .comma :: .number _ :: rest => some (some (.number o), rest)
  | _ => b.offset ts

/-- The end of a SELECT: the limit, the offset, and the tokens left. -/
def parse (b : Base) (ts : List Tok) : Option (Option Ex × Option Ex × List Tok) :=
  (parseLimit b ts).bind fun l => (parseOffset b l.2).map fun o => (l.1, o.1, o.2)

/-- compiler.py:536-537: `int(…)` of the number; 0 when there is none; `none`: `int()` of an expression raises. -/
def valueOf : Option Ex → Option Nat
  | none => some 0
  | some (.number n) => some n
  | some .other => none

/-- From the tokens to the plan (compiler.py:536-550), with the tokens left. -/
def plan (b : Base) (q : Limit.Shape) (ts : List Tok) : Option (Limit.Plan × List Tok) :=
  (parse b ts).bind fun r => (valueOf r.2.1).bind fun o => (valueOf r.1).map fun n => (Limit.compile q n o, r.2.2)

end Verif.LimitParse
