import Verif.Model.Value
/-!
Model of constants (compiler.py:2701-2751 `parse_const`, 2878-2885 `is_const`, 1998-2002 `compile_const`) and of
`INSERT … VALUES` (compiler.py:271-338 `compile_insert_into`).
-/
namespace Verif.Literal
open Verif.Val

/-! ### Text literals -/

/-- `s.encode("utf-8")` of a character up to code 256 (2716), each byte written as the character of that code. -/
def utf8 (c : Char) : List Char :=
  if c.toNat < 128 then [c] else [Char.ofNat (192 + c.toNat / 64), Char.ofNat (128 + c.toNat % 64)]

/-- Value of a hexadecimal digit. -/
def hexDigit (c : Char) : Option Nat :=
  if '0' ≤ c ∧ c ≤ '9' then some (c.toNat - 48)
  else if 'a' ≤ c ∧ c ≤ 'f' then some (c.toNat - 87)
  else if 'A' ≤ c ∧ c ≤ 'F' then some (c.toNat - 55)
  else none

/-- Number written with hexadecimal digits. -/
def hexNumber (ds : List Char) : Option Nat := ds.foldl (fun acc d => acc.bind fun n => (hexDigit d).map fun k => 16 * n + k) (some 0)

/-- Value of an octal digit. -/
def octDigit (c : Char) : Option Nat := if '0' ≤ c ∧ c ≤ '7' then some (c.toNat - 48) else none

/-- `chr(n)`. Simplification: codes that are no Unicode scalar value (lone surrogates) are taken as failures. -/
def chr (n : Nat) : Option Char := if n.isValidChar then some (Char.ofNat n) else none

/-- The one-letter escapes of Python. -/
def simpleEscape (c : Char) : Option Char :=
  if c = '\\' ∨ c = '\'' ∨ c = '"' then some c
  else if c = 'a' then some (Char.ofNat 7) else if c = 'b' then some (Char.ofNat 8) else if c = 't' then some (Char.ofNat 9)
  else if c = 'n' then some (Char.ofNat 10) else if c = 'v' then some (Char.ofNat 11) else if c = 'f' then some (Char.ofNat 12)
  else if c = 'r' then some (Char.ofNat 13) else none

/-- `bytes.decode("unicode_escape")`; `none`: `UnicodeDecodeError`.  Simplification: `\N{…}` (a character by its
name) is taken as a failure. -/
def decode : List Char → Option (List Char)
  | [] => some []
  | '\\' :: [] => none
  | '\\' :: '\n' :: rest => decode rest
  | '\\' :: 'x' :: a :: b :: rest => (hexNumber [a, b]).bind fun n => (chr n).bind fun c => (decode rest).map (c :: ·)
  | '\\' :: 'x' :: _ => none
  | '\\' :: 'u' :: a :: b :: c :: d :: rest =>
    (hexNumber [a, b, c, d]).bind fun n => (chr n).bind fun ch => (decode rest).map (ch :: ·)
  | '\\' :: 'u' :: _ => none
  | '\\' :: 'U' :: a :: b :: c :: d :: e :: f :: g :: h :: rest =>
    (hexNumber [a, b, c, d, e, f, g, h]).bind fun n => (chr n).bind fun ch => (decode rest).map (ch :: ·)
  | '\\' :: 'U' :: _ => none
  | '\\' :: 'N' :: _ => none
  | '\\' :: a :: b :: c :: rest =>
    match octDigit a, octDigit b, octDigit c with
    | some x, some y, some z => (chr (64 * x + 8 * y + z)).bind fun ch => (decode rest).map (ch :: ·)
    | some x, some y, none => (chr (8 * x + y)).bind fun ch => (decode (c :: rest)).map (ch :: ·)
    | some x, none, _ => (chr x).bind fun ch => (decode (b :: c :: rest)).map (ch :: ·)
    | none, _, _ =>
      match simpleEscape a with
      | some ch => (decode (b :: c :: rest)).map (ch :: ·)
      | none => (decode (b :: c :: rest)).map fun t => '\\' :: a :: t
  | '\\' :: a :: b :: [] =>
    match octDigit a, octDigit b with
    | some x, some y => (chr (8 * x + y)).map ([·])
    | some x, none => (chr x).bind fun ch => (decode [b]).map (ch :: ·)
    | none, _ =>
      match simpleEscape a with
      | some ch => (decode [b]).map (ch :: ·)
      | none => (decode [b]).map fun t => '\\' :: a :: t
  | '\\' :: a :: [] =>
    match octDigit a with
    | some x => (chr x).map ([·])
    | none =>
      match simpleEscape a with
      | some ch => some [ch]
      | none => some ['\\', a]
  | c :: rest => (decode rest).map (c :: ·)

/-- compiler.py:2714-2725: the pieces of characters up to code 256 are encoded and decoded, the others are kept. `pending` is
`escape_chars`. -/
def pieces : List Char → List Char → Option (List Char)
  | pending, [] => decode (pending.flatMap utf8)
  | pending, c :: rest =>
    if c.toNat ≤ 256 then pieces (pending ++ [c]) rest
    else (decode (pending.flatMap utf8)).bind fun p => (pieces [] rest).map fun t => p ++ c :: t

/-- compiler.py:2712-2727: if anything fails the literal is kept as it is. -/
def textValue (s : List Char) : List Char := (pieces [] s).getD s

/-! ### Constants -/

/-- Expressions as `parse_const` distinguishes them. -/
inductive CE where
  | int (n : Nat)
  | float (q : Rat)
  | text (s : Str)
  | bool (b : Bool)
  | null
  | hex (n : Nat)
  | bit (n : Nat)
  | param (name : Str)
  | neg (e : CE)
  /-- any other expression: an operation, a function call, a column -/
  | other

/-- compiler.py:2878-2885 `is_const`. -/
def isConst : CE → Bool
  | .neg (.neg _) => false
  | .neg e => isConst e
  | .other => false
  | _ => true

/-- compiler.py:2705-2745 without the sign. -/
def bare (env : Str → Option Val) : CE → Val
  | .int n => .int n
  | .float q => .flt q
  | .text s => .str (textValue s)
  | .bool b => .bool b
  | .hex n => .int n
  | .param name => (env ('@' :: name)).getD .null
  | _ => .null

/-- compiler.py:2702-2704, 2707-2710: the sign is applied to number literals only. -/
def parseConst (env : Str → Option Val) : CE → Val
  | .neg (.int n) => .int (-(n : Int))
  | .neg (.float q) => .flt (-q)
  | .neg e => bare env e
  | e => bare env e

/-! ### INSERT … VALUES -/

/-- Type filters. -/
inductive Ty where
  | int | float | bool
  | other (name : Str)
  deriving DecidableEq

/-- compiler.py:328 `str(type(value).__name__) if isinstance(value, (int, float, bool)) else None`. -/
def tyOf : Val → Option Ty
  | .int _ => some .int
  | .flt _ => some .float
  | .bool _ => some .bool
  | _ => none

/-- `d[k] = v`. -/
def dictSet {α : Type} (k : Str) (v : α) : List (Str × α) → List (Str × α)
  | [] => [(k, v)]
  | (k', v') :: d => if k' = k then (k', v) :: d else (k', v') :: dictSet k v d

/-- `d.get(k)`. -/
def dictGet {α : Type} (k : Str) : List (Str × α) → Option α
  | [] => none
  | (k', v) :: d => if k' = k then some v else dictGet k d

/-- compiler.py:322-329: one row of values: the types of the columns seen so far and the record; `none`: `IndexError`. -/
def insertRow : List (Str × Option Ty) → List Val → List (Str × Val) → Option (List (Str × Option Ty) × List (Str × Val))
  | cols, [], d => some (cols, d)
  | [], _ :: _, _ => none
  | (n, t) :: cols, v :: vs, d =>
    (insertRow cols vs (dictSet n v d)).map fun r => ((n, if t.isNone then tyOf v else t) :: r.1, r.2)

/-- compiler.py:321-330: all rows. -/
def insertRows : List (Str × Option Ty) → List (List Val) → Option (List (Str × Option Ty) × List (List (Str × Val)))
  | cols, [] => some (cols, [])
  | cols, vs :: rest =>
    (insertRow cols vs []).bind fun r => (insertRows r.1 rest).map fun q => (q.1, r.2 :: q.2)

/-- compiler.py:331-332: the schema, a dictionary (a later column of the same name replaces an earlier one). -/
def schema (cols : List (Str × Option Ty)) : List (Str × Option Ty) := cols.foldl (fun d c => dictSet c.1 c.2 d) []

/-- compiler.py:311-335: `INSERT INTO t (cols) VALUES rows`: the records stored. `filter` is syncany's type filter.
`none`: the statement is refused (an `IndexError`: too many values, or no column list: 333 reads `columns[0]`). -/
def insertValues (filter : Ty → Val → Val) (env : Str → Option Val)
    (cols : List (Str × Option Ty)) (rows : List (List CE)) : Option (List (List (Str × Val))) :=
  if cols = [] then none
  else
    (insertRows cols (rows.map fun r => r.map (parseConst env))).map fun q =>
      q.2.map fun d => (schema q.1).map fun c =>
        let v := (dictGet c.1 d).getD .null
        (c.1, match c.2 with
          | some t => filter t v
          | none => v)

/-- compiler.py:298-309: how rows are written: the first of the table's options that is an update type, as it was written; `I`
if there is none. `upper` is `str.upper`. -/
def updateType (upper : Str → Str) (options : List Str) : Str :=
  ((options.find? fun o => upper o ∈ ["I".toList, "U".toList, "UI".toList, "UDI".toList, "DI".toList])).getD "I".toList

end Verif.Literal
