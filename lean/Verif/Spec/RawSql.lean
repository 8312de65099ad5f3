import Verif.Model.RawSql
/-!
Statements with raw SQL blocks, as they are written.
-/
namespace Verif.RawSql

/-- A block: `/* raw(name) */ ( body ) /* endraw */`, or `/* raw(name) body endraw */` (the fields `w…` are blanks). -/
structure Blk where
  w1 : List Char
  name : List Char
  w2 : List Char
  /-- `*/ (`, with the blanks before and behind the parenthesis -/
  opn : Option (List Char × List Char)
  body : List Char
  w3 : List Char
  /-- `) /*`, with the blanks between and behind -/
  cls : Option (List Char × List Char)
  w4 : List Char
  deriving DecidableEq

def Blk.openText (b : Blk) : List Char :=
  match b.opn with
  | none => []
  | some (u, v) => '*' :: '/' :: (u ++ '(' :: v)

def Blk.closeText (b : Blk) : List Char :=
  match b.cls with
  | none => []
  | some (u, v) => ')' :: (u ++ '/' :: '*' :: v)

/-- What follows the body. -/
def Blk.tail (b : Blk) : List Char := b.w3 ++ b.closeText ++ endrawL ++ b.w4 ++ ['*', '/']

/-- The text of the block. -/
def Blk.text (b : Blk) : List Char :=
  '/' :: '*' :: (b.w1 ++ rawL ++ b.name ++ ')' :: (b.w2 ++ b.openText ++ b.body ++ b.tail))

/-- The text begins with `/*`, blanks and `raw(`. -/
def startsRaw (isS : Char → Bool) : List Char → Bool
  | '/' :: '*' :: t => rawL.isPrefixOf (t.dropWhile isS)
  | _ => false

/-- A block as documented: the body has no blanks around it, no `endraw` in it and no other block begins in it. -/
structure Blk.Good (isW isS : Char → Bool) (b : Blk) : Prop where
  w1 : ∀ c ∈ b.w1, isS c = true
  w2 : ∀ c ∈ b.w2, isS c = true
  w3 : ∀ c ∈ b.w3, isS c = true
  w4 : ∀ c ∈ b.w4, isS c = true
  opn : ∀ u v, b.opn = some (u, v) → (∀ c ∈ u, isS c = true) ∧ ∀ c ∈ v, isS c = true
  cls : ∀ u v, b.cls = some (u, v) → (∀ c ∈ u, isS c = true) ∧ ∀ c ∈ v, isS c = true
  name_ne : b.name ≠ []
  name : ∀ c ∈ b.name, (isW c || c = '.') = true
  body_head : ∀ c, b.body.head? = some c → isS c = false
  body_last : ∀ c, b.body.getLast? = some c → isS c = false
  no_end : ¬ endrawL <:+: b.body
  no_raw : ∀ u, u <:+ b.body → startsRaw isS u = false
  head_opn : b.opn = none → b.body.head? ≠ some '*'
  last_cls : b.cls = none → b.body.getLast? ≠ some '*'

/-- Classes of characters like `\w` and `\s`: the marks of the syntax and the letters of `raw` and `endraw` are no blanks, and
the marks are no word characters, and no character is both. -/
structure Classes (isW isS : Char → Bool) : Prop where
  word : ∀ c ∈ ['/', '*', '(', ')', '='], isW c = false
  apart : ∀ c, isW c = true → isS c = false
  blank : ∀ c ∈ ['/', '*', '(', ')', 'e', 'n', 'd', 'r', 'a', 'w', '=', '\'', '.', '@'], isS c = false
  newline : isS '\n' = true

/-- A piece of a statement: a plain character, a block, or (after the rewriting) the name that has replaced a block. -/
inductive Item where
  | ch (c : Char)
  | blk (b : Blk)
  | done (name : List Char)

/-- The text. -/
def docText : List Item → List Char
  | [] => []
  | .ch c :: d => c :: docText d
  | .blk b :: d => b.text ++ docText d
  | .done n :: d => n ++ docText d

/-- The specified result: every block replaced by its name. -/
def docOut : List Item → List Char
  | [] => []
  | .ch c :: d => c :: docOut d
  | .blk b :: d => b.name ++ docOut d
  | .done n :: d => n ++ docOut d

/-- The blocks. -/
def blocks : List Item → List Blk
  | [] => []
  | .ch _ :: d => blocks d
  | .blk b :: d => b :: blocks d
  | .done _ :: d => blocks d

/-- The plain characters the statement begins with. -/
def run : List Item → List Char
  | .ch c :: d => c :: run d
  | _ => []

/-- The plain text holds no `/* raw(` of its own (not with the last `/` of a block either). -/
def WF (isW isS : Char → Bool) : List Item → Prop
  | [] => True
  | .ch c :: d => startsRaw isS (c :: run d) = false ∧ WF isW isS d
  | .blk b :: d => b.Good isW isS ∧ startsRaw isS ('/' :: run d) = false ∧ WF isW isS d
  | .done n :: d => (∀ c ∈ n, (isW c || c = '.') = true) ∧ '.' ∈ n ∧ WF isW isS d

/-- No block has been replaced yet. -/
def Written : List Item → Prop
  | [] => True
  | .ch _ :: d => Written d
  | .blk _ :: d => Written d
  | .done _ :: _ => False

end Verif.RawSql
