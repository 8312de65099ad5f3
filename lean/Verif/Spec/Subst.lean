import Verif.Model.Env
/-! Specification of variable substitution (C07): a statement is a sequence of plain characters and
references `${name}` / `${name:default}`; substitution replaces the references simultaneously. -/
namespace Verif.Env

/-- A piece of a statement: a plain character or a variable reference. -/
inductive Item where
  | ch (c : Char)
  | ref (r : Ref)
  deriving DecidableEq, Repr

/-- The statement text as the user writes it. -/
def docText : List Item → List Char
  | [] => []
  | .ch c :: d => c :: docText d
  | .ref r :: d => r.text ++ docText d

/-- The specified result: each reference replaced by its value, plain characters kept. -/
def docSubst (value : Ref → List Char) : List Item → List Char
  | [] => []
  | .ch c :: d => c :: docSubst value d
  | .ref r :: d => value r ++ docSubst value d

/-- A reference as documented: a non-empty name of word characters and `@`; a default containing neither `}` nor
`$`. -/
structure Ref.Good (isW : Char → Bool) (r : Ref) : Prop where
  ne : r.name ≠ []
  name : ∀ c ∈ r.name, (isW c || c = '@') = true
  dflt : ∀ d, r.dflt = some d → '}' ∉ d ∧ '$' ∉ d

/-- Statements in which every `${` starts a reference and no plain `$` touches a reference. -/
def WF (isW : Char → Bool) : List Item → Prop
  | [] => True
  | .ref r :: d => r.Good isW ∧ WF isW d
  | .ch c :: d =>
    (c = '$' → match d with | [] => True | .ch c' :: _ => c' ≠ '{' | .ref _ :: _ => False) ∧ WF isW d

/-- The references of a statement. -/
def refs : List Item → List Ref
  | [] => []
  | .ch _ :: d => refs d
  | .ref r :: d => r :: refs d

/-- A word-character class that excludes the four delimiters (as `\w` does). -/
structure WordClass (isW : Char → Bool) : Prop where
  dollar : isW '$' = false
  opn : isW '{' = false
  cls : isW '}' = false
  colon : isW ':' = false

end Verif.Env
