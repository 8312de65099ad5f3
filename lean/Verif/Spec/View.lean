import Verif.Model.View
import Verif.Spec.Text
/-! Specification of the parameters of virtual views (C130): the text of a view is a sequence of plain characters and parameters
`#{name}` / `#{name:default}`. -/
namespace Verif.View

/-- A piece of a view: a plain character or a parameter. -/
inductive Item where
  | ch (c : Char)
  | ref (r : Ref)
  deriving DecidableEq, Repr

/-- The text of the view as the user writes it. -/
def docText : List Item → List Char
  | [] => []
  | .ch c :: d => c :: docText d
  | .ref r :: d => r.text ++ docText d

/-- The specified result: each parameter replaced by a text, plain characters kept. -/
def docSubst (value : Ref → List Char) : List Item → List Char
  | [] => []
  | .ch c :: d => c :: docSubst value d
  | .ref r :: d => value r ++ docSubst value d

/-- A parameter as documented: a non-empty name of word characters; a default containing neither `}` nor
`#`. -/
structure Ref.Good (isW : Char → Bool) (r : Ref) : Prop where
  ne : r.name ≠ []
  name : ∀ c ∈ r.name, isW c = true
  dflt : ∀ d, r.dflt = some d → '}' ∉ d ∧ '#' ∉ d

/-- Views in which every `#{` starts a reference and no plain `#` touches a reference. -/
def WF (isW : Char → Bool) : List Item → Prop
  | [] => True
  | .ref r :: d => r.Good isW ∧ WF isW d
  | .ch c :: d =>
    (c = '#' → match d with | [] => True | .ch c' :: _ => c' ≠ '{' | .ref _ :: _ => False) ∧ WF isW d

/-- The parameters of a view. -/
def refs : List Item → List Ref
  | [] => []
  | .ch _ :: d => refs d
  | .ref r :: d => r :: refs d

/-- A word-character class that excludes the four delimiters (as `\w` does). -/
structure WordClass (isW : Char → Bool) : Prop where
  hash : isW '#' = false
  opn : isW '{' = false
  cls : isW '}' = false
  colon : isW ':' = false

open Verif.Val Verif.Json

/-- The names of the operators. -/
inductive OpName : Str → Str → Prop
  | eq : OpName "eq".toList "==".toList
  | neq : OpName "neq".toList "!=".toList
  | gt : OpName "gt".toList ">".toList
  | gte : OpName "gte".toList ">=".toList
  | lt : OpName "lt".toList "<".toList
  | lte : OpName "lte".toList "<=".toList
  | isin : OpName "in".toList "in".toList

/-- The default of a parameter: its text as JSON, else as text. -/
def defaultOf (loads : Str → Option J) (r : Ref) (v : J) : Prop :=
  loads (r.dflt.getD []) = some v ∨ (loads (r.dflt.getD []) = none ∧ v = .str (r.dflt.getD []))

/-- What a parameter stands for: `name` is `=`, `name__op` is the operator of this name. -/
inductive Means (loads : Str → Option J) (r : Ref) : Arg → Prop
  | plain {v} : ¬ "__".toList <:+: r.name → defaultOf loads r v → Means loads r ⟨r.name, "==".toList, v⟩
  | op {column name op v} : Verif.Text.FirstOcc "__".toList r.name column name → ¬ "__".toList <:+: name → OpName name op →
      defaultOf loads r v → Means loads r ⟨column, op, v⟩

end Verif.View
