import Verif.Model.Str
import Verif.Model.Json
/-!
Model of the parameters of virtual views (config.py:117-128 `parse_virtual_view_args`): `#{name__op:default}` in the text of the view
becomes a positional parameter `%s`, with a condition that supplies its value.

`json.loads` is a parameter.
-/
namespace Verif.View
open Verif.Val Verif.Json

/-- A match of `VIRTUAL_VIEW_ARGS_RE` = `\#\{\w+?(:.*?)?\}` (config.py:20). -/
structure Ref where
  name : List Char
  dflt : Option (List Char)
  deriving DecidableEq, Repr

/-- The matched text (group 1). -/
def Ref.text (r : Ref) : List Char :=
  '#' :: '{' :: (r.name ++ (match r.dflt with | none => [] | some d => ':' :: d) ++ ['}'])

/-- config.py:20: match of the regular expression at the beginning of the text.  `isW` is the class `\w`.
Neither `:` nor `}` is in `\w`, so the lazy name is the longest run of such characters; the lazy default
ends at the first `}`. -/
def matchRef (isW : Char → Bool) : List Char → Option (Ref × List Char)
  | '#' :: '{' :: r =>
    let isName := fun c => isW c
    let name := r.takeWhile isName
    if name = [] then none
    else match r.dropWhile isName with
      | '}' :: r' => some (⟨name, none⟩, r')
      | ':' :: r' =>
        match r'.dropWhile (· ≠ '}') with
        | '}' :: r'' => some (⟨name, some (r'.takeWhile (· ≠ '}'))⟩, r'')
        | _ => none
      | _ => none
  | _ => none

theorem dropWhile_length {α : Type} (f : α → Bool) (l : List α) : (l.dropWhile f).length ≤ l.length :=
  (List.dropWhile_sublist f).length_le

theorem matchRef_rest {isW : Char → Bool} {s r' : List Char} {r : Ref} (h : matchRef isW s = some (r, r')) :
    r'.length < s.length := by
  unfold matchRef at h
  split at h
  · next r0 =>
    have h0 := dropWhile_length (fun c => isW c) r0
    simp only at h
    split at h
    · simp at h
    · split at h
      · next r1 e => simp at h; rw [e] at h0; simp at h0 ⊢; rw [← h.2]; omega
      · next r1 e =>
        split at h
        · next r2 e2 =>
          have h1 := dropWhile_length (fun c => decide (c ≠ '}')) r1
          rw [e2] at h1
          simp at h; rw [e] at h0; simp at h0 h1 ⊢; rw [← h.2]; omega
        · simp at h
      · simp at h
  · simp at h

/-- config.py:120 `VIRTUAL_VIEW_ARGS_RE.findall(query)`. -/
def findAll (isW : Char → Bool) (s : List Char) : List Ref :=
  match s with
  | [] => []
  | c :: cs =>
    match h : matchRef isW (c :: cs) with
    | some (r, rest) => r :: findAll isW rest
    | none => findAll isW cs
termination_by s.length
decreasing_by
  · exact matchRef_rest h
  · simp

/-- Python `s.replace(old, new)` for a non-empty `old`. -/
def replaceAll (old new : List Char) (hold : old ≠ []) (s : List Char) : List Char :=
  match s with
  | [] => []
  | c :: cs =>
    if old.isPrefixOf (c :: cs) then new ++ replaceAll old new hold ((c :: cs).drop old.length)
    else c :: replaceAll old new hold cs
termination_by s.length
decreasing_by
  · have : 0 < old.length := List.length_pos_iff.mpr hold
    simp; omega
  · simp

theorem Ref.text_ne_nil (r : Ref) : r.text ≠ [] := by simp [Ref.text]

/-- config.py:119: the operators by name; `none`: `KeyError`. -/
def opOf (s : Str) : Option Str :=
  if s = "eq".toList then some "==".toList
  else if s = "neq".toList then some "!=".toList
  else if s = "gt".toList then some ">".toList
  else if s = "gte".toList then some ">=".toList
  else if s = "lt".toList then some "<".toList
  else if s = "lte".toList then some "<=".toList
  else if s = "in".toList then some "in".toList
  else none

/-- A parameter of a view: column, operator, default. -/
structure Arg where
  column : Str
  op : Str
  dflt : J

/-- config.py:121-126: the parameter a match stands for. -/
def argOf (loads : Str → Option J) (r : Ref) : Option Arg :=
  let text := r.dflt.getD []
  let dflt := (loads text).getD (.str text)
  match Str.splitGo "__".toList [] r.name with
  | column :: op :: _ => (opOf op).map fun op => ⟨column, op, dflt⟩
  | column :: [] => some ⟨column, "==".toList, dflt⟩
  | [] => none

/-- config.py:117-128 `parse_virtual_view_args`; `none`: `KeyError`. -/
def parse (isW : Char → Bool) (loads : Str → Option J) (query : Str) : Option (Str × List Arg) :=
  ((findAll isW query).mapM (argOf loads)).map fun args =>
    ((findAll isW query).foldl (fun s r => replaceAll r.text "%s".toList (Ref.text_ne_nil r) s) query, args)

end Verif.View
