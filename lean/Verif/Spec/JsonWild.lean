import Verif.Spec.Json
/-! Specification of C181: JSON paths with quoted names and wildcards, as they are written. -/
namespace Verif.JsonWildSpec
open Verif.Val Verif.Json Verif.JsonSpec

/-- A step of a path as it is written: `.name`, `["name"]`, `[number]`. -/
inductive Step where
  | name (n : Str)
  | bracketed (n : Str)
  | idx (k : Nat)

/-- The text of steps. -/
def stepsText : List Step → Str
  | [] => []
  | .name n :: r => '.' :: n ++ stepsText r
  | .bracketed n :: r => '[' :: ('"' :: n ++ ['"']) ++ ']' :: stepsText r
  | .idx k :: r => '[' :: natText k ++ ']' :: stepsText r

/-- What a step selects. -/
def Step.leg : Step → Leg
  | .name n => .name n
  | .bracketed n => .name n
  | .idx k => .idx k

/-- `.name` needs names without `.`, `[`, `]`; between brackets and quotes everything but `]` can stand. `*` is the wildcard. -/
def Step.Ok : Step → Prop
  | .name n => n ≠ [] ∧ '.' ∉ n ∧ '[' ∉ n ∧ ']' ∉ n ∧ n ≠ ['*']
  | .bracketed n => ']' ∉ n ∧ n ≠ ['*']
  | .idx _ => True

/-- No step of the path is an index into a text. -/
def NoText (j : J) (p : List Leg) : Prop := ∀ pre n post s, p = pre ++ Leg.idx n :: post → ¬ At j pre (.str s)

/-- `r` are the values other than NULL to which `p` leads from the elements of `l`, in their order. -/
inductive Collect (p : List Leg) : List J → List J → Prop
  | nil : Collect p [] []
  | hit {d x : J} {l r : List J} (h : At d p x) (hx : x ≠ .null) (ht : Collect p l r) : Collect p (d :: l) (x :: r)
  | miss {d : J} {l r : List J} (h : ∀ x, At d p x → x = .null) (hn : NoText d p) (ht : Collect p l r) : Collect p (d :: l) r

end Verif.JsonWildSpec
