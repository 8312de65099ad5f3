import Verif.Model.Json
/-! Paths and members of JSON documents, independently of the functions modelled (only the types `J` and `Leg` are used, and
the decimal text of a number). -/
namespace Verif.JsonSpec
open Verif.Val Verif.Json

/-- The first entry for a key. -/
def entry (k : Str) (d : List (Str × J)) : Option J := (d.find? fun x => x.1 = k).map (·.2)

/-- `At j p x`: the path `p` leads from `j` to `x`. -/
inductive At : J → List Leg → J → Prop
  | here (j) : At j [] j
  | elem {l n y p x} : l[n]? = some y → At y p x → At (.arr l) (.idx n :: p) x
  | member {d k y p x} : entry k d = some y → At y p x → At (.obj d) (.name k :: p) x

/-- `x` lies `n` levels below `j`. -/
inductive Below : J → Nat → J → Prop
  | here (j) : Below j 0 j
  | elem {l y n x} : y ∈ l → Below y n x → Below (.arr l) (n + 1) x
  | member {d k y n x} : (k, y) ∈ d → Below y n x → Below (.obj d) (n + 1) x

/-- A path written as text: `$`, then `.name` or `[number]` for each leg. -/
def tailText : List Leg → Str
  | [] => []
  | .name n :: r => '.' :: n ++ tailText r
  | .idx k :: r => '[' :: natText k ++ ']' :: tailText r
def pathText (p : List Leg) : Str := '$' :: tailText p

/-- Names that need no quoting: not empty, without `.`, `[`, `]`. -/
def PlainLeg : Leg → Prop
  | .name n => n ≠ [] ∧ '.' ∉ n ∧ '[' ∉ n ∧ ']' ∉ n
  | .idx _ => True

/-- Not the wildcard. -/
def NoStar (p : List Leg) : Prop := Leg.name ['*'] ∉ p

/-- Where a value can be put: any name in an object, an index up to the length of an array. -/
def Fits : J → Leg → Prop
  | .obj _, .name _ => True
  | .arr l, .idx n => n ≤ l.length
  | _, _ => False

mutual
/-- Every object has each key once. -/
def Wf : J → Prop
  | .arr l => WfL l
  | .obj d => (d.map (·.1)).Nodup ∧ WfO d
  | _ => True
def WfL : List J → Prop
  | [] => True
  | x :: l => Wf x ∧ WfL l
def WfO : List (Str × J) → Prop
  | [] => True
  | (_, x) :: d => Wf x ∧ WfO d
end

/-- The number a JSON number or Boolean stands for (`true` is 1). -/
def number : J → Option Rat
  | .bool true => some 1
  | .bool false => some 0
  | .int i => some i
  | .flt q => some q
  | _ => none

/-- Two documents are the same value: equal scalars (numbers by value), arrays of the same length that agree at every
index, objects with the same number of members that agree on every name. -/
inductive Same : J → J → Prop
  | null : Same .null .null
  | str (s) : Same (.str s) (.str s)
  | num {x y q} : number x = some q → number y = some q → Same x y
  | arr {l l' : List J} : l.length = l'.length → (∀ (i : Nat) x y, l[i]? = some x → l'[i]? = some y → Same x y) → Same (.arr l) (.arr l')
  | obj {d d' : List (Str × J)} : d.length = d'.length → (∀ k x, (k, x) ∈ d → entry k d' ≠ none) →
      (∀ k x y, (k, x) ∈ d → entry k d' = some y → Same x y) → Same (.obj d) (.obj d')

/-- The largest number with a property. -/
def IsGreatest' (S : Nat → Prop) (m : Nat) : Prop := S m ∧ ∀ n, S n → n ≤ m

end Verif.JsonSpec
