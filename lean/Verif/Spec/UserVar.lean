import Verif.Model.UserVar
/-!
What user variables should do, over a store that maps each variable to its value: every expression is evaluated once, from left
to right, an assignment changes the store at once.
-/
namespace Verif.Spec.UserVar
open Verif.Val Verif.UserVar

/-- The values of the variables (NULL if never assigned). -/
abbrev Store := Str → Val

/-- `store[n := v]`. -/
def assign (s : Store) (n : Str) (v : Val) : Store := fun m => if m = n then v else s m

variable (calls : Str → List Val → Val)

mutual
/-- The value of an expression and the store after it. -/
def value (row : Str → Val) : X → Store → Val × Store
  | .lit v, s => (v, s)
  | .col c, s => (row c, s)
  | .var n, s => (s n, s)
  | .assign n e, s => let r := value row e s; (r.1, assign r.2 n r.1)
  | .neg a, s => let r := value row a s; (calls "neg".toList [r.1], r.2)
  | .call f l, s => let r := values row l s; (calls f r.1, r.2)
  | .ite c t f, s => let r := value row c s; if truthy r.1 then value row t r.2 else value row f r.2
  | .and a b, s => let r := value row a s; if truthy r.1 then value row b r.2 else (.int 0, r.2)
  | .or a b, s => let r := value row a s; if truthy r.1 then (.int 1, r.2) else value row b r.2
  | .ifnull a b, s => let r := value row a s; if r.1 = .null then value row b r.2 else r
def values (row : Str → Val) : XL → Store → List Val × Store
  | .nil, s => ([], s)
  | .cons e l, s => let r := value row e s; let rs := values row l r.2; (r.1 :: rs.1, rs.2)
end

/-- One output row. -/
def rowOut (row : Str → Val) : List (Str × X) → Store → List (Str × Val) × Store
  | [], s => ([], s)
  | (n, e) :: is, s => let r := value calls row e s; let rs := rowOut row is r.2; ((n, r.1) :: rs.1, rs.2)

/-- The whole query. -/
def select (items : List (Str × X)) : List (Str → Val) → Store → List (List (Str × Val)) × Store
  | [], s => ([], s)
  | row :: rows, s =>
    let r := rowOut calls row items s
    let rs := select items rows r.2
    (r.1 :: rs.1, rs.2)

end Verif.Spec.UserVar
