import Verif.Model.Value
/-! What the SQL text functions mean, independently of the model (only the type `Str` of texts is used). -/
namespace Verif.Text
open Verif.Val

/-- Number of non-overlapping occurrences of `d`, read from the left. -/
def occ (d : Str) : Str → Nat
  | [] => 0
  | c :: t => if d ≠ [] ∧ d.isPrefixOf (c :: t) then 1 + occ d (t.drop (d.length - 1)) else occ d t
  termination_by s => s.length
  decreasing_by all_goals (simp_wf; try omega)

/-- `p` is the shortest beginning of `s` that ends with the `n`-th occurrence of `d`. -/
structure NthOcc (d : Str) (n : Nat) (s p : Str) : Prop where
  isPrefix : p <+: s
  count : occ d p = n
  least : ∀ q, q <+: s → n ≤ occ d q → p.length ≤ q.length

/-- `a` occurs first in `s` after `x`, and `y` follows. -/
structure FirstOcc (a s x y : Str) : Prop where
  eq : s = x ++ a ++ y
  first : ∀ i < x.length, ¬ a <+: s.drop i

/-- SQL's LIKE without escapes: `%` is any text, `_` one character; `same` is equality of characters in the collation. -/
def Like (same : Char → Char → Bool) : Str → Str → Prop
  | [], s => s = []
  | '%' :: r, s => ∃ x y, s = x ++ y ∧ Like same r y
  | '_' :: r, s => ∃ c t, s = c :: t ∧ Like same r t
  | c :: r, s => ∃ d t, s = d :: t ∧ same c d = true ∧ Like same r t

end Verif.Text
