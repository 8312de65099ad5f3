import Verif.Model.Order
/-!
ORDER BY in SQL: the rows of the result, rearranged so that they ascend in the keys, rows with equal keys staying in order.  The
syntax (`Item`) is taken from the model.
-/
namespace Verif.SqlOrder
open Verif.Order

variable {α V : Type}

/-- What an item means: a qualified column is the column of that table; a bare name is a result column if there is one of that
name, else the column of the primary table; an expression is the result column made by it (`compile` refuses others). -/
def value (schema : List Name) (table : Name) (raw : Name → Name → α → V) (out : Name → α → V) : Item → α → V
  | .col (some t) n, a => raw t n a
  | .col none n, a => if n ∈ schema then out n a else raw table n a
  | .expr (some c), a => out c a
  | .expr none, a => raw table [] a

/-- `a` may stand before `b`: at the first item in which they differ `a` is smaller (greater for DESC). -/
def Le (le : V → V → Bool) : List ((α → V) × Bool) → α → α → Prop
  | [], _, _ => True
  | (f, desc) :: ks, a, b =>
    let x := if desc then f b else f a
    let y := if desc then f a else f b
    (le x y = true ∧ ¬ le y x = true) ∨ (le x y = true ∧ le y x = true ∧ Le le ks a b)

/-- `out` is `rows` sorted by the keys, stably. -/
structure Sorted (le : V → V → Bool) (keys : List ((α → V) × Bool)) (rows out : List α) : Prop where
  perm : out.Perm rows
  ascending : out.Pairwise (Le le keys)
  stable : ∀ p : α → Bool, (∀ a b, p a = true → p b = true → Le le keys a b) → out.filter p = rows.filter p

end Verif.SqlOrder
