import Verif.Spec.SubOperand
import Verif.Spec.Text
import Verif.Model.HavingSub
/-! SQL's meaning of HAVING with LIKE and subqueries; only the syntax is taken from the model. -/
namespace Verif.HavingSpec
open Verif.Val Verif.Expr Verif.Sql Verif.SubSpec Verif.HavingSub

variable (text : Str → Bool) (cmp : Cmp → Val → Val → Val) (calls : Str → List Val → Val) (row : Str → Val)

/-- The condition is TRUE of the row of the result. -/
def Holds : H → Prop
  | .e x => tv text (sem text cmp calls row x) = some true
  | .and a b => Holds a ∧ Holds b
  | .or a b => Holds a ∨ Holds b
  | .paren a => Holds a
  | .cmpSub op a s => tv text (cmp op (sem text cmp calls row a) (scalar s)) = some true
  | .inSub a s => in3 (fun v => tv text (cmp .eq (sem text cmp calls row a) v)) (vals s) = some true
  | .notIn a s => in3 (fun v => tv text (cmp .eq (sem text cmp calls row a) v)) (vals s) = some false
  | .exist s => s.rows ≠ []
  | .like a p => ∃ s, sem text cmp calls row a = .str s ∧ Text.Like (fun a b => a == b) p s

end Verif.HavingSpec
