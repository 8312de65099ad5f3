import Verif.Model.Expr
/-!
SQL's meaning of expressions: three-valued logic, by recursion on the source syntax.  Only the syntax (`E`, `EL`, `WL`) is
taken from the model.  `cmp` is the meaning of the comparison operators, `calls` of the functions, `text` whether SQL
regards a text as true.
-/
namespace Verif.Sql
open Verif.Val Verif.Expr

/-- Truth of a value: `none` is UNKNOWN. -/
def tv (text : Str → Bool) : Val → Option Bool
  | .null => none
  | .bool b => some b
  | .int i => some (i ≠ 0)
  | .flt q => some (q ≠ 0)
  | .str s => some (text s)

/-- A truth value as SQL's 1, 0, NULL. -/
def ofTri : Option Bool → Val
  | none => .null
  | some b => .int (if b then 1 else 0)

/-- Kleene's conjunction. -/
def and3 : Option Bool → Option Bool → Option Bool
  | some false, _ => some false
  | _, some false => some false
  | some true, some true => some true
  | _, _ => none

/-- Kleene's disjunction. -/
def or3 : Option Bool → Option Bool → Option Bool
  | some true, _ => some true
  | _, some true => some true
  | some false, some false => some false
  | _, _ => none

/-- Kleene's negation. -/
def not3 : Option Bool → Option Bool
  | none => none
  | some b => some (!b)

/-- `x IN (l)`. -/
def in3 (eq : Val → Option Bool) (l : List Val) : Option Bool := l.foldr (fun v r => or3 (eq v) r) (some false)

/-- The first non-NULL value. -/
def firstNonNull : List Val → Val
  | [] => .null
  | v :: l => if v = .null then firstNonNull l else v

mutual
/-- Value of an expression. -/
def sem (text : Str → Bool) (cmp : Cmp → Val → Val → Val) (calls : Str → List Val → Val) (row : Str → Val) : E → Val
  | .lit v => v
  | .col c => row c
  | .cmp op a b => cmp op (sem text cmp calls row a) (sem text cmp calls row b)
  | .and a b => ofTri (and3 (tv text (sem text cmp calls row a)) (tv text (sem text cmp calls row b)))
  | .or a b => ofTri (or3 (tv text (sem text cmp calls row a)) (tv text (sem text cmp calls row b)))
  | .not a => ofTri (not3 (tv text (sem text cmp calls row a)))
  | .is a .null => ofTri (some (decide (sem text cmp calls row a = .null)))
  | .is a .true => ofTri (some (decide (tv text (sem text cmp calls row a) = some true)))
  | .is a .false => ofTri (some (decide (tv text (sem text cmp calls row a) = some false)))
  | .inl a l => ofTri (in3 (fun v => tv text (cmp .eq (sem text cmp calls row a) v)) (semL text cmp calls row l))
  | .between a lo hi =>
    ofTri (and3 (tv text (cmp .gte (sem text cmp calls row a) (sem text cmp calls row lo)))
      (tv text (cmp .lte (sem text cmp calls row a) (sem text cmp calls row hi))))
  | .paren a => sem text cmp calls row a
  | .ite c t f =>
    if tv text (sem text cmp calls row c) = some true then sem text cmp calls row t else sem text cmp calls row f
  | .ifnull a b => firstNonNull [sem text cmp calls row a, sem text cmp calls row b]
  | .coalesce a l => firstNonNull (sem text cmp calls row a :: semL text cmp calls row l)
  | .caseC ws => semW text cmp calls row none ws
  | .caseV a ws => semW text cmp calls row (some (sem text cmp calls row a)) ws
  | .call f l => calls f (semL text cmp calls row l)
/-- Values of a list of expressions. -/
def semL (text : Str → Bool) (cmp : Cmp → Val → Val → Val) (calls : Str → List Val → Val) (row : Str → Val) :
    EL → List Val
  | .nil => []
  | .cons e l => sem text cmp calls row e :: semL text cmp calls row l
/-- `CASE`: the first `WHEN` that holds (or equals the operand), else the `ELSE`, else NULL. -/
def semW (text : Str → Bool) (cmp : Cmp → Val → Val → Val) (calls : Str → List Val → Val) (row : Str → Val)
    (v : Option Val) : WL → Val
  | .noElse => .null
  | .els e => sem text cmp calls row e
  | .when c t ws =>
    if (match v with
        | none => tv text (sem text cmp calls row c)
        | some x => tv text (cmp .eq x (sem text cmp calls row c))) = some true
    then sem text cmp calls row t else semW text cmp calls row v ws
end

end Verif.Sql
