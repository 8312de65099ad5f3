import Verif.Model.Correlated
/-! SQL's meaning of a correlated subquery: for every outer row on its own, the rows of the subquery's tables that satisfy its
WHERE, a name standing for the subquery's own table when there is one (only the syntax is taken from the model). -/
namespace Verif.SqlCorrelated
open Verif.Join (Name Ref X)
open Verif.Correlated (Env Cond)

variable {V : Type}

/-- The columns of an expression. -/
def refs : X V → List Ref
  | .col r => [r]
  | .const _ => []
  | .un _ x => refs x
  | .bin _ x y => refs x ++ refs y
  | .between _ x lo hi => refs x ++ refs lo ++ refs hi
  | .app _ rs => rs

def condRefs : Cond V → List Ref
  | .and a b => condRefs a ++ condRefs b
  | .eq x y => refs x ++ refs y
  | .other x => refs x

/-- The innermost table of that name (unqualified names are the subquery's own). -/
def resolve (cur : List Name) (row outer : Env V) : Env V := fun r =>
  match r.table with
  | none => row r
  | some t => if t ∈ cur then row r else outer r

/-- The value of an expression. -/
def value (env : Env V) : X V → V
  | .col r => env r
  | .const v => v
  | .un f x => f (value env x)
  | .bin f x y => f (value env x) (value env y)
  | .between f x lo hi => f (value env x) (value env lo) (value env hi)
  | .app f rs => f (rs.map env)

/-- Whether a condition holds; `eq` is `=`. -/
def holds (eq : V → V → Bool) (truthy : V → Bool) (env : Env V) : Cond V → Bool
  | .and a b => holds eq truthy env a && holds eq truthy env b
  | .eq x y => eq (value env x) (value env y)
  | .other x => truthy (value env x)

/-- The rows of the subquery for an outer row. -/
def rows (eq : V → V → Bool) (truthy : V → Bool) (cur : List Name) (c : Cond V) (inner : List (Env V)) (outer : Env V) :
    List (Env V) :=
  inner.filter fun row => holds eq truthy (resolve cur row outer) c

/-- Every qualified column belongs to a table of the subquery or of the outer query. -/
def Scoped (cur parents : List Name) (l : List Ref) : Prop := ∀ r ∈ l, ∀ t, r.table = some t → t ∈ cur ∨ t ∈ parents

/-- No table of the subquery has the name of a table of the outer query. -/
def NoShadow (cur parents : List Name) : Prop := ∀ t ∈ cur, t ∉ parents

/-- The conditions joined by AND. -/
def conjuncts : Cond V → List (Cond V)
  | .and a b => conjuncts a ++ conjuncts b
  | c => [c]

/-- An equality of a column of the subquery with a column of the outer query, either way round. -/
def Correlates (cur parents : List Name) (own outer : Ref) (c : Cond V) : Prop :=
  (c = .eq (.col own) (.col outer) ∨ c = .eq (.col outer) (.col own)) ∧
  (∀ t, own.table = some t → t ∈ cur) ∧ ∃ t, outer.table = some t ∧ t ∈ parents

/-- No equality between the two queries is written twice. -/
def NoRepeat (cur parents : List Name) (c : Cond V) : Prop :=
  (conjuncts c).Pairwise fun a b => ∀ own outer, Correlates cur parents own outer a → ¬ Correlates cur parents own outer b

/-- Every condition that mentions the outer query is an equality of columns. -/
def OnlyEqualities (cur parents : List Name) (c : Cond V) : Prop :=
  ∀ a ∈ conjuncts c, (∃ own outer, Correlates cur parents own outer a) ∨
    ∀ r ∈ condRefs a, ∀ t, r.table = some t → t ∈ cur

/-- The operands of BETWEEN are the subquery's own. -/
def BetweenOwn (cur : List Name) : X V → Prop
  | .un _ x => BetweenOwn cur x
  | .bin _ x y => BetweenOwn cur x ∧ BetweenOwn cur y
  | .between _ x lo hi => ∀ r ∈ refs x ++ refs lo ++ refs hi, ∀ t, r.table = some t → t ∈ cur
  | _ => True

/-- BETWEEN in a condition. -/
def CondBetweenOwn (cur : List Name) : Cond V → Prop
  | .and a b => CondBetweenOwn cur a ∧ CondBetweenOwn cur b
  | .eq x y => BetweenOwn cur x ∧ BetweenOwn cur y
  | .other x => BetweenOwn cur x

/-- Every condition is an equality of columns of the two queries, or about the subquery only, or else: it mentions only the primary table
(the first) of the outer query, not in a BETWEEN, and it is not just a column. -/
def Placed (cur parents : List Name) (c : Cond V) : Prop :=
  ∀ a ∈ conjuncts c, (∃ own outer, Correlates cur parents own outer a) ∨ (∀ r ∈ condRefs a, ∀ t, r.table = some t → t ∈ cur) ∨
    (∀ r ∈ condRefs a, ∀ t, r.table = some t → t ∈ cur ∨ parents.head? = some t) ∧ CondBetweenOwn cur a ∧ ∀ r, a ≠ .other (.col r)

end Verif.SqlCorrelated
