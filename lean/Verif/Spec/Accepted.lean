import Verif.Model.JoinSelect
/-! Queries that are to be accepted. -/
namespace Verif.AcceptSpec
open Verif.Val Verif.Expr Verif.Select

/-- HAVING: comparisons, IN, IS, NOT and BETWEEN, in parentheses, joined by AND and OR. -/
inductive HavingForm : E → Prop where
  | cmp (op : Cmp) (a b : E) : HavingForm (.cmp op a b)
  | inl (a : E) (l : EL) : HavingForm (.inl a l)
  | is (a : E) (w : IsWhat) : HavingForm (.is a w)
  | not (a : E) : HavingForm (.not a)
  | between (a lo hi : E) : HavingForm (.between a lo hi)
  | paren {a : E} (h : HavingForm a) : HavingForm (.paren a)
  | and {a b : E} (h : HavingForm a) (h' : HavingForm b) : HavingForm (.and a b)
  | or {a b : E} (h : HavingForm a) (h' : HavingForm b) : HavingForm (.or a b)

mutual
/-- An expression and all the expressions in it. -/
def parts : E → List E
  | .lit v => [.lit v]
  | .col c => [.col c]
  | .cmp op a b => .cmp op a b :: (parts a ++ parts b)
  | .and a b => .and a b :: (parts a ++ parts b)
  | .or a b => .or a b :: (parts a ++ parts b)
  | .not a => .not a :: parts a
  | .is a w => .is a w :: parts a
  | .inl a l => .inl a l :: (parts a ++ partsL l)
  | .between a lo hi => .between a lo hi :: (parts a ++ (parts lo ++ parts hi))
  | .paren a => .paren a :: parts a
  | .ite c t f => .ite c t f :: (parts c ++ (parts t ++ parts f))
  | .ifnull a b => .ifnull a b :: (parts a ++ parts b)
  | .coalesce a l => .coalesce a l :: (parts a ++ partsL l)
  | .caseC ws => .caseC ws :: partsW ws
  | .caseV a ws => .caseV a ws :: (parts a ++ partsW ws)
  | .call f l => .call f l :: partsL l
def partsL : EL → List E
  | .nil => []
  | .cons e l => parts e ++ partsL l
def partsW : WL → List E
  | .noElse => []
  | .els e => parts e
  | .when c t ws => parts c ++ (parts t ++ partsW ws)
end

/-- BETWEEN occurs in the expression. -/
def Between (e : E) : Prop := ∃ a lo hi, E.between a lo hi ∈ parts e

/-- The column is one of a joined table `t`. -/
def OfTable (c : Str) (t : Join.Name) : Prop := (JoinSelect.refOf c).table = some t

/-- The expression uses a joined table. -/
def Joined (e : E) : Prop := ∃ c t, E.col c ∈ parts e ∧ OfTable c t

variable {S : Type}

/-- The names of the result columns. -/
def names (q : Query S) : List Str := q.cols.map (·.1)

/-- HAVING, ORDER BY and GROUP BY as they should be: HAVING is about result columns; ORDER BY has result columns only, or columns of the
primary table only, written with its name; GROUP BY has no aggregates. -/
structure QueryOk (q : Query S) : Prop where
  having : ∀ e, q.having = some e → HavingForm e ∧ ∀ c, E.col c ∈ parts e → c ∈ names q
  order : (∀ i ∈ q.order, ∃ n ∈ names q, i.1 = .expr (some n) ∨ ∃ t, i.1 = .col t n) ∨ ∀ i ∈ q.order, ∃ n, i.1 = .col (some q.table) n
  group : ∀ c, GKey.bare c ∈ q.group → ∀ args final, (c, Item.agg args final) ∉ q.cols

/-- The expressions of a query that are calculated on the rows of the tables. -/
inductive ExprOf (q : Query S) : E → Prop where
  | column {n e} (h : (n, Item.expr e) ∈ q.cols) : ExprOf q e
  | arg {n args final a} (h : (n, Item.agg args final) ∈ q.cols) (ha : a ∈ args) : ExprOf q a.2
  | key {e} (h : GKey.expr e ∈ q.group) : ExprOf q e
  | name {c} (h : GKey.bare c ∈ q.group) : ExprOf q (.col c)
  | cond {e} (h : q.cond = some e) : ExprOf q e

/-- The expressions of a query with joins: their tables are joined, and there is no BETWEEN with columns of joined tables. -/
def ExprsOk (q : Query S) (joins : List (Join.Join Val)) : Prop :=
  ∀ e, ExprOf q e → (∀ c t, E.col c ∈ parts e → OfTable c t → t ∈ joins.map (·.name)) ∧ ¬ (Between e ∧ Joined e)

/-- The table `t` is used: a column of it is written in some ON, in the select list, WHERE, GROUP BY, HAVING or ORDER BY. -/
def Used (q : Query S) (joins : List (Join.Join Val)) (t : Join.Name) : Prop :=
  (∃ j ∈ joins, ∃ c ∈ j.on, ∃ r ∈ Join.condFields c, r.table = some t) ∨
  (∃ e c, (ExprOf q e ∨ q.having = some e) ∧ E.col c ∈ parts e ∧ OfTable c t) ∨
  ∃ n d, (Order.Item.col (some t.toList) n, d) ∈ q.order

end Verif.AcceptSpec
