import Verif.Model.Join
/-!
What joins mean in SQL.  Only the syntax (`X`, `Cond`, `Join`, `Ref`) is taken from the model; the value of an expression is the
usual one (`evalX`).
-/
namespace Verif.SqlJoin
open Verif.Join

variable {V : Type}

/-- `t` occurs before `u` in the list. -/
def Before {α : Type} (t u : α) (l : List α) : Prop := ∃ a b c, l = a ++ t :: (b ++ u :: c)

/-- The tables that can be reached from `cur` by following references. -/
inductive Reach {α : Type} (next : α → List α) (cur : List α) : α → Prop where
  | base {t} (h : t ∈ cur) : Reach next cur t
  | step {t u} (h : Reach next cur t) (h' : u ∈ next t) : Reach next cur u

/-- `e` gives each of the tables the row its ON condition selects in `e` itself (all NULL when there is none). -/
def Consistent (null : V) (eqv : V → V → Bool) (truthy : V → Bool) (sel : Name → (Row V → Bool) → Option (Row V)) (primary : Name)
    (info : Name → Table V) (tables : List Name) (e : Env V) : Prop :=
  ∀ t ∈ tables, e t = (sel t fun row =>
    (info t).keys.all (fun kx => eqv (row kx.1) (evalX (refVal primary e) kx.2)) && (info t).querys.all (fun q => q.2 (row q.1)) &&
      (info t).having.all fun x => truthy (evalX (refVal primary (upd e t row)) x)).getD fun _ => null

/-- The conjunct compares a column of the table `own` with the expression `x`, in either order. -/
inductive ComparesOwn (own : Name) : Cond V → X V → Prop where
  | left (op : Op) (k : Name) (x : X V) : ComparesOwn own (.cmp op (.col ⟨some own, k⟩) x) x
  | right (op : Op) (k : Name) (x : X V) : ComparesOwn own (.cmp op x (.col ⟨some own, k⟩)) x

/-- … and `x` has columns. -/
def LinksOwn (own : Name) (c : Cond V) : Prop := ∃ x, ComparesOwn own c x ∧ fields x ≠ []

/-- … and `x`, if it is a column, is a qualified column of one of the tables `can`. -/
def GoesToOn (can : List Name) (own : Name) (c : Cond V) : Prop :=
  ∃ x, ComparesOwn own c x ∧ ∀ r, x = .col r → ∃ t ∈ can, r.table = some t

/-- The matching rows of a join: those for which every conjunct of ON is true. -/
def matching (o : Ops V) (primary : Name) (db : Name → List (Row V)) (j : Join V) (e : Env V) : List (Env V) :=
  ((db j.name).map fun row n => if n = j.name then row else e n).filter fun e' =>
    j.on.all fun c => o.truthy (evalX (fun r => e' (r.table.getD primary) r.col) (condX o c))

/-- One join, by its kind: JOIN is INNER JOIN. -/
def step (null : V) (o : Ops V) (primary : Name) (db : Name → List (Row V)) (j : Join V) (e : Env V) : List (Env V) :=
  let m := matching o primary db j e
  match j.kind with
  | .left => if m = [] then [fun n => if n = j.name then (fun _ => null) else e n] else m
  | .inner | .plain => m

/-- The joins from left to right, and the WHERE. -/
def rows (null : V) (o : Ops V) (primary : Name) (db : Name → List (Row V)) : List (Join V) → Env V → List (Env V)
  | [], e => [e]
  | j :: js, e => (step null o primary db j e).flatMap (rows null o primary db js)

/-- `FROM a, b, …`: all combinations of rows. -/
def cross (db : Name → List (Row V)) : List Name → Env V → List (Env V)
  | [], e => [e]
  | t :: ts, e => ((db t).map fun row n => if n = t then row else e n).flatMap (cross db ts)

end Verif.SqlJoin
