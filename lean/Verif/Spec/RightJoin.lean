import Verif.Model.RightJoin
/-! What RIGHT JOIN means in SQL; of the model only the syntax is used (`RJoin`, `Cond`) and the value of expressions. -/
namespace Verif.SqlRight
open Verif.Join Verif.RightJoin

variable {V : Type}

/-- A conjunct is true. -/
def trueIn (o : Ops V) (e : Env V) (c : Cond V) : Prop := o.truthy (evalX (fun r => e (r.table.getD "") r.col) (condX o c)) = true

instance (o : Ops V) (e : Env V) (c : Cond V) : Decidable (trueIn o e c) := inferInstanceAs (Decidable (_ = true))

/-- The row `row` of table `t` beside the others. -/
def beside (e : Env V) (t : Name) (row : Row V) : Env V := fun n => if n = t then row else e n

/-- No rows. -/
def nothing (null : V) : Env V := fun _ _ => null

/-- One join: the rows so far are joined with the rows of `j.name`. -/
def step (null : V) (o : Ops V) (db : Name → List (Row V)) (es : List (Env V)) (j : RJoin V) : List (Env V) :=
  let ok := fun e => decide (∀ c ∈ j.on, trueIn o e c)
  match j.side with
  | .left => es.flatMap fun e =>
      let m := ((db j.name).map (beside e j.name)).filter ok
      if m = [] then [beside e j.name fun _ => null] else m
  | .inner | .plain => es.flatMap fun e => ((db j.name).map (beside e j.name)).filter ok
  | .right => (db j.name).flatMap fun row =>
      let m := (es.map fun e => beside e j.name row).filter ok
      if m = [] then [beside (nothing null) j.name row] else m

/-- `SELECT … FROM primary joins WHERE conjuncts`: all columns are qualified. -/
def rows (null : V) (o : Ops V) (primary : Name) (db : Name → List (Row V)) (js : List (RJoin V)) (ws : List (Cond V)) : List (Env V) :=
  (js.foldl (step null o db) ((db primary).map (beside (nothing null) primary))).filter fun e => decide (∀ c ∈ ws, trueIn o e c)

end Verif.SqlRight
