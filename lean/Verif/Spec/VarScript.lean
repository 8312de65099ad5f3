import Verif.Model.VarScript
import Verif.Spec.Session
/-! SQL's meaning of a script with user variables: the statements act one after the other, each with the variables as the statements
before it left them.  Of the model only the syntax is used. -/
namespace Verif.SqlVarScript
open Verif.Val Verif.Expr Verif.Sql Verif.Select Verif.SqlTree
open Verif.Into (Stored)
open Verif.VarScript (Stmt getter)

/-- Variables, tables, and the results shown. -/
structure State where
  env : Str → Option (Stored Val)
  tables : Str → List Out
  shown : List (List Out)

variable {S : Type} (image : Stored Val → Val) (text : Str → Bool) (cmp : Cmp → Val → Val → Val) (calls : Str → List Val → Val)
  (le : Val → Val → Bool) (o : Join.Ops Val) (minus : Val → Val)

/-- What a variable holds: NULL if it was never set. -/
def held (env : Str → Option (Stored Val)) (v : Str) : Stored Val := (env v).getD (.scalar .null)

/-- The functions, and the value of a variable. -/
def functions (env : Str → Option (Stored Val)) (f : Str) (args : List Val) : Val :=
  if f = getter then
    match args with
    | [.str v] => image (held env v)
    | _ => .null
  else calls f args

/-- What INTO stores: of one row with one value the value, of another row the row; of no row or several the list of the rows, or of
their values if there is one column. -/
def stored (columns : List Str) : List Out → Stored Val
  | [r] => match r with
    | [(_, v)] => .scalar v
    | r => .row r
  | out => if columns.length = 1 then .column (out.flatMap fun r => r.map (·.2)) else .rows out

def assign (env : Str → Option (Stored Val)) (v : Str) (x : Stored Val) : Str → Option (Stored Val) := fun m => if m = v then some x else env m

/-- The state, as a statement that assigns no variable sees it. -/
def seen (s : State) : SqlSession.State := ⟨fun n => (s.env n).map image, s.tables, s.shown⟩

/-- One statement. -/
inductive Step : State → Stmt S → State → Prop where
  | set (s : State) (n : Str) (v : Val) : Step s (.plain (.set n v)) { s with env := assign s.env n (.scalar v) }
  | into (s : State) (e : Tree.Rel S) (v : Str) (out : List Out) : Means text cmp (functions image calls s.env) le o s.tables e out →
      Step s (.into e v) { s with env := assign s.env v (stored (header e) out) }
  /-- the others leave the variables as they are -/
  | other (s : State) (x : Session.Stmt S) (s' : SqlSession.State) : (∀ n v, x ≠ .set n v) →
      SqlSession.Step text cmp (functions image calls s.env) le o minus (seen image s) x s' →
      Step s (.plain x) ⟨s.env, s'.tables, s'.shown⟩

/-- All statements in order. -/
inductive Steps : State → List (Stmt S) → State → Prop where
  | nil (s : State) : Steps s [] s
  | cons (s s' s'' : State) (x : Stmt S) (xs : List (Stmt S)) : Step image text cmp calls le o minus s x s' → Steps s' xs s'' →
      Steps s (x :: xs) s''

/-- The names a statement gives to named queries. -/
def binds : Stmt S → List Str
  | .plain x => SqlSession.binds x
  | .into e _ => bound e

/-- The tables a statement reads or writes. -/
def uses : Stmt S → List Str
  | .plain x => SqlSession.uses x
  | .into e _ => free e

/-- A UNION, perhaps after WITH. -/
inductive IsUnion : Tree.Rel S → Prop where
  | here (l r : Tree.Rel S) : IsUnion (.union l r)
  | under (n : Str) (d b : Tree.Rel S) : IsUnion b → IsUnion (.withq n d b)

/-- The statement is a SET. -/
def isSet : Stmt S → Bool
  | .plain (.set _ _) => true
  | _ => false

/-- The statement is INSERT … VALUES. -/
def isValues : Stmt S → Bool
  | .plain (.values _ _ _) => true
  | _ => false

/-- The variables whose values are inserted by INSERT … VALUES. -/
def reads : Stmt S → List Str
  | .plain (.values _ _ rows) => rows.flatMap fun r => r.filterMap fun
      | .param n => some ('@' :: n)
      | _ => none
  | _ => []

/-- The variable INTO assigns to. -/
def fills : Stmt S → List Str
  | .into _ v => [v]
  | _ => []

/-- The order of a script in which compiling the statements before running them makes no difference: a SET stands before everything but
SETs and VALUES, and VALUES do not read what an INTO before them assigns. -/
def Ordered (ss : List (Stmt S)) : Prop :=
  ss.Pairwise fun a b => (isSet b = true → isSet a = true ∨ isValues a = true) ∧ ∀ v ∈ fills a, v ∉ reads b

end Verif.SqlVarScript
