import Verif.Model.JoinInner
/-!
Model of a SELECT with several tables in FROM: the rewriting to LEFT JOINs (compiler.py:2924-2927, 2942-2986, 3148-3201), then the
compilation of `JoinSelect`.

The WHERE is a list of conjuncts (SQL's AND is parsed from the left; a conjunct in parentheses is one expression).  The rewritten
statement is printed as SQL and parsed again, which is assumed to lose nothing (`generate_sql`, sqlglot).
-/
namespace Verif.JoinSelect
open Verif.Val Verif.Expr Verif.Where Verif.Reduce Verif.Select

variable {S : Type} (py : Py) (calls : Str → List Val → Val)

/-- A side of a comparison: a column as it is written (with its table, if it has one), or another expression. -/
inductive Side where
  | col (r : Join.Ref)
  | expr (e : E)

/-- A conjunct of the WHERE as compiler.py:3159-3161 tells them apart: a comparison, or anything else (IN, whose list is no
expression, included: compiler.py:3187-3191). -/
inductive Conj where
  | cmp (op : Cmp) (l r : Side)
  | other (e : E)

/-- A column in expressions (see `JoinSelect`): a column of the primary table is its name. -/
def colName (primary : Join.Name) (r : Join.Ref) : Str :=
  match r.table with
  | some t => if t = primary then r.col.toList else t.toList ++ '.' :: r.col.toList
  | none => r.col.toList

/-- The operand as an expression. -/
def Side.toE (primary : Join.Name) : Side → E
  | .col r => .col (colName primary r)
  | .expr e => e

/-- The conjunct as an expression. -/
def Conj.toE (primary : Join.Name) : Conj → E
  | .cmp op l r => .cmp op (l.toE primary) (r.toE primary)
  | .other e => e

/-- The WHERE. -/
def whereE (primary : Join.Name) : List Conj → Option E
  | [] => none
  | c :: cs => some (cs.foldl (fun e c => .and e (c.toE primary)) (c.toE primary))

/-- The operators. -/
def opOf : Cmp → Join.Op
  | .eq => .eq | .neq => .ne | .gt => .gt | .gte => .ge | .lt => .lt | .lte => .le

/-- compiler.py:3169-3186: a side, as to its being a column. -/
def Side.toX : Side → Join.X Val
  | .col r => .col r
  | .expr e => exprX py calls e

/-- compiler.py:3159-3201. -/
def Conj.toCond : Conj → Join.Cond Val
  | .cmp op l r => .cmp (opOf op) (l.toX py calls) (r.toX py calls)
  | .other e => .other (exprX py calls e)

/-- compiler.py:2924-2940, 2942-2986: `SELECT … FROM primary, ts JOIN js WHERE w`.  With several tables in FROM the tables `ts` become
LEFT JOINs and the WHERE stays; the statement that is built has no other joins (compiler.py:2966-2986), so `js` is lost. -/
def compileFrom (o : Join.Ops Val) (order : List Join.Name → List Join.Name) (fuel : Nat) (ts : List Join.Name)
    (js : List (Join.Join Val)) (w : List Conj) (q : Query S) : Option (Plan (Join.C Val) S) :=
  compileJoins py calls o order fuel
    (if ts = [] then js else Join.multiJoins (w.map (Conj.toCond py calls)) [String.ofList q.table] ts)
    { q with cond := whereE (String.ofList q.table) w }

end Verif.JoinSelect
