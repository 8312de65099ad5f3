import Verif.Model.Nest
import Verif.Spec.Select
/-! SQL's meaning of nested SELECTs, UNION ALL and WITH: each part is evaluated by itself; a name of WITH stands for the rows of its
query, in the body only. -/
namespace Verif.SqlNest
open Verif.Val Verif.Expr Verif.Select Verif.SqlSelect Verif.Nest

variable {S : Type} (text : Str → Bool) (cmp : Cmp → Val → Val → Val) (calls : Str → List Val → Val) (le : Val → Val → Bool)

/-- A column of the select list is an aggregate. -/
def isAggregate : Select.Item S → Bool
  | .agg _ _ => true
  | .expr _ => false

/-- `out` is a result of the SELECT over `rows`. -/
def QueryResult (q : Query S) (rows : List Row) (out : List Out) : Prop :=
  if q.group ≠ [] ∨ ∃ c ∈ q.cols, isAggregate c.2 = true then GroupResult text cmp calls le q rows out
  else if q.distinct then DistinctResult text cmp calls le q rows out
  else RowResult text cmp calls le q rows out

/-- A record as a row: the value of each of its columns. -/
def rowOfRecord (o : Out) : Row := fun c => colVal (Where.baseName c) o

/-- `out` is a result. -/
def Means (env : Str → List Out) : Rel S → List Out → Prop
  | .scan t, out => out = env t
  | .select q src, out => ∃ rows, Means env src rows ∧ QueryResult text cmp calls le q (rows.map rowOfRecord) out
  | .union l r, out => ∃ a b, Means env l a ∧ Means env r b ∧ out = a ++ b
  | .withq n d b, out => ∃ rows, Means env d rows ∧ Means (fun m => if m = n then rows else env m) b out

/-- The names WITH binds anywhere in it. -/
def bound : Rel S → List Str
  | .scan _ => []
  | .select _ s => bound s
  | .union l r => bound l ++ bound r
  | .withq n d b => bound d ++ n :: bound b

/-- The tables it reads that it does not define. -/
def free : Rel S → List Str
  | .scan t => [t]
  | .select _ s => free s
  | .union l r => free l ++ free r
  | .withq n d b => free d ++ (free b).filter fun m => decide (m ≠ n)

/-- The column names of a result. -/
def header : Rel S → List Str
  | .scan _ => []
  | .select q _ => q.cols.map (·.1)
  | .union l _ => header l
  | .withq _ _ b => header b

/-- A SELECT or a UNION. -/
def isQuery : Rel S → Bool
  | .select _ _ => true
  | .union l r => isQuery l && isQuery r
  | _ => false

/-- Every name of WITH is defined once, and read only in the body. -/
def Scoped : Rel S → Prop
  | .scan _ => True
  | .select _ s => Scoped s
  | .union l r => Scoped l ∧ Scoped r ∧ (∀ n ∈ bound l, n ∉ free r ∧ n ∉ bound r)
  | .withq n d b => Scoped d ∧ Scoped b ∧ n ∉ bound d ∧ n ∉ bound b ∧ (∀ m ∈ bound d, m ∉ free b ∧ m ∉ bound b)

/-- The parts of a UNION are SELECTs with the same column names. -/
def Aligned : Rel S → Prop
  | .scan _ => True
  | .select _ s => Aligned s
  | .union l r => Aligned l ∧ Aligned r ∧ isQuery l = true ∧ isQuery r = true ∧ header l = header r
  | .withq _ d b => Aligned d ∧ Aligned b

end Verif.SqlNest
