import Verif.Model.Tree
import Verif.Spec.Nest
import Verif.Spec.FromList
import Verif.Spec.WinSelect
/-! SQL's meaning of nested SELECTs with joins and window functions, UNION ALL and WITH: each part is evaluated by itself; a name of
WITH stands for the rows of its query, in the body only. -/
namespace Verif.SqlTree
open Verif.Val Verif.Expr Verif.Select Verif.SqlSelect Verif.Tree
open Verif.SqlNest (rowOfRecord QueryResult isAggregate)

variable {S : Type} (text : Str → Bool) (cmp : Cmp → Val → Val → Val) (calls : Str → List Val → Val) (le : Val → Val → Bool)
  (o : Join.Ops Val)

/-- `out` is a result of the SELECT over the rows of its joins. -/
def JoinQueryResult (q : Query S) (rows : List Row) (out : List Out) : Prop :=
  if q.group ≠ [] ∨ ∃ c ∈ q.cols, isAggregate c.2 = true then GroupResult text cmp calls le q rows out
  else if q.distinct then DistinctResult text cmp calls le q rows out
  else JoinRowResult text cmp calls le q rows out

/-- The table that is joined under the name `n`: the one whose join is the first of that name. -/
def joinedTable : List (Join.Join Val) → List (List Row) → Join.Name → List (Join.Row Val)
  | j :: js, t :: ts, n => if j.name = n then t.map (fun r c => r c.toList) else joinedTable js ts n
  | _, _, _ => []

/-- The table that stands under the name `n` in FROM. -/
def listedTable : List Join.Name → List (List Row) → Join.Name → List (Join.Row Val)
  | m :: ms, t :: ts, n => if m = n then t.map (fun r c => r c.toList) else listedTable ms ts n
  | _, _, _ => []

/-- `out` is a result of the SELECT from `rows` with the joined tables `others`. -/
def KindResult (rows : List Row) (others : List (List Row)) (out : List Out) : Kind S → Prop
  | .plain q => QueryResult text cmp calls le q rows out
  | .joined joins q =>
      JoinQueryResult text cmp calls le q (joinedRows o (String.ofList q.table) (joinedTable joins others) joins rows) out
  | .comma ts w q =>
      JoinQueryResult text cmp calls le { q with cond := JoinSelect.whereE (String.ofList q.table) w }
        (crossRows (String.ofList q.table) (listedTable ts others) ts rows) out
  | .windowed q => SqlWindow.WinResult text cmp calls le q rows out
  | .sub _ _ => False
  | .hav _ _ => False

/-- The column names of a result. -/
def header : Rel S → List Str
  | .scan _ => []
  | .select k _ _ => k.names
  | .union l _ => header l
  | .withq _ _ b => header b

def headers : Rels S → List (List Str)
  | .nil => []
  | .cons e l => header e :: headers l

/-- A list of values. -/
def listOf : List Val → EL
  | [] => .nil
  | v :: l => .cons (.lit v) (listOf l)

/-- A WHERE clause with the results of its subqueries in their places: `vals i` are the values of the only column of the `i`-th. A
subquery that is compared stands for its value, or NULL if it has no rows. -/
def given (vals : Nat → List Val) : Cond → E
  | .e x => x
  | .and a b => .and (given vals a) (given vals b)
  | .or a b => .or (given vals a) (given vals b)
  | .not a => .not (given vals a)
  | .paren a => .paren (given vals a)
  | .cmpSub op a i => .cmp op a (.lit ((vals i).headD .null))
  | .subCmp op i a => .cmp op (.lit ((vals i).headD .null)) a
  | .inSub a i => .inl a (listOf (vals i))
  | .exist i => .lit (.bool (!(vals i).isEmpty))

/-- A subquery that is compared has one row at most (it is an error otherwise). -/
def Single (vals : Nat → List Val) : Cond → Prop
  | .and a b => Single vals a ∧ Single vals b
  | .or a b => Single vals a ∧ Single vals b
  | .not a => Single vals a
  | .paren a => Single vals a
  | .cmpSub _ _ i => (vals i).length ≤ 1
  | .subCmp _ i _ => (vals i).length ≤ 1
  | .e _ => True
  | .inSub _ _ => True
  | .exist _ => True

/-- The values of the first column of the `i`-th of these results. -/
def firstColumn (heads : List (List Str)) (others : List (List Row)) (i : Nat) : List Val :=
  (others[i]?.getD []).map fun r => match (heads[i]?.getD []).head? with
    | some c => r c
    | none => .null

/-- The SELECT with this WHERE clause; with several tables in FROM: as a further conjunct. -/
def withWhere (c : E) : Kind S → Kind S
  | .plain q => .plain { q with cond := some c }
  | .joined joins q => .joined joins { q with cond := some c }
  | .comma ts w q => .comma ts (w ++ [.other c]) q
  | .windowed q => .windowed { q with cond := some c }
  | .sub _ k => withWhere c k
  | .hav h k => .hav h (withWhere c k)

/-- The SELECT with this HAVING clause. -/
def havingThis (c : E) : Kind S → Kind S
  | .plain q => .plain { q with having := some c }
  | .joined joins q => .joined joins { q with having := some c }
  | .comma ts w q => .comma ts w { q with having := some c }
  | .windowed q => .windowed { q with having := some c }
  | .sub w k => .sub w (havingThis c k)
  | .hav h k => .hav h k

/-- A HAVING clause with the results of its subqueries in their places. -/
def givenHaving (vals : Nat → List Val) : HCond → E
  | .e x => x
  | .and a b => .and (givenHaving vals a) (givenHaving vals b)
  | .or a b => .or (givenHaving vals a) (givenHaving vals b)
  | .paren a => .paren (givenHaving vals a)
  | .cmpSub op a i => .cmp op a (.lit ((vals i).headD .null))
  | .inSub a i => .inl a (listOf (vals i))
  | .notIn a i => .not (.inl a (listOf (vals i)))
  | .exist i => .lit (.bool (!(vals i).isEmpty))

/-- A subquery that is compared has one row at most. -/
def SingleHaving (vals : Nat → List Val) : HCond → Prop
  | .and a b => SingleHaving vals a ∧ SingleHaving vals b
  | .or a b => SingleHaving vals a ∧ SingleHaving vals b
  | .paren a => SingleHaving vals a
  | .cmpSub _ _ i => (vals i).length ≤ 1
  | .e _ => True
  | .inSub _ _ => True
  | .notIn _ _ => True
  | .exist _ => True

/-- The SELECT with the results of the subqueries of WHERE in their places: the sources are those of the joins, then the subqueries. -/
def placed (heads : List (List Str)) (others : List (List Row)) : Kind S → Kind S
  | .sub w k => withWhere (given (fun i => firstColumn heads others (k.joins.length + i)) w) k
  | .plain q => .plain q
  | .joined joins q => .joined joins q
  | .comma ts w q => .comma ts w q
  | .windowed q => .windowed q
  | .hav h k => .hav h k

/-- The subqueries compared in WHERE have one row at most. -/
def SingleWhere (heads : List (List Str)) (others : List (List Row)) : Kind S → Prop
  | .sub w k => Single (fun i => firstColumn heads others (k.joins.length + i)) w
  | .plain _ => True
  | .joined _ _ => True
  | .comma _ _ _ => True
  | .windowed _ => True
  | .hav _ _ => True

/-- `out` is a result of the SELECT, whose WHERE and HAVING clauses may have subqueries: the sources are those of the joins, then the
subqueries of WHERE, then those of HAVING. -/
def SelectResult (rows : List Row) (heads : List (List Str)) (others : List (List Row)) (out : List Out) : Kind S → Prop
  | .sub w k => Single (fun i => firstColumn heads others (k.joins.length + i)) w ∧
      KindResult text cmp calls le o rows others out (withWhere (given (fun i => firstColumn heads others (k.joins.length + i)) w) k)
  | .plain q => KindResult text cmp calls le o rows others out (.plain q)
  | .joined joins q => KindResult text cmp calls le o rows others out (.joined joins q)
  | .comma ts w q => KindResult text cmp calls le o rows others out (.comma ts w q)
  | .windowed q => KindResult text cmp calls le o rows others out (.windowed q)
  | .hav h k => SingleWhere heads others k ∧ SingleHaving (fun i => firstColumn heads others (k.joins.length + k.subs + i)) h ∧
      KindResult text cmp calls le o rows others out
        (havingThis (givenHaving (fun i => firstColumn heads others (k.joins.length + k.subs + i)) h) (placed heads others k))

mutual
/-- `out` is a result. -/
def Means (env : Str → List Out) : Rel S → List Out → Prop
  | .scan t, out => out = env t
  | .select k src more, out => ∃ rows others, Means env src rows ∧ MeansAll env more others ∧
      SelectResult text cmp calls le o (rows.map rowOfRecord) (headers more) (others.map (·.map rowOfRecord)) out k
  | .union l r, out => ∃ a b, Means env l a ∧ Means env r b ∧ out = a ++ b
  | .withq n d b, out => ∃ rows, Means env d rows ∧ Means (fun m => if m = n then rows else env m) b out
/-- `outs` are results of the members of the list. -/
def MeansAll (env : Str → List Out) : Rels S → List (List Out) → Prop
  | .nil, outs => outs = []
  | .cons e l, outs => ∃ out rest, Means env e out ∧ MeansAll env l rest ∧ outs = out :: rest
end

mutual
/-- The names WITH binds anywhere in it. -/
def bound : Rel S → List Str
  | .scan _ => []
  | .select _ s m => bound s ++ bounds m
  | .union l r => bound l ++ bound r
  | .withq n d b => bound d ++ n :: bound b
def bounds : Rels S → List Str
  | .nil => []
  | .cons e l => bound e ++ bounds l
end

mutual
/-- The tables it reads that it does not define. -/
def free : Rel S → List Str
  | .scan t => [t]
  | .select _ s m => free s ++ frees m
  | .union l r => free l ++ free r
  | .withq n d b => free d ++ (free b).filter fun m => decide (m ≠ n)
def frees : Rels S → List Str
  | .nil => []
  | .cons e l => free e ++ frees l
end

/-- The names are used apart: what one binds the other neither binds nor reads. -/
def Apart (b f b' f' : List Str) : Prop := (∀ n ∈ b, n ∉ f' ∧ n ∉ b') ∧ ∀ n ∈ b', n ∉ f ∧ n ∉ b

mutual
/-- Every name of WITH is defined once, and read only in the body. -/
def Scoped : Rel S → Prop
  | .scan _ => True
  | .select _ s m => Scoped s ∧ Scopeds m ∧ Apart (bound s) (free s) (bounds m) (frees m)
  | .union l r => Scoped l ∧ Scoped r ∧ Apart (bound l) (free l) (bound r) (free r)
  | .withq n d b => Scoped d ∧ Scoped b ∧ n ∉ bound d ∧ n ∉ bound b ∧ Apart (bound d) (free d) (bound b) (free b)
def Scopeds : Rels S → Prop
  | .nil => True
  | .cons e l => Scoped e ∧ Scopeds l ∧ Apart (bound e) (free e) (bounds l) (frees l)
end

/-- The column is an expression of window functions. -/
def isWinExpr : WinSelect.Item S → Bool
  | .calc _ _ => true
  | _ => false

/-- No column is. -/
def keepsOrder : Kind S → Bool
  | .windowed q => q.cols.all fun c => !isWinExpr c.2
  | .plain _ => true
  | .joined _ _ => true
  | .comma _ _ _ => true
  | .sub _ k => keepsOrder k
  | .hav _ k => keepsOrder k

/-- A SELECT or a UNION; expressions of window functions change the order of the columns (`C65_column_order_violated`). -/
def isQuery : Rel S → Bool
  | .select k _ _ => keepsOrder k
  | .union l r => isQuery l && isQuery r
  | _ => false

/-- The same, perhaps after WITH. -/
def isAnswer : Rel S → Bool
  | .withq _ _ b => isAnswer b
  | e => isQuery e

mutual
/-- The parts of a UNION are SELECTs with the same column names. -/
def Aligned : Rel S → Prop
  | .scan _ => True
  | .select _ s m => Aligned s ∧ Aligneds m
  | .union l r => Aligned l ∧ Aligned r ∧ isQuery l = true ∧ isQuery r = true ∧ header l = header r
  | .withq _ d b => Aligned d ∧ Aligned b
def Aligneds : Rels S → Prop
  | .nil => True
  | .cons e l => Aligned e ∧ Aligneds l
end

end Verif.SqlTree
