import Verif.Model.Nest
import Verif.Model.FromList
import Verif.Model.WinSelect
import Verif.Model.HavingSub
/-!
Model of statements made of several SELECTs, to any depth, where a SELECT may have joins, with tables or subqueries as their right
sides, or window columns: subqueries in FROM (compiler.py:253-269 `compile_subquery`, 411-428) and in JOIN (2003-2020 `parse_joins`),
UNION (339-384) and WITH (226-227, 237-251), subqueries that do not depend on the row in WHERE (1014-1059) and HAVING (1876-1882).  Each
SELECT is one of `Model.Select`, `Model.JoinSelect` (LEFT or INNER JOINs), `Model.FromList` (FROM a, b, …) or `Model.WinSelect`; its WHERE
clause may be one of `Model.SubOperand`, its HAVING clause one of `Model.HavingSub` (without LIKE).

As in `Model.Nest` (SELECTs without joins and windows) the collection of a subquery is not named; recursive WITH, subqueries in
other expressions and `compile_pipleline_select` are not in this file.  All dependencies run before the SELECT that needs them reads
anything (query.py:112-121): so does the SELECT's table.
-/
namespace Verif.Tree
open Verif.Val Verif.Expr Verif.Select
open Verif.Nest (Store append asRow)

/-- A WHERE clause with subqueries that do not depend on the row (compiler.py:810-960, 1014-1059); a subquery is given by its place
among the subqueries of the clause. -/
inductive Cond where
  | e (x : E)
  | and (a b : Cond)
  | or (a b : Cond)
  | not (a : Cond)
  | paren (a : Cond)
  | cmpSub (op : Cmp) (a : E) (i : Nat)
  | subCmp (op : Cmp) (i : Nat) (a : E)
  | inSub (a : E) (i : Nat)
  | exist (i : Nat)

/-- A HAVING clause with subqueries that do not depend on the row (compiler.py:1813-1931); `notIn` is `a NOT IN (SELECT …)`. -/
inductive HCond where
  | e (x : E)
  | and (a b : HCond)
  | or (a b : HCond)
  | paren (a : HCond)
  | cmpSub (op : Cmp) (a : E) (i : Nat)
  | inSub (a : E) (i : Nat)
  | notIn (a : E) (i : Nat)
  | exist (i : Nat)

/-- A SELECT without its sources; `comma ts w`: FROM its table, `ts` WHERE `w` (the WHERE of the query is not looked at); `sub`: with this
WHERE clause in place of its own, or, in a SELECT from several tables, as a further conjunct, in parentheses unless it is a single condition:
such a conjunct does not become part of an ON (compiler.py:3187-3191, 3200-3201); `hav`: with this HAVING clause in place of its own, and
outside of `sub`. -/
inductive Kind (S : Type) where
  | plain (q : Query S)
  | joined (joins : List (Join.Join Val)) (q : Query S)
  | comma (ts : List Join.Name) (w : List JoinSelect.Conj) (q : Query S)
  | windowed (q : WinSelect.Query S)
  | sub (w : Cond) (k : Kind S)
  | hav (h : HCond) (k : Kind S)

mutual
/-- What can be read: a table, a SELECT from something, with what its joins join, a UNION ALL, a WITH with one named query (several:
nested). -/
inductive Rel (S : Type) where
  | scan (t : Str)
  | select (k : Kind S) (src : Rel S) (more : Rels S)
  | union (l r : Rel S)
  | withq (n : Str) (d body : Rel S)
/-- The sources beside FROM. -/
inductive Rels (S : Type) where
  | nil
  | cons (e : Rel S) (rest : Rels S)
end

variable {S : Type}

/-- The names of the columns of the select list. -/
def Kind.names : Kind S → List Str
  | .plain q => q.cols.map (·.1)
  | .joined _ q => q.cols.map (·.1)
  | .comma _ _ q => q.cols.map (·.1)
  | .windowed q => q.cols.map (·.1)
  | .sub _ k => k.names
  | .hav _ k => k.names

/-- The names under which the joins know what they join (compiler.py:2021-2024), in order. -/
def Kind.joins : Kind S → List Join.Name
  | .joined joins _ => joins.map (·.name)
  | .comma ts _ _ => ts
  | .sub _ k => k.joins
  | .hav _ k => k.joins
  | .plain _ => []
  | .windowed _ => []

/-- How many subqueries there are. -/
def Cond.subs : Cond → Nat
  | .e _ => 0
  | .and a b => max a.subs b.subs
  | .or a b => max a.subs b.subs
  | .not a => a.subs
  | .paren a => a.subs
  | .cmpSub _ _ i => i + 1
  | .subCmp _ i _ => i + 1
  | .inSub _ i => i + 1
  | .exist i => i + 1

/-- How many subqueries there are. -/
def HCond.subs : HCond → Nat
  | .e _ => 0
  | .and a b => max a.subs b.subs
  | .or a b => max a.subs b.subs
  | .paren a => a.subs
  | .cmpSub _ _ i => i + 1
  | .inSub _ i => i + 1
  | .notIn _ i => i + 1
  | .exist i => i + 1

/-- The subqueries of WHERE, then those of HAVING. -/
def Kind.subs : Kind S → Nat
  | .sub w _ => w.subs
  | .hav h k => k.subs + h.subs
  | _ => 0

/-- compiler.py:1053-1059: a clause whose subqueries have run. -/
def Cond.toS (sub : Nat → SubOperand.Sub) : Cond → SubOperand.S
  | .e x => .e x
  | .and a b => .and (a.toS sub) (b.toS sub)
  | .or a b => .or (a.toS sub) (b.toS sub)
  | .not a => .not (a.toS sub)
  | .paren a => .paren (a.toS sub)
  | .cmpSub op a i => .cmpSub op a (sub i)
  | .subCmp op i a => .subCmp op (sub i) a
  | .inSub a i => .inSub a (sub i)
  | .exist i => .exist (sub i)

/-- compiler.py:1876-1882: a clause whose subqueries have run. -/
def HCond.toH (sub : Nat → SubOperand.Sub) : HCond → HavingSub.H
  | .e x => .e x
  | .and a b => .and (a.toH sub) (b.toH sub)
  | .or a b => .or (a.toH sub) (b.toH sub)
  | .paren a => .paren (a.toH sub)
  | .cmpSub op a i => .cmpSub op a (sub i)
  | .inSub a i => .inSub a (sub i)
  | .notIn a i => .notIn a (sub i)
  | .exist i => .exist (sub i)

/-- compiler.py:1877-1878, 1054-1055: TypeError in HAVING (`HavingSub.compileH`). -/
def HCond.refused : HCond → Bool
  | .e _ => false
  | .and a b => a.refused || b.refused
  | .or a b => a.refused || b.refused
  | .paren a => a.refused
  | .cmpSub _ a _ => HavingSub.typedE a
  | .inSub a _ => HavingSub.typedE a
  | .notIn _ _ => false
  | .exist _ => false

/-- The columns of the primary table. -/
def Kind.prim : Kind S → Str → Bool
  | .plain q => q.prim
  | .joined _ _ => JoinSelect.isPrim
  | .comma _ _ _ => JoinSelect.isPrim
  | .windowed q => q.prim
  | .sub _ k => k.prim
  | .hav _ k => k.prim

/-- compiler.py:1054-1055 (`SubOperand.refused`): TypeError. -/
def Kind.refused : Kind S → Bool
  | .sub w k => SubOperand.refused k.prim (w.toS fun _ => ⟨none, [], [], []⟩)
  | .hav h k => h.refused || k.refused
  | .plain _ => false
  | .joined _ _ => false
  | .comma _ _ _ => false
  | .windowed _ => false

/-- A value that is known when the SELECT runs, but is no constant for `parse_condition_typing_filter` (`SubOperand.first`). -/
def known (v : Val) : E := .ite (.lit (.int 1)) (.lit v) (.lit .null)

/-- A list of constants. -/
def lits : List Val → EL
  | [] => .nil
  | v :: l => .cons (.lit v) (lits l)

/-- compiler.py:810-1059: the clause with what is known of the subqueries: it is compiled to what `SubOperand` compiles it to
(`Verif.Props.TreeLemmas.asE_compile`), except that a subquery with several rows as the operand of a comparison stands for its first
row here (`C167_many_rows_violated`). -/
def asE : SubOperand.S → E
  | .e x => x
  | .and a b => .and (asE a) (asE b)
  | .or a b => .or (asE a) (asE b)
  | .not a => .not (asE a)
  | .paren a => .paren (asE a)
  | .cmpSub op a s => .cmp op a (known (s.values.headD .null))
  | .subCmp op s a => .cmp op (known (s.values.headD .null)) a
  | .inSub a s => .inl a (lits s.values)
  | .exist s => .lit (.int (if s.rows.isEmpty then 0 else 1))

/-- compiler.py:1813-1931: the clause with what is known of the subqueries: it is compiled to what `HavingSub` compiles it to
(`Verif.Props.TreeLemmas.asH_eval`), up to what EXISTS is written as, and many rows as in `asE`. -/
def asH : HavingSub.H → E
  | .e x => x
  | .and a b => .and (asH a) (asH b)
  | .or a b => .or (asH a) (asH b)
  | .paren a => .paren (asH a)
  | .cmpSub op a s => .cmp op a (known (s.values.headD .null))
  | .inSub a s => .inl a (lits s.values)
  | .notIn a s => .not (.inl a (lits s.values))
  | .exist s => .cmp .eq (.lit (.int 1)) (.lit (.int (if s.rows.isEmpty then 0 else 1)))
  | .like a p => .call "re::match".toList (.cons (.lit (.str (HavingSub.pattern p))) (.cons a .nil))    -- not from `HCond.toH`

/-- The SELECT with this WHERE clause, or with it as a further conjunct (see `Kind`). -/
def Kind.withCond (c : E) : Kind S → Kind S
  | .plain q => .plain { q with cond := some c }
  | .joined joins q => .joined joins { q with cond := some c }
  | .comma ts w q => .comma ts (w ++ [.other c]) q
  | .windowed q => .windowed { q with cond := some c }
  | .sub _ k => k.withCond c
  | .hav h k => .hav h (k.withCond c)

/-- The SELECT with this HAVING clause. -/
def Kind.withHaving (c : E) : Kind S → Kind S
  | .plain q => .plain { q with having := some c }
  | .joined joins q => .joined joins { q with having := some c }
  | .comma ts w q => .comma ts w { q with having := some c }
  | .windowed q => .windowed { q with having := some c }
  | .sub w k => .sub w (k.withHaving c)
  | .hav h k => .hav h k

/-- The `i`-th source beside FROM, as a subquery of WHERE: `heads` the columns of the schemas. -/
def subOf (heads : List (List Str)) (others : List (List Row)) (i : Nat) : SubOperand.Sub :=
  { schema := some (heads[i]?.getD []), column := (heads[i]?.getD []).headD [], rows := others[i]?.getD [] }

/-- The SELECT with what is known of the subqueries of its WHERE clause; they come after what the joins join. -/
def Kind.fillWhere (heads : List (List Str)) (others : List (List Row)) : Kind S → Kind S
  | .sub w k => k.withCond (asE (w.toS fun i => subOf heads others (k.joins.length + i)))
  | .plain q => .plain q
  | .joined joins q => .joined joins q
  | .comma ts w q => .comma ts w q
  | .windowed q => .windowed q
  | .hav h k => .hav h k

/-- The same, with the subqueries of HAVING, which come after those of WHERE (compiler.py:519-530). -/
def Kind.fill (heads : List (List Str)) (others : List (List Row)) : Kind S → Kind S
  | .hav h k => (k.fillWhere heads others).withHaving (asH (h.toH fun i => subOf heads others (k.joins.length + k.subs + i)))
  | .sub w k => Kind.fillWhere heads others (.sub w k)
  | .plain q => .plain q
  | .joined joins q => .joined joins q
  | .comma ts w q => .comma ts w q
  | .windowed q => .windowed q

/-- The number of sources. -/
def Rels.length : Rels S → Nat
  | .nil => 0
  | .cons _ l => l.length + 1

/-- The columns of the schema of a query (compiler.py:439-517, 364-368); expressions of window functions, whose columns are moved, are
in `Model.WinSelect` only. -/
def headOf : Rel S → List Str
  | .scan _ => []
  | .select k _ _ => k.names
  | .union l r => headOf l ++ (headOf r).filter fun n => decide (n ∉ headOf l)
  | .withq _ _ b => headOf b

/-- Of all sources. -/
def headsOf : Rels S → List (List Str)
  | .nil => []
  | .cons e l => headOf e :: headsOf l

/-- The joined tables by name. -/
def tables : List Join.Name → List (List Row) → Join.Name → List (Join.Row Val)
  | m :: ms, r :: rs => fun n => if m = n then r.map JoinSelect.jrow else tables ms rs n
  | _, _ => fun _ => []

variable (py : Py) (calls : Str → List Val → Val) (o : Join.Ops Val) (order : List Join.Name → List Join.Name) (fuel : Nat) (en : Engine)

/-- One SELECT: `rows` are the rows of FROM, `others` those of the joins. -/
def runKind (rows : List Row) (others : List (List Row)) : Kind S → Option (List Out)
  | .plain q => (compileSelect q).map fun p => Select.run py calls en p rows
  | .joined joins q => (JoinSelect.compileJoins py calls o order fuel joins q).map fun p =>
      JoinSelect.run py calls o (tables (joins.map (·.name)) others) en p rows
  | .comma ts w q => (JoinSelect.compileFrom py calls o order fuel ts [] w q).map fun p =>
      JoinSelect.run py calls o (tables ts others) en p rows
  | .windowed q => (WinSelect.compileSelect q).map fun p => WinSelect.run py calls en.src en.le p rows
  | .sub _ _ => none                                        -- not after `fill`
  | .hav _ _ => none

/-- What a reader finds: for a table what it holds now, for the rest what its tasks put into the collection (`Nest.collect`). -/
def collect (st : Store) : Rel S → List (Union.Branch Out Val) → List Out
  | .union _ _, bs => (Union.union .null bs).2.map fun v => List.zip (Union.union .null bs).1 v
  | .withq _ _ b, bs => collect st b bs
  | .scan t, _ => st t
  | .select _ _ _, bs => bs.flatMap (·.rows)

/-- Of all sources. -/
def collects (st : Store) : Rels S → List (List (Union.Branch Out Val)) → List (List Out)
  | .cons e l, bs :: bss => collect st e bs :: collects st l bss
  | _, _ => []

/-- As `Nest.input`. -/
def input : Rel S → Option Str
  | .select _ (.scan t) _ => some t
  | .withq _ _ b => input b
  | _ => none

/-- Of all sources. -/
def inputs : Rels S → List Str
  | .nil => []
  | .cons e l => (input e).toList ++ inputs l

/-- As `Nest.branchInputs`. -/
def branchInputs : Rel S → List Str
  | .union l r => branchInputs l ++ branchInputs r
  | e => (input e).toList

/-- As `Nest.depInputs`: the tables the dependencies of a query read. -/
def depInputs : Rel S → List Str
  | .select _ src more => (input src).toList ++ inputs more
  | .union l r => branchInputs l ++ branchInputs r
  | .withq _ d b => (input d).toList ++ depInputs b
  | .scan _ => []

/-- compiler.py:245-250 (see `Nest.loops`). -/
def loops (n : Str) (d : Rel S) : Bool := (depInputs d).any fun t => n.isPrefixOf t

mutual
/-- Running (see `Nest.exec`): FROM first, then the joined subqueries (compiler.py:411-430), then those of WHERE (1053), then the SELECT
itself. -/
def exec (st : Store) : Rel S → Option (Store × List (Union.Branch Out Val))
  | .scan _ => some (st, [])
  | .select k src more =>
    (exec st src).bind fun x => (execs x.1 more).bind fun y =>
      if more.length = k.joins.length + k.subs ∧ k.refused = false then
        (runKind py calls o order fuel en ((collect y.1 src x.2).map asRow) ((collects y.1 more y.2).map (·.map asRow))
            (k.fill (headsOf more) ((collects y.1 more y.2).map (·.map asRow)))).map fun out =>
          (y.1, [⟨k.names.map (fun n => (n, field n)), out⟩])
      else none
  | .union l r => (exec st l).bind fun a => (exec a.1 r).map fun b => (b.1, a.2 ++ b.2)
  | .withq n d b => if loops n d then none else (exec st d).bind fun x => exec (append x.1 n (collect x.1 d x.2)) b
/-- All sources, in order. -/
def execs (st : Store) : Rels S → Option (Store × List (List (Union.Branch Out Val)))
  | .nil => some (st, [])
  | .cons e l => (exec st e).bind fun a => (execs a.1 l).map fun b => (b.1, a.2 :: b.2)
end

/-- The result of a statement. -/
def result (st : Store) (e : Rel S) : Option (List Out) := (exec py calls o order fuel en st e).map fun x => collect x.1 e x.2

end Verif.Tree
