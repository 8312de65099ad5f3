import Verif.Model.TableVar
import Verif.Spec.Table
/-! What a script means whose tables are named by variables: the statements take effect one after the other, and a table named by a
variable is the one whose name is the value of the variable at that time. -/
namespace Verif.TableVar
open Verif.Val (Str Val)
open Verif.Env (Key getValue)
open Verif.Table (Os Ref Db)

/-- The tables of a statement. -/
def Stmt.tables {δ : Type} : Stmt δ → List TRef
  | .set _ _ => []
  | .query ts _ => ts
  | .into _ ts _ => ts

/-- The table that is meant: a variable must have a text as its value. -/
def meant (chain : List (Dict Key Val)) (t : TRef) : Option Ref :=
  if t.isVar then
    match getValue chain ('@' :: t.ref.name) with
    | some (.str s) => some { t.ref with name := s }
    | _ => none
  else some t.ref

/-- One statement after the other. -/
def inOrder {δ : Type} (os : Os) : World δ → List (Stmt δ) → Option (World δ)
  | w, [] => some w
  | w, .set k v :: ss => inOrder os { w with own := w.own.set k v } ss
  | w, .query ts act :: ss =>
    match ts.mapM (meant w.chain) with
    | none => none
    | some rs => inOrder os { w with data := act (located os rs).1 (located os rs).2 w.data } ss
  | w, .into k ts value :: ss =>
    match ts.mapM (meant w.chain) with
    | none => none
    | some rs => inOrder os { w with own := w.own.set k (value (located os rs).1 (located os rs).2 w.data) } ss

/-- The variables INTO assigns in a script. -/
def intos {δ : Type} : List (Stmt δ) → List Key
  | [] => []
  | .into k _ _ :: ss => k :: intos ss
  | _ :: ss => intos ss

/-- The variables SET assigns in a script. -/
def sets {δ : Type} : List (Stmt δ) → List Key
  | [] => []
  | .set k _ :: ss => k :: sets ss
  | _ :: ss => sets ss

/-- The value of the variable `v` after the statements `pre` is known without running them: since the last `SET @v`, or since the
beginning, nothing was selected INTO it. -/
def Known {δ : Type} (pre : List (Stmt δ)) (v : Str) : Prop :=
  ∃ a b, pre = a ++ b ∧ ('@' :: v) ∉ intos b ∧ ((a = [] ∧ v ∉ intos b) ∨ ∃ a' x, a = a' ++ [.set ('@' :: v) x])

/-- The variable `v` was assigned by INTO only, within this script, and has the name of a table (without options, not of a file) as its
value in `w`. -/
def Selected {δ : Type} (os : Os) (w0 : World δ) (pre : List (Stmt δ)) (w : World δ) (t : TRef) : Prop :=
  let v := t.ref.name
  ('@' :: v) ∈ intos pre ∧ ('@' :: v) ∉ sets pre ∧ (w0.own.get? ('@' :: v) = none ∨ w0.own.get? ('@' :: v) = some .null) ∧
  (∀ c ∈ v, c ≠ '.' ∧ c ≠ '/' ∧ c ≠ '<') ∧ t.ref.catalog = none ∧
  ∀ s, w.own.get? ('@' :: v) = some (.str s) →
    ∃ db, '.' ∉ db ∧ '#' ∉ db ∧ TableSpec.Denotes os { t.ref with name := s } (.table db s)

/-- Every table variable of the script is of one of these kinds where it is used. -/
def Suited {δ : Type} (os : Os) (w0 : World δ) (script : List (Stmt δ)) : Prop :=
  ∀ pre st post, script = pre ++ st :: post → ∀ w, inOrder os w0 pre = some w →
    (∀ t ∈ st.tables, t.isVar = true → Known pre t.ref.name ∨ Selected os w0 pre w t) ∧
    ∀ rs, st.tables.mapM (meant w.chain) = some rs → ∀ n ∈ (located os rs).1, '#' ∉ n

end Verif.TableVar
