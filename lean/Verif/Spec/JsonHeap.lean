import Verif.Model.JsonHeap
import Verif.Spec.Json
/-! What a Python value shows, and the columns of a select list by themselves. -/
namespace Verif.JsonHeapSpec
open Verif.Val Verif.Json Verif.JsonHeap

/-- The document is a list or dictionary. -/
def container : J → Bool
  | .arr _ => true
  | .obj _ => true
  | _ => false

mutual
/-- What is written out for the value `v` is `j`. -/
def Shows (h : Heap) : J → V → Prop
  | .arr l, v => ∃ a vs, v = .ref a ∧ h a = some (.arr vs) ∧ ShowsL h l vs
  | .obj d, v => ∃ a vs, v = .ref a ∧ h a = some (.obj vs) ∧ ShowsO h d vs
  | j, v => v = .scalar j
def ShowsL (h : Heap) : List J → List V → Prop
  | [], vs => vs = []
  | j :: l, vs => ∃ v rest, vs = v :: rest ∧ Shows h j v ∧ ShowsL h l rest
def ShowsO (h : Heap) : List (Str × J) → List (Str × V) → Prop
  | [], vs => vs = []
  | (k, j) :: d, vs => ∃ v rest, vs = (k, v) :: rest ∧ Shows h j v ∧ ShowsO h d rest
end

mutual
/-- `v` shows `j`, by lists and dictionaries of `F` none of which is used twice. -/
def Own (h : Heap) : J → V → (Nat → Prop) → Prop
  | .arr l, v, F => ∃ a vs, v = .ref a ∧ h a = some (.arr vs) ∧ F a ∧ OwnL h l vs (fun x => F x ∧ x ≠ a)
  | .obj d, v, F => ∃ a vs, v = .ref a ∧ h a = some (.obj vs) ∧ F a ∧ OwnO h d vs (fun x => F x ∧ x ≠ a)
  | j, v, _ => v = .scalar j
def OwnL (h : Heap) : List J → List V → (Nat → Prop) → Prop
  | [], vs, _ => vs = []
  | j :: l, vs, F => ∃ v rest F1 F2, vs = v :: rest ∧ (∀ a, F1 a → F a ∧ ¬ F2 a) ∧ (∀ a, F2 a → F a) ∧ Own h j v F1 ∧ OwnL h l rest F2
def OwnO (h : Heap) : List (Str × J) → List (Str × V) → (Nat → Prop) → Prop
  | [], vs, _ => vs = []
  | (k, j) :: d, vs, F => ∃ v rest F1 F2, vs = (k, v) :: rest ∧ (∀ a, F1 a → F a ∧ ¬ F2 a) ∧ (∀ a, F2 a → F a) ∧ Own h j v F1 ∧ OwnO h d rest F2
end

/-- The document of a function: a text is read. -/
def docOf (loads : Str → Option J) (env : Str → J) : Doc → Option J
  | .text s => loads s
  | .col c => match env c with
    | .str s => loads s
    | j => some j

/-- The value of an argument. -/
def argOf (env : Str → J) : Arg → J
  | .const j => j
  | .col c => env c

/-- `j` is the value of the column by itself, given the columns of the row. -/
def Value (loads : Str → Option J) (env : Str → J) : Item → J → Prop
  | .plain c, j => j = env c
  | .extract d p, j => ∃ x, docOf loads env d = some x ∧ j = extract x [p]
  | .set d pvs, j => ∃ x, docOf loads env d = some x ∧ j = jsonSet x (pvs.map fun a => (a.1, argOf env a.2))
  | .remove d ps, j => ∃ x, docOf loads env d = some x ∧ j = jsonRemove x ps

/-- The columns of the row used in a column of the select list. -/
def uses : Item → List Str
  | .plain c => [c]
  | .extract (.col c) _ => [c]
  | .set (.col c) pvs => c :: pvs.filterMap fun a => match a.2 with | .col c => some c | .const _ => none
  | .set (.text _) pvs => pvs.filterMap fun a => match a.2 with | .col c => some c | .const _ => none
  | .remove (.col c) _ => [c]
  | _ => []

/-- The column of the row whose list or dictionary is changed. -/
def changed (env : Str → J) : Item → Option Str
  | .set (.col c) _ => if container (env c) then some c else none
  | .remove (.col c) _ => if container (env c) then some c else none
  | _ => none

/-- The function can be used as documented: its document is there (a list or dictionary where it is to be changed), paths have no
wildcard, values to be put in are no lists or dictionaries. -/
def ItemOk (loads : Str → Option J) (env : Str → J) : Item → Prop
  | .plain _ => True
  | .extract d p => JsonSpec.NoStar (legs p) ∧ ∃ x, docOf loads env d = some x
  | .set d pvs => (∃ x, docOf loads env d = some x) ∧ ∀ pv ∈ pvs, container (argOf env pv.2) = false
  | .remove d _ => ∃ x, docOf loads env d = some x

/-- No column changes a document that another one uses. -/
def Apart (env : Str → J) (items : List Item) : Prop :=
  items.Pairwise fun x y => (∀ c, changed env x = some c → c ∉ uses y) ∧ (∀ c, changed env y = some c → c ∉ uses x)

/-- The row as the source delivered it: its documents are lists and dictionaries of their own. -/
def RowOk (env : Str → J) (row : Str → V) (st : State) : Prop :=
  ∃ F : Str → Nat → Prop, (∀ c, Own st.heap (env c) (row c) (F c)) ∧ (∀ c a, F c a → a < st.next) ∧
    ∀ c c', c ≠ c' → ∀ a, F c a → ¬ F c' a

end Verif.JsonHeapSpec
