import Verif.Model.Json
/-!
Model of the JSON functions on objects (calculaters/mysql_funcs/json_funcs.py): Python lists and dictionaries are cells of a heap,
documents are references to them, and JSON_SET and JSON_REMOVE change the cells in place (111-131, 150-164).  A select list is
evaluated column by column on the row the source delivered; its values are written out afterwards.  Assumed of the library: a column
`$.c` is the very object that is in the row.

Not modelled: the wildcard in paths, documents that are no list or dictionary.
-/
namespace Verif.JsonHeap
open Verif.Val Verif.Json

/-- A Python value: a scalar, or a reference to a list or dictionary. -/
inductive V where
  | scalar (j : J)
  | ref (a : Nat)

/-- A list or a dictionary in memory. -/
inductive Cell where
  | arr (l : List V)
  | obj (d : List (Str × V))

/-- The memory. -/
abbrev Heap := Nat → Option Cell

/-- A cell is replaced. -/
def upd (h : Heap) (a : Nat) (c : Cell) : Heap := fun b => if b = a then some c else h b

/-- `d.get(k)`. -/
def lookupV (k : Str) : List (Str × V) → Option V
  | [] => none
  | (k', v) :: d => if k' = k then some v else lookupV k d

/-- `d[k] = v`. -/
def putV (k : Str) (v : V) : List (Str × V) → List (Str × V)
  | [] => [(k, v)]
  | (k', v') :: d => if k' = k then (k', v) :: d else (k', v') :: putV k v d

/-- `d.pop(k)`. -/
def popV (k : Str) : List (Str × V) → List (Str × V)
  | [] => []
  | (k', v') :: d => if k' = k then d else (k', v') :: popV k d

/-- json_funcs.py:64-91, without `*`. -/
def getH (h : Heap) : V → List Leg → V
  | v, [] => v
  | .ref a, .idx n :: ks => match h a with
    | some (.arr l) => match l[n]? with
      | some x => getH h x ks
      | none => .scalar .null
    | _ => .scalar .null
  | .scalar (.str s), .idx n :: ks => match s[n]? with
    | some c => getH h (.scalar (.str [c])) ks
    | none => .scalar .null
  | .scalar _, .idx _ :: _ => .scalar .null
  | .ref a, .name k :: ks => match h a with
    | some (.obj d) => match lookupV k d with
      | some x => getH h x ks
      | none => .scalar .null
    | _ => .scalar .null
  | .scalar _, .name _ :: _ => .scalar .null

/-- json_funcs.py:103-135 `set_value`: the changes it makes. -/
def setH (h : Heap) : V → List Leg → V → Heap
  | .ref a, .idx n :: ks, w => match h a with
    | some (.arr l) =>
      if ks = [] then
        if l.length ≤ n then upd h a (.arr (l ++ [w])) else upd h a (.arr (l.set n w))
      else match l[n]? with
        | some x => setH h x ks w
        | none => h
    | _ => h
  | .ref a, .name k :: ks, w => match h a with
    | some (.obj d) =>
      if ks = [] then upd h a (.obj (putV k w d))
      else match lookupV k d with
        | some x => setH h x ks w
        | none => h
    | _ => h
  | _, _, _ => h

/-- json_funcs.py:146-167 `remove_value`: the changes it makes. -/
def removeH (h : Heap) : V → List Leg → Heap
  | .ref a, .idx n :: ks => match h a with
    | some (.arr l) =>
      if ks = [] then upd h a (.arr (l.eraseIdx n)) else removeH (upd h a (.arr (l.eraseIdx n))) (.ref a) ks
    | _ => removeH h (.ref a) ks
  | .scalar j, .idx _ :: ks => removeH h (.scalar j) ks
  | .ref a, .name k :: ks => match h a with
    | some (.obj d) => match lookupV k d with
      | none => h
      | some x => if ks = [] then upd h a (.obj (popV k d)) else removeH h x ks
    | _ => h
  | _, _ => h
  termination_by _ ks => ks.length

mutual
/-- `json.loads` of a text whose value is `j`: new objects. -/
def alloc : J → Nat → Heap → V × Nat × Heap
  | .arr l, n, h => (.ref n, (allocL l (n + 1) h).2.1, upd (allocL l (n + 1) h).2.2 n (.arr (allocL l (n + 1) h).1))
  | .obj d, n, h => (.ref n, (allocO d (n + 1) h).2.1, upd (allocO d (n + 1) h).2.2 n (.obj (allocO d (n + 1) h).1))
  | j, n, h => (.scalar j, n, h)
/-- The elements. -/
def allocL : List J → Nat → Heap → List V × Nat × Heap
  | [], n, h => ([], n, h)
  | j :: l, n, h =>
    ((alloc j n h).1 :: (allocL l (alloc j n h).2.1 (alloc j n h).2.2).1, (allocL l (alloc j n h).2.1 (alloc j n h).2.2).2)
/-- The members. -/
def allocO : List (Str × J) → Nat → Heap → List (Str × V) × Nat × Heap
  | [], n, h => ([], n, h)
  | (k, j) :: d, n, h =>
    ((k, (alloc j n h).1) :: (allocO d (alloc j n h).2.1 (alloc j n h).2.2).1, (allocO d (alloc j n h).2.1 (alloc j n h).2.2).2)
end

/-- The document of a function: a column of the row, or a text. -/
inductive Doc where
  | col (c : Str)
  | text (s : Str)

/-- A value for JSON_SET: a constant, or a column. -/
inductive Arg where
  | const (j : J)
  | col (c : Str)

/-- A column of the select list. -/
inductive Item where
  | plain (c : Str)
  | extract (d : Doc) (path : Str)
  | set (d : Doc) (pvs : List (Str × Arg))
  | remove (d : Doc) (paths : List Str)

/-- The heap, and the first address that is not in use. -/
structure State where
  heap : Heap
  next : Nat

variable (loads : Str → Option J) (row : Str → V)

/-- json_funcs.py:235-239, 246-250, 259-263: a text is read, a list or dictionary is taken as it is. -/
def open' (v : V) (st : State) : V × State :=
  match v with
  | .scalar (.str s) => match loads s with
    | some j => ((alloc j st.next st.heap).1, ⟨(alloc j st.next st.heap).2.2, (alloc j st.next st.heap).2.1⟩)
    | none => (v, st)
  | v => (v, st)

/-- The document of a call. -/
def docV : Doc → V
  | .col c => row c
  | .text s => .scalar (.str s)

/-- An argument of a call. -/
def argV : Arg → V
  | .const j => .scalar j
  | .col c => row c

/-- json_funcs.py:251-255. -/
def setAll (h : Heap) (v : V) : List (Str × Arg) → Heap
  | [] => h
  | (p, a) :: l => setAll (setH h v (legs p) (argV row a)) v l

/-- json_funcs.py:264-265. -/
def removeAll (h : Heap) (v : V) : List Str → Heap
  | [] => h
  | p :: l => removeAll (removeH h v (legs p)) v l

/-- One column of the select list: its value, and the state afterwards. -/
def evalItem (st : State) : Item → V × State
  | .plain c => (row c, st)
  | .extract d p => (getH (open' loads (docV row d) st).2.heap (open' loads (docV row d) st).1 (legs p), (open' loads (docV row d) st).2)
  | .set d pvs => ((open' loads (docV row d) st).1,
      { (open' loads (docV row d) st).2 with heap := setAll row (open' loads (docV row d) st).2.heap (open' loads (docV row d) st).1 pvs })
  | .remove d ps => ((open' loads (docV row d) st).1,
      { (open' loads (docV row d) st).2 with heap := removeAll (open' loads (docV row d) st).2.heap (open' loads (docV row d) st).1 ps })

/-- The select list. -/
def evalItems (st : State) : List Item → List V × State
  | [] => ([], st)
  | i :: is => ((evalItem loads row st i).1 :: (evalItems (evalItem loads row st i).2 is).1, (evalItems (evalItem loads row st i).2 is).2)

end Verif.JsonHeap
