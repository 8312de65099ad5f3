import Verif.Basic
/-!
Model of the select list: which columns a result has, under which names and from which tables.  compiler.py:432-492 (the loop over
the select list in `compile_select`), 622-649 `compile_select_star_column`, 651-670 `compile_select_column`; names of tables:
2627-2634 (`parse_table`), 2018-2021 (`parse_joins`); names of references: 2685 (`parse_column`).

Not modelled here: what calculated columns, aggregates and windows compute (`Item.other` is any of them), and the names that occur
inside them.  Column names are assumed not to be substrings of `$.*`.
-/
namespace Verif.SelectList

/-- Names. -/
abbrev Name := List Char

/-- A table of FROM or JOIN.  `sub`: `none` for a table; for a subquery the names of its columns if they are known, `some none` if
its own select list is `*`. -/
structure Tab where
  db : Name
  name : Name
  alias : Option Name
  sub : Option (Option (List Name))

/-- compiler.py:2630 and 2018-2021: the name by which references mean the table. -/
def Tab.key (t : Tab) : Name := t.alias.getD (t.db ++ '.' :: t.name)

/-- compiler.py:2685: the table of a reference, `none` if it has none. -/
structure Ref where
  db : Option Name
  table : Option Name
  col : Name

/-- The table of a column, if it has one. -/
def Ref.key (r : Ref) : Option Name :=
  match r.table with
  | none => none
  | some t => match r.db with
    | none => some t
    | some d => some (d ++ '.' :: t)

/-- An item of the select list. `other`: anything else, with the text it gets as name without alias (`generate_sql`). -/
inductive Item where
  | star
  | tableStar (t : Name)
  | col (r : Ref) (alias : Option Name)
  | other (id : Nat) (text : Name) (alias : Option Name)

/-- Where a column of the result comes from. -/
inductive Cell where
  | col (table c : Name)
  | other (id : Nat)
  deriving DecidableEq

/-- `config["schema"]`: `"$.*"` (the row of the FROM table as it is), or named columns. -/
inductive Sch where
  | all
  | dict (cols : List (Name × Cell))
  deriving DecidableEq

/-- `d[k] = v`. -/
def put (k : Name) (v : Cell) : List (Name × Cell) → List (Name × Cell)
  | [] => [(k, v)]
  | (k', v') :: d => if k' = k then (k', v) :: d else (k', v') :: put k v d

/-- `k in d`. -/
def has (k : Name) (d : List (Name × Cell)) : Bool := (d.map (·.1)).contains k

/-- compiler.py:634-648: names that are there already are skipped. -/
def addStar (table : Name) : List Name → List (Name × Cell) → List (Name × Cell)
  | [], d => d
  | n :: ns, d => addStar table ns (if has n d then d else put n (.col table n) d)

/-- compiler.py:622-649 `compile_select_star_column`: the subquery whose columns are known, and the name of the table. -/
def starOf (primary : Tab) (joins : List Tab) : Option Name → Option (Name × List Name)
  | none => match primary.sub with                                            -- 623-625
    | some (some ns) => some (primary.alias.getD primary.key, ns)
    | _ => none
  | some t =>                                                                 -- 626-631
    if some t = primary.alias then
      match primary.sub with
      | some (some ns) => some (t, ns)
      | _ => none
    else match joins.find? fun j => j.key = t with
      | some j => match j.sub with
        | some (some ns) => some (t, ns)
        | _ => none
      | none => none

/-- compiler.py:652-655: the name of a column; dots become underscores; a qualified column whose name is taken gets the name of its
table in front. -/
def colName (d : List (Name × Cell)) (r : Ref) (alias : Option Name) : Name :=
  match alias with
  | some a => a
  | none =>
    let n := r.col.map fun c => if c = '.' then '_' else c
    match r.key with
    | some t => if has n d then t ++ '.' :: n else n
    | none => n

/-- compiler.py:656-668: the table a reference means; without a table, the FROM table; `none`: an unknown table. -/
def refTable (primary : Tab) (joins : List Tab) (r : Ref) : Option Name :=
  match r.key with
  | none => some primary.key
  | some t => if t = primary.key then some t else if (joins.map Tab.key).contains t then some t else none

/-- compiler.py:433-492: one item; `none`: an error. -/
def step (primary : Tab) (joins : List Tab) (s : Sch) (i : Item) : Option Sch :=
  match i with
  | .star => match starOf primary joins none with                             -- 434-437
    | none => some .all
    | some (t, ns) => match s with
      | .dict d => some (.dict (addStar t ns d))
      | .all => if ns.isEmpty then some .all else none
  | .tableStar t => match starOf primary joins (some t) with                  -- 438-442
    | none => none
    | some (t, ns) => match s with
      | .dict d => some (.dict (addStar t ns d))
      | .all => if ns.isEmpty then some .all else none
  | .col r a => match s with                                                  -- 443-444, 488-490
    | .all => none
    | .dict d => (refTable primary joins r).map fun t => .dict (put (colName d r a) (.col t r.col) d)
  | .other id text a => match s with                                          -- 443-444, 452-456, 461-492
    | .all => none
    | .dict d => some (.dict (put (a.getD text) (.other id) d))

/-- compiler.py:432-492: the whole list. -/
def compileList (primary : Tab) (joins : List Tab) : Sch → List Item → Option Sch
  | s, [] => some s
  | s, i :: is => (step primary joins s i).bind fun s => compileList primary joins s is

/-- The row of the result: `env` gives the values of the columns of the tables (by name and column) and `comp` those of other items
for the current rows; `all` is the row of the FROM table as it is (its columns are `own`). -/
def rowOf {V : Type} (env : Name → Name → V) (comp : Nat → V) (primary : Tab) (own : List Name) : Sch → List (Name × V)
  | .all => own.map fun c => (c, env primary.key c)
  | .dict d => d.map fun p => (p.1, match p.2 with
    | .col t c => env t c
    | .other id => comp id)

/-- The rows of a statement for the current rows of its tables; `none`: the statement is refused. -/
def select {V : Type} (env : Name → Name → V) (comp : Nat → V) (primary : Tab) (own : List Name) (joins : List Tab) (is : List Item) :
    Option (List (Name × V)) :=
  (compileList primary joins (.dict []) is).map (rowOf env comp primary own)

end Verif.SelectList
