import Verif.Model.Join
/-!
Model of the rewriting of RIGHT JOIN (compiler.py:2988-3076 `optimize_rewrite_right_join`, called by `optimize_rewrite`, 2932-2935)
and of the run of what it is rewritten to.

The rewritten query is generated as SQL text and parsed again; that round trip (sqlglot) is taken to be faithful, except that the
conjuncts of an ON are joined by AND without parentheses, which matters for a WHERE that is a bare OR (`onText`).
-/
namespace Verif.RightJoin
open Verif.Join

/-- The sides and kinds of JOIN. -/
inductive Side where | left | right | inner | plain
  deriving DecidableEq, Repr

/-- A JOIN of the query. -/
structure RJoin (V : Type) where
  name : Name
  side : Side
  on : List (Cond V)

/-- The WHERE: conjuncts, or a bare OR of two expressions. -/
inductive Wh (V : Type) where
  | conj (cs : List (Cond V))
  | or (x y : X V)

variable {V : Type}

/-- `join_type`: 2994, 3008. -/
inductive Ty where | primary | right | other
  deriving DecidableEq, Repr

/-- compiler.py:2994-2996, 3004-3008: what is known of a table. -/
structure RT (V : Type) where
  name : Name
  type : Ty
  related : List (Option Name)
  on : List (Cond V)
  const : List (Cond V)
  rest : List (Cond V)

/-- compiler.py:3148-3202 `optimize_rewrite_parse_condition` with `can_on_expressions_tables = None`: the list a conjunct goes to. -/
inductive Class where
  | on (tables : List (Option Name))
  | const
  | rest

/-- 3189-3199: the other side of a comparison of a column of the table. -/
def valueClass (x : X V) : Class := if fields x = [] then .const else .on ((fields x).map (·.table))

/-- 3159-3202.  A list (IN) and everything that is not a comparison: `calculate_expressions`. -/
def classify (own : Name) : Cond V → Class
  | .cmp _ l r => match ownCol own l with
    | some _ => valueClass r
    | none => match ownCol own r with
      | some _ => valueClass l
      | none => .rest
  | _ => .rest

/-- The condition becomes a key. -/
def isOn (own : Name) (c : Cond V) : Bool := match classify own c with | .on _ => true | _ => false
/-- The condition is about the joined table alone. -/
def isConst (own : Name) (c : Cond V) : Bool := match classify own c with | .const => true | _ => false
/-- The condition is checked afterwards. -/
def isRest (own : Name) (c : Cond V) : Bool := match classify own c with | .rest => true | _ => false

/-- `related_tables`. -/
def relatedOf (own : Name) (cs : List (Cond V)) : List (Option Name) :=
  cs.flatMap fun c => match classify own c with | .on ts => ts | _ => []

/-- 3003-3015: a joined table. -/
def joinTable (j : RJoin V) : RT V :=
  ⟨j.name, if j.side = .right then .right else .other, relatedOf j.name j.on, j.on.filter (isOn j.name), j.on.filter (isConst j.name),
    j.on.filter (isRest j.name)⟩

/-- The conjuncts of a WHERE, with `lor` as OR. -/
def Wh.conjuncts (lor : V → V → V) : Wh V → List (Cond V)
  | .conj cs => cs
  | .or x y => [.other (.bin lor x y)]

/-- 2994-3001: the table after FROM; all conjuncts of the WHERE become its `calculate_expressions`. -/
def primaryTable (primary : Name) (ws : List (Cond V)) : RT V := ⟨primary, .primary, relatedOf primary ws, [], [], ws⟩

/-- 3018-3026: the table that will stand after FROM.  The loop does not stop by itself; the number bounds it. -/
def select (js : List (RT V)) : Nat → RT V → Option (RT V)
  | 0, _ => none
  | fuel + 1, cur =>
    match (js.filter fun t => decide (t.type = .right) && decide (some cur.name ∈ t.related)).getLast? with
    | none => some cur
    | some t => select js fuel t

/-- 3031-3045 `resort_join_tables`: the tables `names` (in the order in which the set is enumerated, `order`) are taken out of the
dictionary.  Every call takes a name off a list or a table out of the dictionary. -/
def resort (order : List (Option Name) → List (Option Name)) :
    Nat → List (Option Name) → List (Cond V) → List (RT V) → List (RT V) × List (RT V)
  | 0, _, _, d => ([], d)
  | _ + 1, [], _, d => ([], d)
  | fuel + 1, n :: ns, on, d =>
    match d.find? fun t => decide (some t.name = n) with
    | none => resort order fuel ns on d
    | some t =>
      let d' := d.filter fun u => decide (some u.name ≠ n)
      if t.type = .right then
        let sub := resort order fuel (order t.related) t.on d'
        let rest := resort order fuel ns on sub.2
        ({ t with on := on, type := .other } :: sub.1 ++ rest.1, rest.2)
      else
        let rest := resort order fuel ns on d'
        ({ t with on := t.on ++ on } :: rest.1, rest.2)

/-- 3056-3058: `" AND ".join(…)`.  A bare OR at the end takes in all that is before it. -/
def onText (o : Ops V) (land lor : V → V → V) (cs : List (Cond V)) : Wh V → List (Cond V)
  | .conj ws => cs ++ ws
  | .or x y => match cs with
    | [] => [.other (.bin lor x y)]
    | c :: cs => [.other (.bin lor (.bin land (cs.foldl (fun a c => .bin land a (condX o c)) (condX o c)) x) y)]

/-- What becomes of the query. -/
inductive Out (V : Type) where
  /-- left as it is: `parse_joins` refuses its RIGHT JOIN (2006-2008) -/
  | refused
  | to (sel : Name) (joins : List (Join V)) (wher : List (Cond V))

/-- compiler.py:2988-3076.  `none`: the loop of `select` did not stop within `fuel` rounds. -/
def rewrite (o : Ops V) (land lor : V → V → V) (order : List (Option Name) → List (Option Name)) (fuel : Nat) (primary : Name)
    (js : List (RJoin V)) (wh : Wh V) : Option (Out V) :=
  let p := primaryTable primary (wh.conjuncts lor)
  let ts := js.map joinTable
  match select ts fuel p with
  | none => none
  | some sel =>
    if sel.type = .primary then some .refused
    else
      let dict := (ts.filter fun t => decide (t.name ≠ sel.name)) ++ [p]
      let r := resort order (js.length * (js.length + 2) + 2 + (dict.map fun t => t.related.length).sum + sel.related.length)
        (order sel.related) sel.on dict
      let all := r.1 ++ r.2
      if all.any fun t => decide (t.type = .right) then some .refused
      else some (.to sel.name
        (all.map fun t => ⟨t.name, .left,
          if t.type = .primary then onText o land lor (t.on ++ t.const) wh else t.on ++ t.const ++ t.rest⟩)
        (sel.const ++ p.rest ++ sel.rest))

/-! ### Running it -/

/-- LEFT JOIN with the ON as `parse_on_condition` understood it. -/
def leftStepP (null : V) (o : Ops V) (primary : Name) (db : Name → List (Row V)) (t : Name) (T : Table V) (e : Env V) : List (Env V) :=
  let m := ((db t).filter fun row => matches_ o t T (refVal primary e) row).map (upd e t)
  if m = [] then [upd e t fun _ => null] else m

/-- As `Join.leftAll`, the tables as the compiler keeps them. -/
def leftAllP (null : V) (o : Ops V) (primary : Name) (db : Name → List (Row V)) : List (Name × Table V) → Env V → List (Env V)
  | [], e => [e]
  | j :: js, e => (leftStepP null o primary db j.1 j.2 e).flatMap (leftAllP null o primary db js)

/-- The rows (as environments of all tables) of a query of LEFT JOINs; `none`: an ON is refused. -/
def runLeft (null : V) (o : Ops V) (sel : Name) (db : Name → List (Row V)) (js : List (Join V)) (wher : List (Cond V)) :
    Option (List (Env V)) :=
  (mapAll (fun j => (parseOn o j.name ⟨[], [], [], []⟩ j.on).map fun T => (j.name, T)) js).map fun infos =>
    ((db sel).flatMap fun row => leftAllP null o sel db infos (upd (fun _ _ => null) sel row)).filter fun e =>
      wher.all (holds o sel e)

/-- The whole query: `none`: it does not come to an end within `fuel` rounds; `some none`: it is refused. -/
def run (null : V) (o : Ops V) (land lor : V → V → V) (order : List (Option Name) → List (Option Name)) (fuel : Nat) (primary : Name)
    (db : Name → List (Row V)) (js : List (RJoin V)) (wh : Wh V) : Option (Option (List (Env V))) :=
  (rewrite o land lor order fuel primary js wh).map fun r => match r with
    | .refused => none
    | .to sel joins wher => runLeft null o sel db joins wher

end Verif.RightJoin
