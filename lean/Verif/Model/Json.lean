import Verif.Model.Value
/-!
Model of the JSON functions (calculaters/mysql_funcs/json_funcs.py).

A document is the value after `json.loads`.  The Python functions update the document in place; here they return the
updated document, which is the same thing as long as no part of it is shared (documents read from a text are not; the
update of a row's own document is not modelled).  Missing members and the value `null` are both Python's `None`.
-/
namespace Verif.Json
open Verif.Val

/-- JSON values (Python: `None`, `bool`, `int`, `float`, `str`, `list`, `dict` in insertion order). -/
inductive J where
  | null
  | bool (b : Bool)
  | int (i : Int)
  | flt (q : Rat)
  | str (s : Str)
  | arr (l : List J)
  | obj (d : List (Str × J))

/-- A leg of a path: a member name (`*` included) or an index. -/
inductive Leg where
  | name (s : Str)
  | idx (n : Nat)
  deriving DecidableEq, Repr

/-! ### Paths -/

/-- Python `s.index(c)`, `none` for `ValueError`. -/
def indexOf (c : Char) : Str → Option Nat
  | [] => none
  | d :: s => if d = c then some 0 else (indexOf c s).map (· + 1)

/-- Python `s.strip(".")`. -/
def stripDots (s : Str) : Str := ((s.dropWhile (· = '.')).reverse.dropWhile (· = '.')).reverse

theorem stripDots_length (s : Str) : (stripDots s).length ≤ s.length := by
  have h1 := (List.dropWhile_suffix (· = '.') (l := s)).length_le
  have h2 := (List.dropWhile_suffix (· = '.') (l := (s.dropWhile (· = '.')).reverse)).length_le
  simp only [stripDots, List.length_reverse] at h1 h2 ⊢
  omega

/-- json_funcs.py:34-39: what stands between brackets. -/
def bracket (s : Str) : Leg :=
  if allDigits s then .idx (digitsVal s)
  else if s.head? = some '"' ∧ s.getLast? = some '"' then .name ((s.drop 1).dropLast)
  else .name s

/-- json_funcs.py:12-55 `parse_json_path`. -/
def parsePath (p : Str) : List Leg :=
  match p with
  | [] => []
  | c :: p' =>
    let p := c :: p'
    let fallback : List Leg :=                                    -- 47-54
      match indexOf '.' p with
      | some (d + 1) => .name (p.take (d + 1)) :: parsePath (stripDots (p'.drop (d + 1)))
      | _ => [.name p]
    match indexOf '[' p with
    | none => fallback
    | some st =>
      match indexOf '.' p with
      | some (d + 1) =>
        if d + 1 < st then .name (p.take (d + 1)) :: parsePath (stripDots (p'.drop (d + 1))) -- 23-28
        else match indexOf ']' p with
          | none => fallback
          | some en => (if 0 < st then [.name (p.take st)] else []) ++
              (if st < en then [bracket ((p.take en).drop (st + 1))] else []) ++ parsePath (stripDots (p'.drop en)) -- 30-46
      | _ => match indexOf ']' p with
          | none => fallback
          | some en => (if 0 < st then [.name (p.take st)] else []) ++
              (if st < en then [bracket ((p.take en).drop (st + 1))] else []) ++ parsePath (stripDots (p'.drop en))
  termination_by p.length
  decreasing_by
    all_goals
      refine Nat.lt_succ_of_le (Nat.le_trans (stripDots_length _) ?_)
      rw [List.length_drop]
      exact Nat.sub_le _ _

/-- json_funcs.py:59-62 (and 98-101, 141-144): the `$` at the beginning. -/
def dropRoot : Str → Str
  | '$' :: '.' :: p => p
  | '$' :: p => p
  | p => p

/-- The legs of a path. -/
def legs (p : Str) : List Leg := parsePath (dropRoot p)

/-! ### Access -/

/-- `d.get(k)`. -/
def lookup (k : Str) : List (Str × J) → Option J
  | [] => none
  | (k', v) :: d => if k' = k then some v else lookup k d

/-- `d[k] = v`. -/
def put (k : Str) (v : J) : List (Str × J) → List (Str × J)
  | [] => [(k, v)]
  | (k', v') :: d => if k' = k then (k', v) :: d else (k', v') :: put k v d

/-- `d.pop(k)`. -/
def pop (k : Str) : List (Str × J) → List (Str × J)
  | [] => []
  | (k', v') :: d => if k' = k then d else (k', v') :: pop k d

/-- json_funcs.py:64-91 `get_value`. -/
def getP : J → List Leg → J
  | j, [] => j
  | j, .idx n :: ks =>
    match j with
    | .arr l => match l[n]? with
      | some x => getP x ks
      | none => .null
    | .str s => match s[n]? with
      | some c => getP (.str [c]) ks
      | none => .null
    | _ => .null
  | j, .name k :: ks =>
    if k = ['*'] then
      if ks = [] then j
      else
        let l := match j with | .arr l => l | j => [j]
        .arr ((l.map fun d => getP d ks).filter fun v => match v with | .null => false | _ => true)
    else match j with
      | .obj d => match lookup k d with
        | some x => getP x ks
        | none => .null
      | _ => .null

/-- json_funcs.py:95-135 `set_json_path_value` on a list or dictionary (and what becomes of a member when the loop descends
into it): a text or another scalar inside the document is never changed. -/
def setP : J → List Leg → J → J
  | j, [], _ => j
  | j, .idx n :: ks, v =>
    match j with
    | .arr l =>
      if ks = [] then
        if l.length ≤ n then .arr (l ++ [v]) else .arr (l.set n v)
      else match l[n]? with
        | some x => .arr (l.set n (setP x ks v))
        | none => .arr l
    | j => j
  | j, .name k :: ks, v =>
    match j with
    | .obj d =>
      if ks = [] then .obj (put k v d)
      else match lookup k d with
        | some x => .obj (put k (setP x ks v) d)
        | none => .obj d
    | j => j

/-- json_funcs.py:138-167 `remove_json_path_value`: an index that is not the last leg already deletes, and the loop goes on
with the same list. -/
def removeP : J → List Leg → J
  | j, [] => j
  | j, .idx n :: ks =>
    match j with
    | .arr l => if ks = [] then .arr (l.eraseIdx n) else removeP (.arr (l.eraseIdx n)) ks
    | j => removeP j ks
  | j, .name k :: ks =>
    match j with
    | .obj d =>
      match lookup k d with
      | none => .obj d
      | some x => if ks = [] then .obj (pop k d) else .obj (put k (removeP x ks) d)
    | j => j
  termination_by _ ks => ks.length

/-! ### The functions

They raise (NULL) for a document `None`; `set` and `remove` are modelled for lists and dictionaries. -/

/-- json_funcs.py:234-243 `mysql_json_extract`. -/
def extract (j : J) (paths : List Str) : J :=
  match j, paths with
  | .null, _ => .null
  | j, [p] => getP j (legs p)
  | j, ps => .arr (ps.map fun p => getP j (legs p))

/-- json_funcs.py:245-256 `mysql_json_set` on a list or dictionary. -/
def jsonSet : J → List (Str × J) → J
  | j, [] => j
  | j, (p, v) :: l => jsonSet (setP j (legs p) v) l

/-- json_funcs.py:258-266 `mysql_json_remove` on a list or dictionary. -/
def jsonRemove : J → List Str → J
  | j, [] => j
  | j, p :: l => jsonRemove (removeP j (legs p)) l

mutual
/-- json_funcs.py:269-283 `mysql_json_depth`. -/
def depth : J → Nat
  | .arr [] => 1
  | .arr (x :: l) => depthL (depth x) l + 1
  | .obj [] => 1
  | .obj ((_, x) :: d) => depthO (depth x) d + 1
  | _ => 1
/-- `max` of the members' depths, the maximum so far at hand. -/
def depthL (m : Nat) : List J → Nat
  | [] => m
  | x :: l => depthL (max m (depth x)) l
/-- The members. -/
def depthO (m : Nat) : List (Str × J) → Nat
  | [] => m
  | (_, x) :: d => depthO (max m (depth x)) d
end

/-- json_funcs.py:301-311 `mysql_json_length`. -/
def length (j : J) (path : Str := []) : Nat :=
  match (if path = [] then j else getP j (legs path)) with
  | .arr l => l.length
  | .obj d => d.length
  | _ => 0

/-- json_funcs.py:287-297 `mysql_json_keys`. -/
def keys (j : J) (path : Str := []) : List Str :=
  match (if path = [] then j else getP j (legs path)) with
  | .obj d => d.map (·.1)
  | _ => []

/-- json_funcs.py:181-185 `mysql_json_object` (with text keys): pairs of arguments. -/
def object (kvs : List (Str × J)) : J := .obj (kvs.foldl (fun d kv => put kv.1 kv.2 d) [])

/-- json_funcs.py:178-179 `mysql_json_array`. -/
def array (l : List J) : J := .arr l

/-- Numbers in documents: booleans are integers in Python. -/
def numVal : J → Option Rat
  | .bool b => some (if b then 1 else 0)
  | .int i => some i
  | .flt q => some q
  | _ => none

mutual
/-- Python `a == b` on documents. -/
def jEq : J → J → Bool
  | .null, .null => true
  | .str a, .str b => a = b
  | .arr a, .arr b => jEqL a b
  | .obj a, .obj b => a.length = b.length && jEqO a b
  | .bool a, y => numVal y = some (if a then 1 else 0)
  | .int a, y => numVal y = some (a : Rat)
  | .flt a, y => numVal y = some a
  | _, _ => false
/-- Lists. -/
def jEqL : List J → List J → Bool
  | [], [] => true
  | x :: a, y :: b => jEq x y && jEqL a b
  | _, _ => false
/-- Members, whatever their order. -/
def jEqO : List (Str × J) → List (Str × J) → Bool
  | [], _ => true
  | (k, x) :: a, b => (match lookup k b with | some y => jEq x y | none => false) && jEqO a b
end

/-- json_funcs.py:200-212 `mysql_json_contains`; `none` is NULL. -/
def contains (target candidate : J) (path : Str) : Option Bool :=
  match target with
  | .null => none
  | t => some (jEq (getP t (legs path)) candidate)

/-- `v is not None`. -/
def present : J → Bool
  | .null => false
  | _ => true

/-- json_funcs.py:216-231 `mysql_json_contains_path`. -/
def containsPath (j : J) (all : Bool) (paths : List Str) : Option Bool :=
  match j, paths with
  | _, [] => some all
  | .null, _ => none
  | j, ps => some (if all then ps.all fun p => present (getP j (legs p)) else ps.any fun p => present (getP j (legs p)))

end Verif.Json
