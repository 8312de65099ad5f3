import Verif.Basic
/-!
Model of what kind a column of the select list is: a column, a constant, a window, an aggregate or a calculation of one row, and which
aggregates and windows are looked for inside its expression.  compiler.py:454-525 (the loop of `compile_select`), 2315-2331
`parse_aggregate`, 2333-2349 `parse_window_aggregate`, 2854-2876 `is_column`, 2878-2885 `is_const`, 2887-2895 `is_calculate`,
2897-2915 `is_aggregate`, 2917-2918 `is_window_aggregate`, 2920-2921 `is_subquery`; which statements are grouped: 552-570.

An expression is the tree sqlglot hands over: a class and the child expressions in the order of its arguments (children that are not
expressions are left out, as in 2323-2330).  sqlglot itself is not part of the repository; its class hierarchy is assumed as
`is_calculate` is written for: `Not`, `Paren`, the predicates, functions, brackets are `Condition`s; `Neg`, `BitwiseNot`, `Tuple`,
`Parameter`, subqueries, windows and intervals are not.
-/
namespace Verif.ItemKind

/-- Names. -/
abbrev Name := List Char

/-- The classes of sqlglot nodes. -/
inductive Cls where
  | column                      -- `Column`
  | dot                         -- `Dot`: `a.b.c.d`
  | literal                     -- `Literal`, `Boolean`, `Null`, `HexString`, `BitString`, `ByteString`
  | param                       -- `Parameter`: `@v`
  | assign                      -- `AssignParameter`: `@v := e` (parser.py), a `Parameter`
  | star
  | paren
  | neg
  | bitNot
  | tuple
  | not
  | binary                      -- comparisons, arithmetic, AND, OR, IS, LIKE
  | inList                      -- `In`
  | between
  | exists                      -- `SubqueryPredicate`
  | cast                        -- `Cast`
  | func                        -- the other functions sqlglot knows: CASE, IF, COALESCE, …
  | anon (name : Name)          -- `Anonymous`: the functions it does not know
  | aggregate                   -- `Count`, `Sum`, `Max`, `Min`, `Avg`, `GroupConcat`, `GroupUniqArray`
  | query                       -- `Subquery`, `Select`, `Union`
  | window                      -- `Window`: `f(…) OVER (…)`
  | interval                    -- `Interval`
  | bracket                     -- `Bracket`: `a[0]`
  | other                       -- `Distinct`, `Ordered`, `Order`, `DataType`, …
  deriving DecidableEq

/-- The trees of sqlglot, as far as they are looked at. -/
inductive Node where
  | mk (c : Cls) (args : List Node)

/-- The class of a node. -/
def Node.cls : Node → Cls
  | .mk c _ => c

/-- The children of a node. -/
def Node.args : Node → List Node
  | .mk _ as => as

/-- What the functions registered in the process are called: aggregates (`find_aggregate_calculater` finds one) and the names of
`TYPE_FILTERS` (101-105). -/
structure Reg where
  aggregates : Name → Bool
  types : Name → Bool

/-- `str.lower` (ASCII only). -/
def lower (n : Name) : Name := n.map Char.toLower

/-- compiler.py:2904-2905. -/
def groupFuncs : List Name :=
  [['g','r','o','u','p','_','a','r','r','a','y'], ['g','r','o','u','p','a','r','r','a','y'],
   ['g','r','o','u','p','_','u','n','i','q','_','a','r','r','a','y'], ['g','r','o','u','p','u','n','i','q','a','r','r','a','y'],
   ['g','r','o','u','p','_','b','i','t','_','a','n','d'], ['g','r','o','u','p','b','i','t','a','n','d'],
   ['g','r','o','u','p','_','b','i','t','_','o','r'], ['g','r','o','u','p','b','i','t','o','r'],
   ['g','r','o','u','p','_','b','i','t','_','x','o','r'], ['g','r','o','u','p','b','i','t','x','o','r']]

/-- compiler.py:2897-2915 `is_aggregate`. -/
def isAggregate (reg : Reg) (e : Node) : Bool :=
  match e.cls with
  | .aggregate => true
  | .anon n => groupFuncs.contains (lower n) || reg.aggregates (lower n)
  | _ => false

/-- compiler.py:2917-2918 `is_window_aggregate`. -/
def isWindow (e : Node) : Bool := e.cls = .window

/-- compiler.py:2920-2921 `is_subquery`. -/
def isQuery (e : Node) : Bool := e.cls = .query

/-- compiler.py:2887-2895 `is_calculate`. -/
def isCalculate (e : Node) : Bool :=
  match e.cls with
  | .binary | .dot | .inList | .not | .between | .exists | .cast | .func | .anon _ | .aggregate => true
  | .neg | .query | .bitNot | .tuple | .param | .assign => true
  | _ => false

/-- compiler.py:2878-2885 `is_const`. -/
def isConst : Node → Bool
  | .mk .literal _ => true
  | .mk .param _ => true
  | .mk .neg (a :: _) => if a.cls = .neg then false else isConst a
  | _ => false

/-- compiler.py:2870-2876 `parse_dot`, and 2855-2856, 2867: a column without conversion. -/
def isPlainColumn : Node → Bool
  | .mk .column _ => true
  | .mk .dot (a :: _) => isPlainColumn a
  | _ => false

/-- `convert_` (compiler.py:1600). -/
def convertPrefix : Name := ['c','o','n','v','e','r','t','_']

/-- compiler.py:2854-2876 `is_column`: also a column with a conversion, `CAST(a AS INT)` or `convert_int(a)`. -/
def isColumn (reg : Reg) (e : Node) : Bool :=
  match e with
  | .mk .cast (a :: _) => isPlainColumn a                                     -- 2857-2859
  | .mk (.anon n) [a] =>                                                      -- 2860-2865
    (lower n).take 8 = convertPrefix && reg.types ((lower n).drop 8) && isPlainColumn a
  | e => isPlainColumn e

mutual
/-- compiler.py:2315-2331 `parse_aggregate` and 2333-2349 `parse_window_aggregate`, the same walk with another test: the calls of
an expression, in order. -/
def calls (test : Node → Bool) : Node → List Node
  | .mk c as =>
    let here := if test (.mk c as) then [.mk c as] else []
    if !isCalculate (.mk c as) && c ≠ .paren then here                        -- 2318-2319
    else if isQuery (.mk c as) then here                                      -- 2320-2321
    else here ++ callsAll test as                                             -- 2322-2331
/-- The calls in a list of nodes. -/
def callsAll (test : Node → Bool) : List Node → List Node
  | [] => []
  | a :: as => calls test a ++ callsAll test as
end

/-- What a column of the select list is compiled to. -/
inductive Kind where
  | column                            -- `compile_select_column`
  | const                             -- `compile_const`
  | window (found : List Node)        -- `compile_window_column`
  | aggregate (found : List Node)     -- `compile_aggregate_column`
  | calculate                         -- `compile_select_calculate_column`

/-- compiler.py:510-525: a calculation. -/
def calculation (reg : Reg) (e : Node) : Kind :=
  if calls isWindow e ≠ [] then .window (calls isWindow e)                    -- 503-508
  else if calls (isAggregate reg) e ≠ [] then .aggregate (calls (isAggregate reg) e)   -- 510-515
  else .calculate

/-- compiler.py:454-525: one item that is not a star, with or without an alias; `none`: "must have an alias name". -/
def kind (reg : Reg) (aliased : Bool) (e : Node) : Option Kind :=
  if isColumn reg e then some .column                                         -- 447-448, 458-459
  else if isConst e then some .const                                          -- 453-456, 466-470
  else if isWindow e then some (.window [e])                                  -- 460-461, 471-473
  else if isAggregate reg e then some (.aggregate [e])                        -- 462-463, 474-476
  else if aliased then some (calculation reg e)                               -- 464-465
  else if isCalculate e then some (calculation reg e)                         -- 477-479
  else none                                                                   -- 480-482

/-- compiler.py:552-570: whether the statement has a row per group instead of a row per row. -/
def grouped (groupBy distinct : Bool) (kinds : List Kind) : Bool :=
  (kinds.any fun k => match k with | .aggregate _ => true | _ => false) || groupBy || distinct

/-- The whole select list. -/
def statement (reg : Reg) (groupBy distinct : Bool) (items : List (Bool × Node)) : Option Bool :=
  (items.mapM fun i => kind reg i.1 i.2).map (grouped groupBy distinct)

end Verif.ItemKind
