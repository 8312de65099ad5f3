import Verif.Model.ItemKind
/-!
What SQL says about the columns of a select list: a statement is grouped if it says GROUP BY or DISTINCT or calls an aggregate function
outside of subqueries and other than as the function of a window.
-/
namespace Verif.ItemSpec
open Verif.ItemKind

mutual
/-- The expressions inside an expression, itself included: not those of subqueries, and not the function of a window (in
`SUM(a + 1) OVER (PARTITION BY b)`, `SUM(a + 1)` is not a call of its own, `a + 1` and `b` are expressions inside). -/
def parts : Node → List Node
  | .mk c as => .mk c as ::
    (if c = .query then [] else if c = .window then windowParts as else partsAll as)
def partsAll : List Node → List Node
  | [] => []
  | a :: as => parts a ++ partsAll as
def windowParts : List Node → List Node
  | [] => []
  | .mk _ fs :: as => partsAll fs ++ partsAll as
end

/-- The expressions strictly inside. -/
def inner (x : Node) : List Node := (parts x).tail

/-- A window: `f(…) OVER (…)`. -/
def IsWindow (x : Node) : Prop := x.cls = .window

/-- A call of an aggregate function: one sqlglot knows, one of this program's `group_…` functions or one registered as aggregate, the
name in any case. -/
def IsAggregate (reg : Reg) (x : Node) : Prop :=
  x.cls = .aggregate ∨ ∃ n, x.cls = .anon n ∧ (lower n ∈ groupFuncs ∨ reg.aggregates (lower n) = true)

instance (x : Node) : Decidable (IsWindow x) := inferInstanceAs (Decidable (_ = _))

instance (reg : Reg) (x : Node) : Decidable (IsAggregate reg x) :=
  match h : x.cls with
  | .aggregate => isTrue (Or.inl h)
  | .anon n =>
    if h' : lower n ∈ groupFuncs ∨ reg.aggregates (lower n) = true then isTrue (Or.inr ⟨n, h, h'⟩)
    else isFalse (by rintro (h1 | ⟨m, h1, h2⟩) <;> simp_all)
  | .column | .dot | .literal | .param | .assign | .star | .paren | .neg | .bitNot | .tuple | .not | .binary | .inList | .between
  | .exists | .cast | .func | .query | .window | .interval | .bracket | .other =>
    isFalse (by rintro (h1 | ⟨m, h1, h2⟩) <;> simp_all)

/-- A call: either. -/
def IsCall (reg : Reg) (x : Node) : Prop := IsWindow x ∨ IsAggregate reg x

/-- There are no calls inside columns, constants, stars, types, `DISTINCT`/`ORDER BY` lists, INTERVALs, brackets, windows and aggregates. -/
def Written (reg : Reg) (e : Node) : Prop :=
  ∀ x ∈ parts e,
    (x.cls ∈ [Cls.column, .dot, .literal, .param, .star, .interval, .bracket, .other, .window] → ∀ y ∈ inner x, ¬ IsCall reg y) ∧
    (x.cls = .cast ∨ x.cls = .neg → ∀ y ∈ partsAll x.args.tail, ¬ IsCall reg y) ∧
    (IsAggregate reg x → ∀ y ∈ inner x, ¬ IsCall reg y)

/-- Conversion functions are not aggregates. -/
def Conversions (reg : Reg) : Prop :=
  ∀ n, n.take 8 = convertPrefix → reg.types (n.drop 8) = true → reg.aggregates n = false

/-- Nothing but parentheses, INTERVALs, brackets, stars and the like at the top: what can be selected without an alias. -/
def Nameable (e : Node) : Prop := e.cls ∉ [Cls.paren, .star, .interval, .bracket, .other]

/-- SQL: whether a select list makes its statement a grouped one. -/
def Grouped (reg : Reg) (groupBy distinct : Bool) (items : List Node) : Prop :=
  groupBy = true ∨ distinct = true ∨ ∃ e ∈ items, ∃ x ∈ parts e, IsAggregate reg x

end Verif.ItemSpec
