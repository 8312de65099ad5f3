import Verif.Spec.Accepted
import Verif.Model.WinSelect
/-! Which queries are to give SQL's result: conditions that can be seen from the query. -/
namespace Verif.TotalSpec
open Verif.Val Verif.Expr Verif.Select Verif.AcceptSpec

variable {S : Type}

/-- LIMIT is applied to the result: there is none, or the query has an aggregate, a HAVING, or an ORDER BY with an expression.
(Otherwise rows are left out before they are grouped or compared: `C58_limit_violated`, `C59_limit_violated`.) -/
def LimitsResult (q : Query S) : Prop :=
  q.limit = none ∨ (∃ n args final, (n, Item.agg args final) ∈ q.cols) ∨ q.having ≠ none ∨ ∃ n d, (Order.Item.expr (some n), d) ∈ q.order

/-- What is assumed of the engine beside the faithfulness of its sources: its order of values is total and transitive, and its batches
are the rows. -/
structure EngineOk (en : Engine) : Prop where
  total : ∀ x y, en.le x y = true ∨ en.le y x = true
  trans : ∀ x y z, en.le x y = true → en.le y z = true → en.le x z = true
  chunks : ∀ l, (en.chunk l).flatMap (·.1) = l

/-- The result columns of a query with window functions that HAVING and ORDER BY can name: not those that are expressions of window
functions (`C65_order_by_expr_refused`, `C65_having_expr_refused`). -/
def winNames (q : WinSelect.Query S) : List Str :=
  q.cols.filterMap fun c => match c.2 with
    | .calc _ _ => none
    | _ => some c.1

/-- The windows of a column. -/
inductive WindowOf (q : WinSelect.Query S) : WinSelect.Win S → Prop where
  | column {n w} (h : (n, WinSelect.Item.win w) ∈ q.cols) : WindowOf q w
  | part {n ws e h w} (hc : (n, WinSelect.Item.calc ws e) ∈ q.cols) (hw : (h, w) ∈ ws) : WindowOf q w

/-- HAVING, ORDER BY and OVER as they should be: as `QueryOk`; a named window is defined; names in OVER are no window columns. -/
structure WinOk (q : WinSelect.Query S) : Prop where
  having : ∀ e, q.having = some e → HavingForm e ∧ ∀ c, E.col c ∈ parts e → c ∈ winNames q
  order : (∀ i ∈ q.order, ∃ n ∈ winNames q, i.1 = .expr (some n) ∨ ∃ t, i.1 = .col t n) ∨ ∀ i ∈ q.order, ∃ n, i.1 = .col (some q.table) n
  windows : ∀ w, WindowOf q w → ∀ n, w.over = .named n → n ∈ q.windows.map (·.1)
  names : ∀ w, WindowOf q w → ∀ o, (w.over = .inline o ∨ ∃ n, w.over = .named n ∧ (n, o) ∈ q.windows) →
    ∀ c, GKey.bare c ∈ o.part ++ o.order.map (·.1) →
      (∀ w', (c, WinSelect.Item.win w') ∉ q.cols) ∧ ∀ n ws e, (n, WinSelect.Item.calc ws e) ∈ q.cols → c ∉ ws.map (·.1)

end Verif.TotalSpec
