import Verif.Spec.SetOp
import Verif.Props.Limit
/-! C67: UNION ALL, UNION, EXCEPT and INTERSECT. -/
namespace Verif.Props
open Verif.Union Verif.SqlSet

section
variable {ρ V : Type}

theorem branches_selects (e : SetExpr ρ V) (h : NoParen e) : branches e = some (selects e) := by
  induction e with
  | select b => rfl
  | op k l r ihl ihr => rw [branches, ihl h.1, ihr h.2]; rfl
  | paren e _ => exact h.elim

theorem selects_ne (e : SetExpr ρ V) : selects e ≠ [] := by
  induction e with
  | select b => simp [selects]
  | op k l r ihl _ => simp [selects, ihl]
  | paren e ih => exact ih

theorem eval_unionAll [DecidableEq V] (e : SetExpr ρ V) (h : AllUnionAll e) :
    eval e = (selects e).flatMap fun b => b.rows.map (values b) := by
  induction e with
  | select b => simp [selects, eval, values]
  | op k l r ihl ihr =>
    obtain ⟨rfl, hl, hr⟩ := h
    simp [selects, eval, ihl hl, ihr hr]
  | paren e ih => exact ih h

/-- **C67**, for statements without parentheses made with UNION ALL only, whose SELECTs have the same column names in the same order:
the statement is accepted, has the columns of the first SELECT, and returns SQL's rows. -/
theorem C67_union_all [DecidableEq V] (null : V) (e : SetExpr ρ V) (hp : NoParen e) (ha : AllUnionAll e) (ns : List Name)
    (hn : ns.Nodup) (hs : ∀ b ∈ selects e, names b = ns) : setResult null e = some (ns, eval e) := by
  rw [setResult, branches_selects e hp, eval_unionAll e ha]
  cases h : selects e with
  | nil => exact absurd h (selects_ne e)
  | cons b bs =>
    have hb : names b = ns := hs b (by rw [h]; simp)
    rw [Option.map_some, C47_positional_partial null b bs (hb ▸ hn) (fun b' hb' => by rw [hb, hs b' (by rw [h]; simp [hb'])]), hb]

/-- **C109 is false for the other operations**: the operations are not looked at. Whatever they are, the result is that of
UNION ALL. -/
theorem C109_operation_ignored_violated [DecidableEq V] (null : V) (e : SetExpr ρ V) (hp : NoParen e) (ns : List Name)
    (hn : ns.Nodup) (hs : ∀ b ∈ selects e, names b = ns) :
    setResult null e = some (ns, (selects e).flatMap fun b => b.rows.map (values b)) := by
  rw [setResult, branches_selects e hp]
  cases h : selects e with
  | nil => exact absurd h (selects_ne e)
  | cons b bs =>
    have hb : names b = ns := hs b (by rw [h]; simp)
    rw [Option.map_some, C47_positional_partial null b bs (hb ▸ hn) (fun b' hb' => by rw [hb, hs b' (by rw [h]; simp [hb'])]), hb]

/-- Two SELECTs of one column `a`. -/
def twoSelects (k : Kind) (xs ys : List Nat) : SetExpr Nat (Option Nat) :=
  .op k (.select ⟨[(['a'], some)], xs⟩) (.select ⟨[(['a'], some)], ys⟩)

/-- `SELECT 1 AS a EXCEPT SELECT 1 AS a` returns 1 twice instead of nothing. -/
theorem C109_except_violated : setResult none (twoSelects .except [1] [1]) = some ([['a']], [[some 1], [some 1]]) ∧
    eval (twoSelects .except [1] [1]) = [] := by decide +kernel

/-- `SELECT 1 AS a INTERSECT SELECT 2 AS a` returns both instead of nothing. -/
theorem C109_intersect_violated : setResult none (twoSelects .intersect [1] [2]) = some ([['a']], [[some 1], [some 2]]) ∧
    eval (twoSelects .intersect [1] [2]) = [] := by decide +kernel

/-- **C109** A SELECT in parentheses inside a set operation is refused, wherever it stands. -/
theorem C109_parentheses_refused (null : V) (e : SetExpr ρ V) (h : ¬ NoParen e) : setResult null e = none := by
  have : branches e = none := by
    induction e with
    | select b => exact absurd trivial h
    | op k l r ihl ihr =>
      rw [branches]
      by_cases hl : NoParen l
      · have hr : ¬ NoParen r := fun hr => h ⟨hl, hr⟩
        rw [ihr hr]
        cases branches l <;> rfl
      · rw [ihl hl]
    | paren e _ => rfl
  rw [setResult, this]; rfl

example : ¬ NoParen (.op .unionAll (.paren (.select ⟨[(['a'], some)], [1]⟩)) (.select ⟨[(['a'], some)], [2]⟩) : SetExpr Nat (Option Nat)) := by
  simp [NoParen]

/-- Three SELECTs, one of them empty. -/
example : setResult none (.op .unionAll (twoSelects .unionAll [1, 2] []) (.select ⟨[(['a'], some)], [2]⟩)) =
    some ([['a']], [[some 1], [some 2], [some 2]]) := by
  rw [C67_union_all none _ (by simp [NoParen, twoSelects]) (by simp [AllUnionAll, twoSelects]) [['a']] (by decide)
    (by simp [selects, twoSelects, names])]
  decide +kernel

end

end Verif.Props
