import Verif.Props.Where
import Verif.Spec.SubOperand
/-! C167: subqueries that do not depend on the row, as operands of WHERE. -/
namespace Verif.Props.SubProofs
open Verif.Val Verif.Expr Verif.Sql Verif.Where Verif.SubOperand Verif.SubSpec

variable (text : Str → Bool) (py : Py) (calls : Str → List Val → Val) (row : Str → Val)

/-- The code takes the column SQL takes. -/
def Column (s : Sub) : Prop := s.columnName = some s.column

/-- Conditions that may stand below NOT (AND and OR may not: C31). -/
def Neg : S → Prop
  | .e x => scalarOk x = true ∧ boolShape x = true
  | .and _ _ | .or _ _ => False
  | .not a | .paren a => Neg a
  | .cmpSub _ a s | .subCmp _ s a => scalarOk a = true ∧ Column s ∧ s.rows.length ≤ 1
  | .inSub a s => scalarOk a = true ∧ Column s ∧ (s.rows ≠ [] ∨ sem text py.cmp calls row a ≠ .null)
  | .exist _ => True

/-- Conditions as they should be; `push`: among those joined by AND (C42). -/
def Ok (prim : Str → Bool) (push : Bool) : S → Prop
  | .e x => condOk x = true ∧ (push = true → inListsConst x = true ∧ swapsHarmless text py calls row prim x)
  | .and a b => Ok prim push a ∧ Ok prim push b
  | .or a b => Ok prim false a ∧ Ok prim false b
  | .not a => Neg text py calls row a
  | .paren a => Ok prim push a
  | .cmpSub _ a s => scalarOk a = true ∧ Column s ∧ s.rows.length ≤ 1
  | .subCmp op s a => scalarOk a = true ∧ Column s ∧ s.rows.length ≤ 1 ∧
      (push = true → ∀ c, a = .col c → prim c = true →
        (py.cmp op (scalar s) (row c) = .int 1 ↔ py.cmp op (row c) (scalar s) = .int 1))
  | .inSub a s => scalarOk a = true ∧ Column s
  | .exist _ => True

/-- The columns that are operands of the conditions joined by AND. -/
def cols : S → List Str
  | .e x => operandCols x
  | .and a b => cols a ++ cols b
  | .paren a => cols a
  | .cmpSub _ a _ | .subCmp _ _ a | .inSub a _ => match a with | .col c => [c] | _ => []
  | _ => []

theorem Ok.weaken {prim : Str → Bool} {s : S} (h : Ok text py calls row prim true s) : Ok text py calls row prim false s := by
  induction s with
  | e x => exact ⟨h.1, fun h => by cases h⟩
  | and a b iha ihb => exact ⟨iha h.1, ihb h.2⟩
  | or a b => exact h
  | not a => exact h
  | paren a ih => exact ih h
  | cmpSub => exact h
  | subCmp op s a => exact ⟨h.1, h.2.1, h.2.2.1, fun h => by cases h⟩
  | inSub => exact h
  | exist => trivial

theorem values_eq {s : Sub} (h : Column s) : s.values = vals s := by
  unfold Column at h
  simp [Sub.values, vals, h]

theorem evalL_consts (l : List Val) : evalL py calls row (consts l) = l := by
  induction l with
  | nil => rfl
  | cons v l ih => simp [consts, evalL, eval, ih]

theorem eval_first {s : Sub} (h : Column s) : eval py calls row (first s) = scalar s := by
  simp [first, eval, truthy, values_eq h, scalar]

theorem eval_operand {s : Sub} (h : Column s) (h1 : s.rows.length ≤ 1) : eval py calls row (operand s) = scalar s := by
  have hv : s.values.length ≤ 1 := by simpa [Sub.values] using h1
  unfold operand
  split
  · rename_i a b l he; rw [he] at hv; simp at hv
  · exact eval_first py calls row h

theorem in_empty (a : Val) (ha : a ≠ .null) : py.mysqlIn a [] = ofTri (some false) := by
  have := (C29_in py a []).2.2.2 ⟨by simp, ha, by simp⟩
  rw [this]; rfl

theorem neg_value {s : S} (h : Neg text py calls row s) :
    NotText (eval py calls row (compileS s)) ∧ tv text (eval py calls row (compileS s)) = truth text py.cmp calls row s := by
  induction s with
  | e x =>
    rw [compileS, scalar_ok text py calls row x h.1]
    exact ⟨boolShape_notText text py calls row x h.2, rfl⟩
  | and a b => exact h.elim
  | or a b => exact h.elim
  | not a ih =>
    have key : eval py calls row (compileS (.not a)) = ofTri (not3 (truth text py.cmp calls row a)) := by
      have h' := ih h
      have hn : mysqlNot (eval py calls row (compileS a)) = ofTri (not3 (truth text py.cmp calls row a)) := by
        rw [not_tv text h'.1, h'.2]
      cases a with
      | e x =>
        have : scalarOk (.not x) = true := by simp only [scalarOk, Bool.and_eq_true]; exact h
        simp only [compileS]
        rw [scalar_ok text py calls row _ this, sem, truth]
      | _ => simpa only [compileS, eval] using hn
    rw [key, tv_ofTri]
    exact ⟨(ofTri_truth _).notText, rfl⟩
  | paren a ih => exact ih h
  | cmpSub op a s =>
    simp only [compileS, eval, scalar_ok text py calls row a h.1, eval_operand py calls row h.2.1 h.2.2]
    exact ⟨cmp_notText py _ _ _, rfl⟩
  | subCmp op s a =>
    simp only [compileS, eval, scalar_ok text py calls row a h.1, eval_operand py calls row h.2.1 h.2.2]
    exact ⟨cmp_notText py _ _ _, rfl⟩
  | inSub a s =>
    simp only [compileS, eval, scalar_ok text py calls row a h.1, evalL_consts, values_eq h.2.1, truth]
    have : py.mysqlIn (sem text py.cmp calls row a) (vals s) =
        ofTri (in3 (fun v => tv text (py.cmp .eq (sem text py.cmp calls row a) v)) (vals s)) := by
      by_cases hr : s.rows = []
      · have hv : vals s = [] := by simp [vals, hr]
        rw [hv, in_empty py _ (h.2.2.resolve_left (fun h => h hr))]
        rfl
      · exact in_tv text py _ _ (by simpa [vals] using hr)
    rw [this, tv_ofTri]
    exact ⟨(ofTri_truth _).notText, rfl⟩
  | exist s =>
    simp only [compileS, eval, truth]
    by_cases hr : s.rows = [] <;> simp [hr, NotText, tv]

theorem cond_value {prim : Str → Bool} {s : S} (h : Ok text py calls row prim false s) :
    truthy (eval py calls row (compileS s)) = true ↔ truth text py.cmp calls row s = some true := by
  induction s with
  | e x => exact cond_ok text py calls row x h.1
  | and a b iha ihb =>
    simp only [compileS, eval, truth, and3_true]
    by_cases ht : truthy (eval py calls row (compileS a)) = true
    · rw [if_pos ht, ihb h.2]; exact ⟨fun x => ⟨(iha h.1).1 ht, x⟩, fun x => x.2⟩
    · rw [if_neg ht]; exact ⟨fun x => by simp [truthy] at x, fun x => absurd ((iha h.1).2 x.1) ht⟩
  | or a b iha ihb =>
    simp only [compileS, eval, truth, or3_true]
    by_cases ht : truthy (eval py calls row (compileS a)) = true
    · rw [if_pos ht]; exact ⟨fun _ => .inl ((iha h.1).1 ht), fun _ => by simp [truthy]⟩
    · rw [if_neg ht, ihb h.2]; exact ⟨.inr, fun x => x.resolve_left fun y => ht ((iha h.1).2 y)⟩
  | not a =>
    have := neg_value text py calls row (s := .not a) h
    rw [truthy_tv text this.1, this.2]
  | paren a ih => exact ih h
  | cmpSub op a s =>
    have := neg_value text py calls row (s := .cmpSub op a s) h
    rw [truthy_tv text this.1, this.2]
  | subCmp op s a =>
    have := neg_value text py calls row (s := .subCmp op s a) ⟨h.1, h.2.1, h.2.2.1⟩
    rw [truthy_tv text this.1, this.2]
  | inSub a s =>
    by_cases hr : s.rows = []
    · have hv : vals s = [] := by simp [vals, hr]
      simp only [compileS, eval, scalar_ok text py calls row a h.1, evalL_consts, values_eq h.2, truth, hv]
      by_cases ha : sem text py.cmp calls row a = .null
      · rw [ha]; simp [Py.mysqlIn, caught, truthy, in3]
      · rw [in_empty py _ ha]; simp [ofTri, truthy, in3]
    · have := neg_value text py calls row (s := .inSub a s) ⟨h.1, h.2, .inl hr⟩
      rw [truthy_tv text this.1, this.2]
  | exist s =>
    have := neg_value text py calls row (s := .exist s) trivial
    rw [truthy_tv text this.1, this.2]

variable (src : Src)

/-- What a split has to satisfy. -/
structure SOk (prim : Str → Bool) (s : S) (qs : Querys) (r : SubOperand.Split) : Prop where
  nodup : (qkeys r.querys).Nodup
  keys : ∀ k, k ∈ qkeys r.querys → k ∈ qkeys qs ∨ k ∈ cols s
  tree : Ok text py calls row prim false r.tree
  res : ∀ x, r.res = some x → Ok text py calls row prim false x
  sem : truth text py.cmp calls row s = some true ∧ matchRow py calls src row qs = true ↔
    truth text py.cmp calls row r.tree = some true ∧ matchRow py calls src row r.querys = true
  resSem : match r.res with
    | none => truth text py.cmp calls row r.tree = some true
    | some x => truth text py.cmp calls row r.tree = some true ↔ truth text py.cmp calls row x = some true

theorem same (prim : Str → Bool) (s : S) (qs : Querys) (hn : (qkeys qs).Nodup) (h : Ok text py calls row prim true s) :
    SOk text py calls row src prim s qs ⟨some s, s, qs⟩ :=
  { nodup := hn
    keys := fun _ h => Or.inl h
    tree := h.weaken
    res := fun r hr => by cases hr; exact h.weaken
    sem := Iff.rfl
    resSem := Iff.rfl }

/-- A condition that is pushed. -/
theorem pushed (prim : Str → Bool) (s : S) (qs : Querys) (hn : (qkeys qs).Nodup) (c : Str) (op : QOp) (v : QVal) (hc : cols s = [c])
    (hrow : ∀ c, row c = row (baseName c))
    (hv : truth text py.cmp calls row s = some true ↔ holds py calls src (row c) (op, v) = true) :
    SOk text py calls row src prim s qs ⟨none, .e (.lit (.int 1)), build c op v qs⟩ := by
  have hk := build_keys c op v qs hn
  refine ⟨hk.1, ?_, ⟨rfl, fun h => by cases h⟩, by simp, ?_, by simp [truth, Sql.sem, tv_one]⟩
  · intro k h
    rcases (hk.2 k).1 h with rfl | h
    · right; simp [hc]
    · exact Or.inl h
  · rw [build_match, ← hrow c, hv]
    simp only [truth, Sql.sem, tv_one, true_and, Bool.and_eq_true]
    exact And.comm

theorem pushes_some {prim : Str → Bool} {a : E} {c : Str} (h : pushes prim a = some c) : a = .col c ∧ prim c = true := by
  unfold pushes at h
  split at h
  · split at h
    · cases h; exact ⟨rfl, by assumption⟩
    · cases h
  · cases h

theorem split_sok (prim : Str → Bool) (hf : Faithful py src) (hrow : ∀ c, row c = row (baseName c)) (s : S) (qs : Querys)
    (hn : (qkeys qs).Nodup) (h : Ok text py calls row prim true s) :
    SOk text py calls row src prim s qs (SubOperand.split prim qs s) := by
  induction s generalizing qs with
  | e x =>
    obtain ⟨h1, h2⟩ := h
    have k := split_ok text py calls row src prim hf hrow x qs hn h1 (h2 rfl).1 (h2 rfl).2
    refine ⟨k.nodup, k.keys, ⟨k.tree, fun h => by cases h⟩, ?_, k.sem, ?_⟩
    · intro y hy
      simp only [SubOperand.split, Option.map_eq_some_iff] at hy
      obtain ⟨z, hz, rfl⟩ := hy
      exact ⟨k.res z hz, fun h => by cases h⟩
    · have kr := k.resSem
      simp only [SubOperand.split]
      cases hr : (Where.split prim qs x).res with
      | none => rw [hr] at kr; exact kr
      | some y => rw [hr] at kr; exact kr
  | and a b iha ihb =>
    have ha := iha qs hn h.1
    have hb := ihb _ ha.nodup h.2
    simp only [SubOperand.split]
    generalize SubOperand.split prim qs a = l at ha hb
    generalize SubOperand.split prim l.querys b = r at hb
    have htree : truth text py.cmp calls row (.and l.tree r.tree) = some true ↔
        truth text py.cmp calls row l.tree = some true ∧ truth text py.cmp calls row r.tree = some true := by
      simp only [truth, and3_true]
    have hl := ha.resSem
    have hr := hb.resSem
    refine ⟨hb.nodup, ?_, ⟨ha.tree, hb.tree⟩, ?_, ?_, ?_⟩
    · intro k hk
      rcases hb.keys k hk with h | h
      · rcases ha.keys k h with h | h
        · exact Or.inl h
        · exact Or.inr (by simp [cols, h])
      · exact Or.inr (by simp [cols, h])
    · intro x hx
      cases hL : l.res <;> cases hR : r.res <;> simp only [hL, hR] at hx
      · cases hx
      · cases hx; exact hb.res _ hR
      · cases hx; exact ha.res _ hL
      · cases hx; exact ⟨ha.tree, hb.tree⟩
    · have h1 := ha.sem
      have h2 := hb.sem
      simp only [truth, and3_true]
      constructor
      · rintro ⟨⟨x, y⟩, z⟩
        have := h1.1 ⟨x, z⟩
        have h3 := h2.1 ⟨y, this.2⟩
        exact ⟨⟨this.1, h3.1⟩, h3.2⟩
      · rintro ⟨⟨x, y⟩, z⟩
        have := h2.2 ⟨y, z⟩
        have h3 := h1.2 ⟨x, this.2⟩
        exact ⟨⟨h3.1, this.1⟩, h3.2⟩
    · cases hL : l.res <;> cases hR : r.res <;> simp only [hL, hR] at hl hr ⊢
      · exact htree.2 ⟨hl, hr⟩
      · rw [htree, ← hr]; exact ⟨fun h => h.2, fun h => ⟨hl, h⟩⟩
      · rw [htree, ← hl]; exact ⟨fun h => h.1, fun h => ⟨h, hr⟩⟩
  | or a b => exact same text py calls row src prim _ qs hn h
  | not a => exact same text py calls row src prim _ qs hn h
  | paren a ih =>
    have k := ih qs hn h
    exact ⟨k.nodup, k.keys, k.tree, k.res, k.sem, k.resSem⟩
  | cmpSub op a s =>
    simp only [SubOperand.split]
    cases hp : pushes prim a with
    | none => exact same text py calls row src prim _ qs hn h
    | some c =>
      obtain ⟨rfl, hc⟩ := pushes_some hp
      refine pushed text py calls row src prim _ qs hn c _ _ rfl hrow ?_
      simp only [truth, Sql.sem, tv_cmp, holds, hf.cmp, eval_first py calls _ h.2.1]
  | subCmp op s a =>
    simp only [SubOperand.split]
    cases hp : pushes prim a with
    | none => exact same text py calls row src prim _ qs hn h
    | some c =>
      obtain ⟨rfl, hc⟩ := pushes_some hp
      refine pushed text py calls row src prim _ qs hn c _ _ rfl hrow ?_
      simp only [truth, Sql.sem, tv_cmp, holds, hf.cmp, eval_first py calls _ h.2.1]
      exact h.2.2.2 rfl c rfl hc
  | inSub a s =>
    simp only [SubOperand.split]
    cases hp : pushes prim a with
    | none => exact same text py calls row src prim _ qs hn h
    | some c =>
      obtain ⟨rfl, hc⟩ := pushes_some hp
      refine pushed text py calls row src prim _ qs hn c _ _ rfl hrow ?_
      simp only [truth, Sql.sem, in3_true, tv_cmp, holds, hf.inn, evalL_consts, values_eq h.2]
  | exist s => exact same text py calls row src prim _ qs hn h

end Verif.Props.SubProofs

namespace Verif.Props
open Verif.Val Verif.Expr Verif.Sql Verif.Where Verif.SubOperand Verif.SubSpec SubProofs

/-- **C167** (partial).  A row is selected iff SQL says that the WHERE clause is TRUE of it, for clauses with comparisons with
subqueries, IN and NOT IN of subqueries and EXISTS, in AND, OR, NOT and parentheses with other conditions.  The conditions, next to
those of C42: a subquery that is compared has at most one row (SQL refuses others), a comparison with the subquery on the left is
not affected by exchanging the operands, AND and OR are not below NOT, and below NOT an IN of a subquery without rows is not asked of
NULL. -/
theorem C167_where_partial (text : Str → Bool) (py : Py) (calls : Str → List Val → Val) (row : Str → Val) (src : Src) (prim : Str → Bool)
    (hf : Faithful py src) (hrow : ∀ c, row c = row (baseName c)) (s : S) (h : Ok text py calls row prim true s) (hc : NoClash (cols s))
    (c : Querys × Option T) (hcomp : acceptWhere prim s = some c) :
    selected py calls src row c = true ↔ truth text py.cmp calls row s = some true := by
  obtain rfl : SubOperand.compileWhere prim s = c := by
    unfold acceptWhere at hcomp
    split at hcomp
    · cases hcomp
    · exact Option.some.inj hcomp
  have k := split_sok text py calls row src prim hf hrow s [] (by simp [qkeys]) h
  have hkeys : NoClash (qkeys (SubOperand.split prim [] s).querys) := fun x hx x' hx' heq =>
    hc x (by simpa [qkeys] using k.keys x hx) x' (by simpa [qkeys] using k.keys x' hx') heq
  have hsem := k.sem
  have hnil : matchRow py calls src row [] = true := rfl
  rw [hnil] at hsem
  simp only [and_true] at hsem
  rw [hsem]
  simp only [selected, SubOperand.compileWhere, retype_match py calls row src _ k.nodup hkeys, Bool.and_eq_true]
  have hr := k.resSem
  have hro := k.res
  cases hres : (SubOperand.split prim [] s).res with
  | none =>
    simp only [hres] at hr
    simp [hr]
  | some r =>
    simp only [hres] at hr
    rw [hr]
    simp only [Option.map_some, cond_value text py calls row (hro r hres)]
    exact And.comm

/-- The clauses that are refused: those with a subquery compared, among the conditions joined by AND, with a column of the primary table
that has a typing filter. -/
theorem C167_accepted (prim : Str → Bool) (s : S) (h : ∀ c ∈ cols s, prim c = true → baseName c = c) : (acceptWhere prim s).isSome = true := by
  have hr : refused prim s = false := by
    induction s with
    | and a b iha ihb =>
      simp only [cols, List.mem_append] at h
      simp [refused, iha fun c hc => h c (.inl hc), ihb fun c hc => h c (.inr hc)]
    | paren a ih => exact ih h
    | cmpSub op a s =>
      cases hp : pushes prim a with
      | none => simp [refused, hp]
      | some c =>
        obtain ⟨rfl, hc⟩ := pushes_some hp
        simp [refused, hp, typed, h c (by simp [cols]) hc]
    | subCmp op s a =>
      cases hp : pushes prim a with
      | none => simp [refused, hp]
      | some c =>
        obtain ⟨rfl, hc⟩ := pushes_some hp
        simp [refused, hp, typed, h c (by simp [cols]) hc]
    | inSub a s =>
      cases hp : pushes prim a with
      | none => simp [refused, hp]
      | some c =>
        obtain ⟨rfl, hc⟩ := pushes_some hp
        simp [refused, hp, typed, h c (by simp [cols]) hc]
    | _ => rfl
  simp [acceptWhere, hr]

/-- **C167, negated**: `a[int] = (SELECT …)`, `a[int] IN (SELECT …)` and CASTs of columns in their place are refused, whatever else the
clause demands. -/
theorem C167_typed_violated (prim : Str → Bool) (c : Str) (hp : prim c = true) (ht : baseName c ≠ c) (op : Cmp) (s : SubOperand.Sub) (rest : S) :
    acceptWhere prim (.and (.inSub (.col c) s) rest) = none ∧ acceptWhere prim (.and rest (.cmpSub op (.col c) s)) = none := by
  simp [acceptWhere, refused, pushes, hp, typed, ht]

example : acceptWhere (fun _ => true) (.and (.inSub (.col "a|int".toList) ⟨some [['m']], [], ['m'], []⟩) (.e (.lit (.int 1)))) = none :=
  (C167_typed_violated _ _ rfl (by decide) .eq _ _).1

/-- The column that is compared: the only column of a SELECT; of a UNION, the column of its first SELECT; of a `SELECT *` from a subquery,
that subquery's. -/
theorem C167_column (c : Str) (ds : List (Option (List Str))) (rows : List (Str → Val)) :
    (SubOperand.Sub.mk (some [c]) ds c rows).columnName = some c ∧ (SubOperand.Sub.mk none (some [c] :: ds) c rows).columnName = some c := by
  simp [SubOperand.Sub.columnName]

/-- **C167, negated**: of `SELECT *` from a table no column is taken, whatever the table (SQL: its only column). -/
theorem C167_star_violated (c : Str) (rows : List (Str → Val)) : (SubOperand.Sub.mk none [] c rows).columnName = none ∧
    (∀ d, (SubOperand.Sub.mk none [some [d]] c rows).columnName = some d) := by
  simp [SubOperand.Sub.columnName]

/-- **C167, negated**: `a NOT IN (SELECT …)` with no rows in the subquery: SQL's TRUE for every row, here rows with NULL are lost. -/
theorem C167_not_in_empty_violated (text : Str → Bool) (py : Py) (calls : Str → List Val → Val) (src : Src) (c : Str) :
    let s := S.not (.inSub (.col ['a']) ⟨some [c], [], c, []⟩)
    truth text py.cmp calls (fun _ => .null) s = some true ∧
      selected py calls src (fun _ => .null) (SubOperand.compileWhere (fun _ => true) s) = false := by
  refine ⟨rfl, ?_⟩
  rfl

/-- **C167, negated**: `(SELECT …) < a` is taken for `a < (SELECT …)`. -/
theorem C167_left_violated (text : Str → Bool) (py : Py) (calls : Str → List Val → Val) :
    let s := S.subCmp .lt ⟨some [['m']], [], ['m'], [fun _ => .int 5]⟩ (.col ['a'])
    truth text py.cmp calls (fun _ => .int 3) s = some false ∧
      selected py calls (idealSrc py) (fun _ => .int 3) (SubOperand.compileWhere (fun _ => true) s) = true ∧
      truth text py.cmp calls (fun _ => .int 7) s = some true ∧
      selected py calls (idealSrc py) (fun _ => .int 7) (SubOperand.compileWhere (fun _ => true) s) = false := ⟨rfl, rfl, rfl, rfl⟩

/-- **C167, negated**: a subquery with several rows is compared by its first row (SQL refuses the query). -/
theorem C167_many_rows_violated (op : Cmp) (c : Str) (prim : Str → Bool)
    (a : Str) (hp : prim a = true) (v w : Str → Val) (rs : List (Str → Val)) :
    SubOperand.compileWhere prim (.cmpSub op (.col a) ⟨some [c], [], c, v :: w :: rs⟩) =
      SubOperand.compileWhere prim (.cmpSub op (.col a) ⟨some [c], [], c, [v]⟩) := by
  simp [SubOperand.compileWhere, SubOperand.split, pushes, hp, first, SubOperand.Sub.values, SubOperand.Sub.columnName]

namespace SubCases

/-- `SELECT m FROM t` with the rows 5 and NULL. -/
def two : SubOperand.Sub := ⟨some [['m']], [], ['m'], [fun _ => .int 5, fun _ => .null]⟩

/-- `SELECT MAX(m) AS m FROM t`. -/
def one : SubOperand.Sub := ⟨some [['m']], [], ['m'], [fun _ => .int 5]⟩

/-- `a <= (SELECT MAX(m) …) AND a IN (SELECT m …) AND (NOT (b IN (SELECT m …)) OR EXISTS (SELECT …))`. -/
def clause : S :=
  .and (.and (.cmpSub .lte (.col ['a']) one) (.inSub (.col ['a']) two)) (.paren (.or (.not (.inSub (.col ['b']) two)) (.exist one)))

example (text : Str → Bool) (py : Py) (calls : Str → List Val → Val) (row : Str → Val) :
    Ok text py calls row (fun _ => true) true clause ∧ NoClash (cols clause) ∧
      acceptWhere (fun _ => true) clause = some (SubOperand.compileWhere (fun _ => true) clause) := by
  have h1 : Column one := rfl
  have h2 : Column two := rfl
  have n2 : two.rows ≠ [] := by simp [two]
  refine ⟨⟨⟨⟨rfl, h1, by simp [one]⟩, rfl, h2⟩, ⟨rfl, h2, .inl n2⟩, trivial⟩, ?_, rfl⟩
  intro k hk k' hk' _
  simp only [clause, cols, List.cons_append, List.nil_append, List.mem_cons, List.append_nil, List.not_mem_nil, or_false, or_self] at hk hk'
  rw [hk, hk']

/-- A row with `a = 5` passes, one with `a = 4` does not. -/
example (py : Py) (calls : Str → List Val → Val) :
    selected py calls (idealSrc py) (fun _ => .int 5) (SubOperand.compileWhere (fun _ => true) clause) = true ∧
      selected py calls (idealSrc py) (fun _ => .int 4) (SubOperand.compileWhere (fun _ => true) clause) = false := ⟨rfl, rfl⟩

end SubCases
end Verif.Props
