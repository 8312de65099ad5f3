import Verif.Props.Scalar
import Verif.Spec.Sql
/-! Property theorem C31: compiled expressions against SQL's three-valued logic. -/
namespace Verif.Props
open Verif.Val Verif.Expr Verif.Sql

/-- Expressions whose value is a truth value or number by construction. -/
def boolShape : E → Bool
  | .lit (.str _) => false
  | .lit _ => true
  | .cmp _ _ _ => true
  | .not _ => true
  | .is _ _ => true
  | .inl _ _ => true
  | .paren a => boolShape a
  | _ => false

/-- Expressions whose value is 1, 0, TRUE, FALSE or NULL by construction. -/
def truthShape : E → Bool
  | .lit .null => true
  | .lit (.bool _) => true
  | .cmp _ _ _ => true
  | .not _ => true
  | .is _ _ => true
  | .inl _ _ => true
  | .paren a => truthShape a
  | _ => false

/-- A non-empty list (SQL has no `IN ()`). -/
def nonEmpty : EL → Bool
  | .nil => false
  | .cons _ _ => true

/-- All `WHEN` operands are literals. -/
def litWhens : WL → Bool
  | .noElse => true
  | .els _ => true
  | .when (.lit _) _ ws => litWhens ws
  | .when _ _ _ => false

theorem litWhens_eq : ∀ ws, allConst ws = litWhens ws
  | .noElse => rfl
  | .els _ => rfl
  | .when c t ws => by cases c <;> simp [allConst, isConst, litWhens, litWhens_eq ws]

mutual
/-- Expressions (used for their value) in which AND, OR and BETWEEN occur only as conditions, never below NOT; texts
are not used as conditions; CASE has an ELSE and is not of the constant-operand form. -/
def scalarOk : E → Bool
  | .lit _ => true
  | .col _ => true
  | .cmp _ a b => scalarOk a && scalarOk b
  | .and _ _ => false
  | .or _ _ => false
  | .not a => scalarOk a && boolShape a
  | .is a .null => scalarOk a
  | .is a _ => scalarOk a && truthShape a
  | .inl a l => scalarOk a && scalarOkL l && nonEmpty l
  | .between _ _ _ => false
  | .paren a => scalarOk a
  | .ite c t f => condOk c && scalarOk t && scalarOk f
  | .ifnull a b => scalarOk a && scalarOk b
  | .coalesce a l => scalarOk a && scalarOkL l
  | .caseC ws => whensOk true ws
  | .caseV a ws => !litWhens ws && scalarOk a && whensOk false ws
  | .call _ l => scalarOkL l
def scalarOkL : EL → Bool
  | .nil => true
  | .cons e l => scalarOk e && scalarOkL l
/-- Conditions: AND, OR, parentheses and BETWEEN over the former. -/
def condOk : E → Bool
  | .and a b => condOk a && condOk b
  | .or a b => condOk a && condOk b
  | .between a lo hi => scalarOk a && scalarOk lo && scalarOk hi
  | .paren a => condOk a
  | .lit v => boolShape (.lit v)
  | .cmp _ a b => scalarOk a && scalarOk b
  | .not a => scalarOk a && boolShape a
  | .is a .null => scalarOk a
  | .is a _ => scalarOk a && truthShape a
  | .inl a l => scalarOk a && scalarOkL l
  | _ => false
def whensOk (cond : Bool) : WL → Bool
  | .noElse => false
  | .els e => scalarOk e
  | .when c t ws => (if cond then condOk c else scalarOk c) && scalarOk t && whensOk cond ws
end

/-- A value that is not a text. -/
def NotText : Val → Prop
  | .str _ => False
  | _ => True

/-- 1, 0, TRUE, FALSE, NULL. -/
def Truth (v : Val) : Prop := v = .null ∨ v = .int 0 ∨ v = .int 1 ∨ v = .bool false ∨ v = .bool true

theorem Truth.notText {v : Val} (h : Truth v) : NotText v := by
  rcases h with rfl | rfl | rfl | rfl | rfl <;> trivial

theorem ofTri_truth (t : Option Bool) : Truth (ofTri t) := by
  rcases t with _ | _ | _ <;> simp [Truth, ofTri]

theorem ofBool_eq (b : Bool) : ofBool b = ofTri (some b) := by cases b <;> rfl

theorem cmp_truth (py : Py) (op : Cmp) (a b : Val) : ∃ t, py.cmp op a b = ofTri t := by
  by_cases ha : a = .null
  · exact ⟨none, by rw [ha, (C27_comparison_null py op b).1]; rfl⟩
  · by_cases hb : b = .null
    · exact ⟨none, by rw [hb, (C27_comparison_null py op a).2]; rfl⟩
    · rcases cmp_order py a b ha hb with ⟨o, h⟩ | h
      · exact ⟨some (op.holds o), by rw [h, ofBool_eq]⟩
      · rw [h]
        cases op
        · exact ⟨some false, rfl⟩
        · exact ⟨some true, rfl⟩
        all_goals exact ⟨none, rfl⟩

section
variable (text : Str → Bool)

theorem truthy_tv {v : Val} (h : NotText v) : truthy v = true ↔ tv text v = some true := by
  cases v with
  | str s => exact h.elim
  | _ => simp [truthy, tv]

theorem not_tv {v : Val} (h : NotText v) : mysqlNot v = ofTri (not3 (tv text v)) := by
  cases v with
  | null => rfl
  | str s => exact h.elim
  | bool b => cases b <;> rfl
  | int i => by_cases e : i = 0 <;> simp [mysqlNot, truthy, tv, not3, ofTri, ofBool, e]
  | flt q => by_cases e : q = 0 <;> simp [mysqlNot, truthy, tv, not3, ofTri, ofBool, e]

theorem tv_ofTri (t : Option Bool) : tv text (ofTri t) = t := by
  rcases t with _ | _ | _ <;> simp [ofTri, tv]

theorem in3_true (f : Val → Option Bool) (l : List Val) : in3 f l = some true ↔ ∃ v ∈ l, f v = some true := by
  induction l with
  | nil => simp [in3]
  | cons v l ih =>
    have : in3 f (v :: l) = Sql.or3 (f v) (in3 f l) := rfl
    rw [this]
    have h3 : Sql.or3 (f v) (in3 f l) = some true ↔ f v = some true ∨ in3 f l = some true := by
      rcases f v with _ | _ | _ <;> rcases in3 f l with _ | _ | _ <;> simp [Sql.or3]
    rw [h3, ih]; simp

theorem in3_none (f : Val → Option Bool) (l : List Val) :
    in3 f l = none ↔ (¬ ∃ v ∈ l, f v = some true) ∧ ∃ v ∈ l, f v = none := by
  induction l with
  | nil => simp [in3]
  | cons v l ih =>
    have : in3 f (v :: l) = Sql.or3 (f v) (in3 f l) := rfl
    rw [this]
    have ht := in3_true f l
    have h3 : Sql.or3 (f v) (in3 f l) = none ↔ f v ≠ some true ∧ in3 f l ≠ some true ∧ (f v = none ∨ in3 f l = none) := by
      rcases f v with _ | _ | _ <;> rcases in3 f l with _ | _ | _ <;> simp [Sql.or3]
    rw [h3, ih, ne_eq, ne_eq, ht]
    constructor
    · rintro ⟨h1, h2, h | ⟨h, w, hw, e⟩⟩
      · refine ⟨?_, v, by simp, h⟩
        rintro ⟨w, hw, e⟩
        rcases List.mem_cons.1 hw with rfl | hw
        · exact h1 e
        · exact h2 ⟨w, hw, e⟩
      · refine ⟨?_, w, by simp [hw], e⟩
        rintro ⟨w, hw, e⟩
        rcases List.mem_cons.1 hw with rfl | hw
        · exact h1 e
        · exact h2 ⟨w, hw, e⟩
    · rintro ⟨h1, w, hw, e⟩
      refine ⟨fun h => h1 ⟨v, by simp, h⟩, fun ⟨w, hw, e⟩ => h1 ⟨w, by simp [hw], e⟩, ?_⟩
      rcases List.mem_cons.1 hw with rfl | hw
      · exact .inl e
      · exact .inr ⟨fun ⟨w, hw, e⟩ => h1 ⟨w, by simp [hw], e⟩, w, hw, e⟩

theorem in_tv (py : Py) (a : Val) (l : List Val) (hl : l ≠ []) :
    py.mysqlIn a l = ofTri (in3 (fun v => tv text (py.cmp .eq a v)) l) := by
  have key : ∀ v, tv text (py.cmp .eq a v) = some true ↔ py.cmp .eq a v = .int 1 := by
    intro v
    obtain ⟨t, ht⟩ := cmp_truth py .eq a v
    rw [ht, tv_ofTri]
    rcases t with _ | _ | _ <;> simp [ofTri]
  have keyn : ∀ v, tv text (py.cmp .eq a v) = none ↔ a = .null ∨ v = .null := by
    intro v
    constructor
    · intro h
      by_cases ha : a = .null
      · exact .inl ha
      · by_cases hv : v = .null
        · exact .inr hv
        · obtain ⟨r, _, h2⟩ := eq_two_valued py a v ha hv
          rw [h2, ofBool_eq, tv_ofTri] at h; cases h
    · rintro (rfl | rfl)
      · rw [(C27_comparison_null py .eq v).1]; rfl
      · rw [(C27_comparison_null py .eq a).2]; rfl
  obtain ⟨h1, h2, h3⟩ := C29_in py a l
  have t1 := in3_true (fun v => tv text (py.cmp .eq a v)) l
  have t2 := in3_none (fun v => tv text (py.cmp .eq a v)) l
  simp only [key, keyn] at t1 t2
  by_cases hx : ∃ v ∈ l, py.cmp .eq a v = .int 1
  · rw [h1.2 hx, t1.2 hx]; rfl
  · by_cases hy : a = .null ∨ .null ∈ l
    · rw [h2.2 ⟨hx, hy⟩, t2.2 ⟨hx, ?_⟩]; · rfl
      rcases hy with hy | hy
      · obtain ⟨w, l', rfl⟩ := List.exists_cons_of_ne_nil hl
        exact ⟨w, by simp, .inl hy⟩
      · exact ⟨_, hy, .inr rfl⟩
    · rw [h3.2 ⟨hx, fun h => hy (.inl h), fun h => hy (.inr h)⟩]
      have hf : in3 (fun v => tv text (py.cmp .eq a v)) l = some false := by
        rcases hr : in3 (fun v => tv text (py.cmp .eq a v)) l with _ | _ | _
        · exfalso
          obtain ⟨_, v, hv, h | h⟩ := t2.1 hr
          · exact hy (.inl h)
          · exact hy (.inr (h ▸ hv))
        · rfl
        · exact absurd (t1.1 hr) hx
      rw [hf]; rfl

theorem is_null_tv (py : Py) (v : Val) : mysqlIs py v .null = ofTri (some (decide (v = .null))) := by
  simp [mysqlIs, ofBool_eq]

theorem is_true_tv (py : Py) {v : Val} (h : Truth v) :
    mysqlIs py v (.bool true) = ofTri (some (decide (tv text v = some true))) := by
  rcases h with rfl | rfl | rfl | rfl | rfl <;> rfl

theorem is_false_tv (py : Py) {v : Val} (h : Truth v) :
    mysqlIs py v (.bool false) = ofTri (some (decide (tv text v = some false))) := by
  rcases h with rfl | rfl | rfl | rfl | rfl <;> rfl

theorem isNot_null (py : Py) (v : Val) : mysqlIsNot py v .null = mysqlNot (mysqlIs py v .null) := by
  by_cases h : v = .null <;> simp [mysqlIsNot, mysqlIs, ofBool, mysqlNot, truthy, h]

theorem isNot_bool (py : Py) {v : Val} (h : Truth v) (b : Bool) :
    mysqlIsNot py v (.bool b) = mysqlNot (mysqlIs py v (.bool b)) := by
  rcases h with rfl | rfl | rfl | rfl | rfl <;> cases b <;> rfl

variable (py : Py) (calls : Str → List Val → Val) (row : Str → Val)

theorem truthShape_truth (e : E) (h : truthShape e = true) : Truth (sem text py.cmp calls row e) := by
  induction e using truthShape.induct with
  | case1 => left; rfl
  | case2 b => cases b <;> simp [sem, Truth]
  | case3 op a b => obtain ⟨t, ht⟩ := cmp_truth py op (sem text py.cmp calls row a) (sem text py.cmp calls row b)
                    rw [sem, ht]; exact ofTri_truth _
  | case4 a => rw [sem]; exact ofTri_truth _
  | case5 a w => cases w <;> (rw [sem]; exact ofTri_truth _)
  | case6 a l => rw [sem]; exact ofTri_truth _
  | case7 a ih => rw [sem]; exact ih (by simpa [truthShape] using h)
  | case8 e => simp_all [truthShape]

theorem boolShape_notText (e : E) (h : boolShape e = true) : NotText (sem text py.cmp calls row e) := by
  induction e using boolShape.induct with
  | case1 => simp [boolShape] at h
  | case2 v => rw [sem]; cases v <;> simp_all [NotText]
  | case3 op a b => exact (truthShape_truth text py calls row _ rfl).notText
  | case4 a => exact (truthShape_truth text py calls row _ rfl).notText
  | case5 a w => exact (truthShape_truth text py calls row _ rfl).notText
  | case6 a l => exact (truthShape_truth text py calls row _ rfl).notText
  | case7 a ih => rw [sem]; exact ih (by simpa [boolShape] using h)
  | case8 e => simp_all [boolShape]


theorem cmp_notText (op : Cmp) (a b : Val) : NotText (py.cmp op a b) := by
  obtain ⟨t, ht⟩ := cmp_truth py op a b
  rw [ht]; exact (ofTri_truth t).notText

theorem semL_ne (l : EL) (h : nonEmpty l = true) : semL text py.cmp calls row l ≠ [] := by
  cases l with
  | nil => simp [nonEmpty] at h
  | cons e l => simp [semL]

theorem and3_true (a b : Option Bool) : and3 a b = some true ↔ a = some true ∧ b = some true := by
  rcases a with _ | _ | _ <;> rcases b with _ | _ | _ <;> simp [and3]

theorem or3_true (a b : Option Bool) : Sql.or3 a b = some true ↔ a = some true ∨ b = some true := by
  rcases a with _ | _ | _ <;> rcases b with _ | _ | _ <;> simp [Sql.or3]

theorem firstNonNull_cons (v : Val) (l : List Val) : firstNonNull (v :: l) = if v = .null then firstNonNull l else v := rfl

theorem truthy_zero : truthy (.int 0) = false := rfl

theorem truthy_one : truthy (.int 1) = true := rfl

theorem compile_not (a : E) (h : ∀ x w, a ≠ .is x w) : compile (.not a) = .not (compile a) := by
  cases a <;> first | rfl | exact absurd rfl (h _ _)

mutual
theorem scalar_ok (e : E) (h : scalarOk e = true) :
    eval py calls row (compile e) = sem text py.cmp calls row e := by
  cases e with
  | lit v => simp [compile, eval, sem]
  | col c => simp [compile, eval, sem]
  | cmp op a b =>
    simp only [scalarOk, Bool.and_eq_true] at h
    simp only [compile, eval, sem, scalar_ok a h.1, scalar_ok b h.2]
  | and a b => simp [scalarOk] at h
  | or a b => simp [scalarOk] at h
  | not a =>
    simp only [scalarOk, Bool.and_eq_true] at h
    have hn := not_tv text (boolShape_notText text py calls row a h.2)
    by_cases his : ∃ x w, a = .is x w
    · obtain ⟨x, w, rfl⟩ := his
      rw [sem, ← hn]
      have ha := scalar_ok (.is x w) h.1
      rw [← ha]
      cases w with
      | null => simp only [compile, eval, IsWhat.val, isNot_null]
      | true =>
        have h1 := h.1
        simp only [scalarOk, Bool.and_eq_true] at h1
        have ht := truthShape_truth text py calls row x h1.2
        rw [← scalar_ok x h1.1] at ht
        simp only [compile, eval, IsWhat.val, isNot_bool py ht]
      | false =>
        have h1 := h.1
        simp only [scalarOk, Bool.and_eq_true] at h1
        have ht := truthShape_truth text py calls row x h1.2
        rw [← scalar_ok x h1.1] at ht
        simp only [compile, eval, IsWhat.val, isNot_bool py ht]
    · rw [compile_not a (fun x w e => his ⟨x, w, e⟩), eval, sem, scalar_ok a h.1, hn]
  | is a w =>
    cases w with
    | null =>
      simp only [scalarOk] at h
      simp only [compile, eval, IsWhat.val, sem, is_null_tv, scalar_ok a h]
    | true =>
      simp only [scalarOk, Bool.and_eq_true] at h
      simp only [compile, eval, IsWhat.val, sem, scalar_ok a h.1,
        is_true_tv text py (truthShape_truth text py calls row a h.2)]
    | false =>
      simp only [scalarOk, Bool.and_eq_true] at h
      simp only [compile, eval, IsWhat.val, sem, scalar_ok a h.1,
        is_false_tv text py (truthShape_truth text py calls row a h.2)]
  | inl a l =>
    simp only [scalarOk, Bool.and_eq_true] at h
    simp only [compile, eval, sem, scalar_ok a h.1.1, scalar_okL l h.1.2,
      in_tv text py _ _ (semL_ne text py calls row l h.2)]
  | between a lo hi => simp [scalarOk] at h
  | paren a => simp only [scalarOk] at h; simp only [compile, sem, scalar_ok a h]
  | ite c t f =>
    simp only [scalarOk, Bool.and_eq_true] at h
    simp only [compile, eval, sem, cond_ok c h.1.1, scalar_ok t h.1.2, scalar_ok f h.2]
  | ifnull a b =>
    simp only [scalarOk, Bool.and_eq_true] at h
    simp only [compile, eval, sem, firstNonNull_cons, scalar_ok a h.1, scalar_ok b h.2]
    by_cases hv : sem text py.cmp calls row a = .null
    · by_cases hw : sem text py.cmp calls row b = .null <;> simp [hv, hw, ofBool, truthy, firstNonNull]
    · simp [hv, ofBool, truthy]
  | coalesce a l =>
    simp only [scalarOk, Bool.and_eq_true] at h
    simp only [compile, eval, sem, firstNonNull_cons, scalar_ok a h.1, coalesce_ok l h.2]
    by_cases hv : sem text py.cmp calls row a = .null <;> simp [hv, ofBool, truthy]
  | caseC ws =>
    simp only [scalarOk] at h
    simp only [compile, sem, whens_okC ws h]
  | caseV a ws =>
    simp only [scalarOk, Bool.and_eq_true, Bool.not_eq_true'] at h
    simp only [compile, sem, litWhens_eq, h.1.1, Bool.false_eq_true, if_false, whens_okV ws (compile a) h.2, scalar_ok a h.1.2]
  | call f l =>
    simp only [scalarOk] at h
    simp only [compile, eval, sem, scalar_okL l h]
theorem scalar_okL (l : EL) (h : scalarOkL l = true) :
    evalL py calls row (compileL l) = semL text py.cmp calls row l := by
  cases l with
  | nil => simp [compileL, evalL, semL]
  | cons e l =>
    simp only [scalarOkL, Bool.and_eq_true] at h
    simp only [compileL, evalL, semL, scalar_ok e h.1, scalar_okL l h.2]
theorem cond_ok (e : E) (h : condOk e = true) :
    truthy (eval py calls row (compile e)) = true ↔ tv text (sem text py.cmp calls row e) = some true := by
  cases e with
  | lit v =>
    simp only [condOk] at h
    simp only [compile, eval]
    exact truthy_tv text (boolShape_notText text py calls row (.lit v) h)
  | col c => simp [condOk] at h
  | cmp op a b =>
    simp only [condOk, Bool.and_eq_true] at h
    simp only [compile, eval, sem, scalar_ok a h.1, scalar_ok b h.2]
    exact truthy_tv text (cmp_notText py _ _ _)
  | and a b =>
    simp only [condOk, Bool.and_eq_true] at h
    simp only [compile, eval, sem, tv_ofTri, and3_true, ← cond_ok a h.1, ← cond_ok b h.2]
    by_cases ha : truthy (eval py calls row (compile a)) = true <;> simp [ha, truthy_zero, truthy_one]
  | or a b =>
    simp only [condOk, Bool.and_eq_true] at h
    simp only [compile, eval, sem, tv_ofTri, or3_true, ← cond_ok a h.1, ← cond_ok b h.2]
    by_cases ha : truthy (eval py calls row (compile a)) = true <;> simp [ha, truthy_zero, truthy_one]
  | not a =>
    have h' : scalarOk (.not a) = true := by simpa only [condOk, scalarOk] using h
    simp only [condOk, Bool.and_eq_true] at h
    have hn := not_tv text (boolShape_notText text py calls row a h.2)
    by_cases his : ∃ x w, a = .is x w
    · obtain ⟨x, w, rfl⟩ := his
      rw [sem, ← hn]
      have ha := scalar_ok (.is x w) h.1
      rw [← ha]
      have hv : eval py calls row (compile (.not (.is x w))) = mysqlNot (eval py calls row (compile (.is x w))) := by
        cases w with
        | null => simp only [compile, eval, IsWhat.val, isNot_null]
        | true =>
          have h1 := h.1
          simp only [scalarOk, Bool.and_eq_true] at h1
          have ht := truthShape_truth text py calls row x h1.2
          rw [← scalar_ok x h1.1] at ht
          simp only [compile, eval, IsWhat.val, isNot_bool py ht]
        | false =>
          have h1 := h.1
          simp only [scalarOk, Bool.and_eq_true] at h1
          have ht := truthShape_truth text py calls row x h1.2
          rw [← scalar_ok x h1.1] at ht
          simp only [compile, eval, IsWhat.val, isNot_bool py ht]
      rw [hv, ha, hn]
      exact truthy_tv text (ofTri_truth _).notText
    · rw [compile_not a (fun x w e => his ⟨x, w, e⟩), eval, sem, scalar_ok a h.1, hn]
      exact truthy_tv text (ofTri_truth _).notText
  | is a w =>
    cases w with
    | null =>
      simp only [condOk] at h
      simp only [compile, eval, IsWhat.val, sem, is_null_tv, scalar_ok a h]
      exact truthy_tv text (ofTri_truth _).notText
    | true =>
      simp only [condOk, Bool.and_eq_true] at h
      simp only [compile, eval, IsWhat.val, sem, scalar_ok a h.1,
        is_true_tv text py (truthShape_truth text py calls row a h.2)]
      exact truthy_tv text (ofTri_truth _).notText
    | false =>
      simp only [condOk, Bool.and_eq_true] at h
      simp only [compile, eval, IsWhat.val, sem, scalar_ok a h.1,
        is_false_tv text py (truthShape_truth text py calls row a h.2)]
      exact truthy_tv text (ofTri_truth _).notText
  | inl a l =>
    simp only [condOk, Bool.and_eq_true] at h
    by_cases hl : semL text py.cmp calls row l = []
    · simp only [compile, eval, sem, scalar_ok a h.1, scalar_okL l h.2, hl]
      by_cases ha : sem text py.cmp calls row a = .null
      · rw [ha]; simp [Py.mysqlIn, caught, truthy, in3, tv_ofTri]
      · rw [(C29_in py _ []).2.2.2 ⟨by simp, ha, by simp⟩]; simp [truthy, in3, tv_ofTri]
    · simp only [compile, eval, sem, scalar_ok a h.1, scalar_okL l h.2, in_tv text py _ _ hl]
      exact truthy_tv text (ofTri_truth _).notText
  | between a lo hi =>
    simp only [condOk, Bool.and_eq_true] at h
    simp only [compile, eval, sem, tv_ofTri, and3_true, scalar_ok a h.1.1, scalar_ok lo h.1.2, scalar_ok hi h.2,
      ← truthy_tv text (cmp_notText py _ _ _)]
    split
    · rename_i hx; simp [hx]
    · rename_i hx; simp [hx, truthy_zero]
  | paren a => simp only [condOk] at h; simp only [compile, sem, cond_ok a h]
  | ite c t f => simp [condOk] at h
  | ifnull a b => simp [condOk] at h
  | coalesce a l => simp [condOk] at h
  | caseC ws => simp [condOk] at h
  | caseV a ws => simp [condOk] at h
  | call f l => simp [condOk] at h
theorem whens_okC (ws : WL) (h : whensOk true ws = true) :
    eval py calls row (compileWhens none ws) = semW text py.cmp calls row none ws := by
  cases ws with
  | noElse => simp [whensOk] at h
  | els e => simp only [whensOk] at h; simp only [compileWhens, semW, scalar_ok e h]
  | «when» c t ws =>
    simp only [whensOk, if_true, Bool.and_eq_true] at h
    simp only [compileWhens, semW, eval, cond_ok c h.1.1, scalar_ok t h.1.2, whens_okC ws h.2]
theorem whens_okV (ws : WL) (a : T) (h : whensOk false ws = true) :
    eval py calls row (compileWhens (some a) ws) = semW text py.cmp calls row (some (eval py calls row a)) ws := by
  cases ws with
  | noElse => simp [whensOk] at h
  | els e => simp only [whensOk] at h; simp only [compileWhens, semW, scalar_ok e h]
  | «when» c t ws =>
    simp only [whensOk, Bool.false_eq_true, if_false, Bool.and_eq_true] at h
    simp only [compileWhens, semW, eval, scalar_ok c h.1.1, scalar_ok t h.1.2, whens_okV ws a h.2,
      truthy_tv text (cmp_notText py _ _ _)]
theorem coalesce_ok (l : EL) (h : scalarOkL l = true) :
    eval py calls row (compileCoalesce l) = firstNonNull (semL text py.cmp calls row l) := by
  cases l with
  | nil => simp [compileCoalesce, eval, semL, firstNonNull]
  | cons e l =>
    simp only [scalarOkL, Bool.and_eq_true] at h
    cases l with
    | nil =>
      simp only [compileCoalesce, semL, firstNonNull_cons, scalar_ok e h.1]
      by_cases hv : sem text py.cmp calls row e = .null <;> simp [hv, firstNonNull]
    | cons e' l =>
      have ih := coalesce_ok (.cons e' l) h.2
      simp only [compileCoalesce, eval, scalar_ok e h.1, ih]
      rw [show semL text py.cmp calls row (.cons e (.cons e' l)) =
        sem text py.cmp calls row e :: semL text py.cmp calls row (.cons e' l) from by simp only [semL], firstNonNull_cons]
      by_cases hv : sem text py.cmp calls row e = .null <;> simp [hv, ofBool, truthy]
end

/-! ### The property -/

/-- **C31**, filters: for every condition built with AND, OR, parentheses, comparisons, IN, BETWEEN, IS and NOT of a
comparison, IN or IS, whose operands are columns, constants, function calls, IF, IFNULL, COALESCE and CASE … ELSE, a row
passes the compiled filter iff SQL says the condition is TRUE.
Missing: NOT over AND/OR/BETWEEN, CASE without ELSE (violated below), texts used as conditions. -/
theorem C31_filter_partial (e : E) (h : condOk e = true) :
    truthy (eval py calls row (compile e)) = true ↔ tv text (sem text py.cmp calls row e) = some true :=
  cond_ok text py calls row e h

/-- **C31**, values: such operands have exactly SQL's value. -/
theorem C31_value_partial (e : E) (h : scalarOk e = true) :
    eval py calls row (compile e) = sem text py.cmp calls row e := scalar_ok text py calls row e h

/-- Conditions modelled in HAVING. -/
def havingOk : E → Bool
  | .and a b => havingOk a && havingOk b
  | .or a b => havingOk a && havingOk b
  | .paren a => havingOk a
  | .cmp _ a b => scalarOk a && scalarOk b
  | .not a => scalarOk a && boolShape a
  | .is a .null => scalarOk a
  | .inl a l => scalarOk a && scalarOkL l && nonEmpty l
  | _ => false

/-- **C31**, HAVING: groups are kept iff SQL says the condition is TRUE. -/
theorem C31_having_partial (e : E) (h : havingOk e = true) :
    ∃ t, compileHaving e = some t ∧
      (truthy (eval py calls row t) = true ↔ tv text (sem text py.cmp calls row e) = some true) := by
  induction e using havingOk.induct with
  | case1 a b iha ihb =>
    simp only [havingOk, Bool.and_eq_true] at h
    obtain ⟨x, hx, hx'⟩ := iha h.1
    obtain ⟨y, hy, hy'⟩ := ihb h.2
    refine ⟨_, by simp only [compileHaving, hx, hy, Option.bind_some, Option.map_some]; rfl, ?_⟩
    simp only [eval, sem, tv_ofTri, and3_true, ← hx', ← hy']
    by_cases ha : truthy (eval py calls row x) = true <;> simp [ha, truthy_zero]
  | case2 a b iha ihb =>
    simp only [havingOk, Bool.and_eq_true] at h
    obtain ⟨x, hx, hx'⟩ := iha h.1
    obtain ⟨y, hy, hy'⟩ := ihb h.2
    refine ⟨_, by simp only [compileHaving, hx, hy, Option.bind_some, Option.map_some]; rfl, ?_⟩
    simp only [eval, sem, tv_ofTri, or3_true, ← hx', ← hy']
    by_cases ha : truthy (eval py calls row x) = true <;> simp [ha, truthy_one]
  | case3 a ih =>
    simp only [havingOk] at h
    simpa only [compileHaving, sem] using ih h
  | case4 op a b =>
    simp only [havingOk, Bool.and_eq_true] at h
    refine ⟨_, rfl, ?_⟩
    simp only [eval, sem, scalar_ok text py calls row a h.1, scalar_ok text py calls row b h.2]
    exact truthy_tv text (cmp_notText py _ _ _)
  | case5 a =>
    simp only [havingOk, Bool.and_eq_true] at h
    refine ⟨_, rfl, ?_⟩
    simp only [eval, sem, scalar_ok text py calls row a h.1,
      not_tv text (boolShape_notText text py calls row a h.2)]
    exact truthy_tv text (ofTri_truth _).notText
  | case6 a =>
    simp only [havingOk] at h
    refine ⟨_, rfl, ?_⟩
    simp only [eval, sem, IsWhat.val, is_null_tv, scalar_ok text py calls row a h]
    exact truthy_tv text (ofTri_truth _).notText
  | case7 a l =>
    simp only [havingOk, Bool.and_eq_true] at h
    refine ⟨_, rfl, ?_⟩
    simp only [eval, sem, scalar_ok text py calls row a h.1.1, scalar_okL text py calls row l h.1.2,
      in_tv text py _ _ (semL_ne text py calls row l h.2)]
    exact truthy_tv text (ofTri_truth _).notText
  | case8 e => simp_all [havingOk]

/-- A HAVING clause with BETWEEN ignores both bounds: the compiled form only mentions the left operand. -/
theorem C31_having_between_violated (a lo hi lo' hi' : E) :
    compileHaving (.between a lo hi) = compileHaving (.between a lo' hi') ∧ (compileHaving (.between a lo hi)).isSome :=
  ⟨rfl, rfl⟩

/-! #### CASE with constant alternatives -/

/-- `WHEN k THEN t …` with constant `k`, and the ELSE. -/
def constWhens (el : Option E) : List (Val × E) → WL
  | [] => match el with | none => .noElse | some e => .els e
  | (k, t) :: l => .when (.lit k) t (constWhens el l)

/-- The end of a dictionary. -/
def finOf : DL → T
  | .fin t => t
  | .cons _ _ d => finOf d

/-- Keys of a dictionary. -/
def keysOf : DL → List Val
  | .fin _ => []
  | .cons k _ d => k :: keysOf d

/-- Lookup with another default. -/
def lookD (v : Val) (x : Val) : DL → Val
  | .fin _ => x
  | .cons k t d => if pyEq v k then eval py calls row t else lookD v x d

theorem evalD_lookD (v : Val) : ∀ d, evalD py calls row v d = lookD py calls row v (eval py calls row (finOf d)) d
  | .fin t => by simp only [evalD, lookD, finOf]
  | .cons k t d => by simp only [evalD, lookD, finOf, evalD_lookD v d]

theorem put_props (k : Val) (t : T) (v x : Val) : ∀ d, k ∉ keysOf d →
    finOf (d.put k t) = finOf d ∧ keysOf (d.put k t) = keysOf d ++ [k] ∧
    lookD py calls row v x (d.put k t) = lookD py calls row v (if pyEq v k then eval py calls row t else x) d
  | .fin e, _ => by simp [DL.put, finOf, keysOf, lookD]
  | .cons k' t' d, h => by
    simp only [keysOf, List.mem_cons, not_or] at h
    have ih := put_props k t v x d h.2
    simp only [DL.put, h.1, if_false, finOf, keysOf, lookD]
    exact ⟨ih.1, by rw [ih.2.1]; rfl, by rw [ih.2.2]⟩

theorem evalD_compileDict (v : Val) (el : Option E) (hel : ∀ e ∈ el, scalarOk e = true) (kvs : List (Val × E))
    (hk : (kvs.map Prod.fst).Nodup) (hs : ∀ p ∈ kvs, scalarOk p.2 = true)
    (hm : ∀ p ∈ kvs, pyEq v p.1 = true ↔ tv text (py.cmp .eq v p.1) = some true) (d : DL)
    (hd : ∀ k ∈ kvs.map Prod.fst, k ∉ keysOf d)
    (hf : eval py calls row (finOf d) = semW text py.cmp calls row (some v) (constWhens el [])) :
    evalD py calls row v (compileDict d (constWhens el kvs)) =
      lookD py calls row v (semW text py.cmp calls row (some v) (constWhens el kvs)) d := by
  induction kvs generalizing d with
  | nil =>
    have : compileDict d (constWhens el []) = d := by cases el <;> simp only [constWhens, compileDict]
    rw [this, evalD_lookD, hf]
  | cons p kvs ih =>
    obtain ⟨k, t⟩ := p
    simp only [constWhens, compileDict, semW, sem]
    have hkd : k ∉ keysOf d := hd k (by simp)
    have hp := put_props py calls row k (compile t) v (semW text py.cmp calls row (some v) (constWhens el kvs)) d hkd
    rw [List.map_cons, List.nodup_cons] at hk
    rw [ih hk.2 (fun p hp => hs p (by simp [hp])) (fun p hp => hm p (by simp [hp])), hp.2.2]
    · have h1 := hm (k, t) (by simp)
      have h2 := scalar_ok text py calls row t (hs (k, t) (by simp))
      simp only [h1, h2]
      congr
    · intro k' hk'
      rw [hp.2.1]
      intro hc
      rcases List.mem_append.1 hc with hc | hc
      · exact hd k' (by simp only [List.map_cons]; exact List.mem_cons_of_mem _ hk') hc
      · rw [List.mem_singleton] at hc
        exact hk.1 (hc ▸ hk')
    · rw [hp.1]; exact hf

theorem allConst_constWhens (el : Option E) (kvs : List (Val × E)) : allConst (constWhens el kvs) = true := by
  induction kvs with
  | nil => cases el <;> rfl
  | cons p kvs ih => simp [constWhens, allConst, isConst, ih]

theorem endOf_constWhens (el : Option E) (kvs : List (Val × E)) :
    endOf (constWhens el kvs) = match el with | none => .const .null | some e => compile e := by
  induction kvs with
  | nil => cases el <;> simp only [constWhens, endOf]
  | cons p kvs ih => simp only [constWhens, endOf, ih]

/-- **C31**, `CASE a WHEN constant THEN … [ELSE …] END` gives SQL's value, for distinct constants other than NULL, each of
the kind (number, text) of the operand's value in this row, unless that is NULL. -/
theorem C31_case_constants_partial (a : E) (ha : scalarOk a = true) (el : Option E)
    (hel : ∀ e ∈ el, scalarOk e = true) (kvs : List (Val × E)) (hk : (kvs.map Prod.fst).Nodup)
    (hs : ∀ p ∈ kvs, scalarOk p.2 = true)
    (hty : ∀ p ∈ kvs, p.1 ≠ .null ∧
      (sem text py.cmp calls row a = .null ∨ SameKind (sem text py.cmp calls row a) p.1)) :
    eval py calls row (compile (.caseV a (constWhens el kvs))) =
      sem text py.cmp calls row (.caseV a (constWhens el kvs)) := by
  simp only [compile, allConst_constWhens, if_true, eval, sem, scalar_ok text py calls row a ha]
  generalize sem text py.cmp calls row a = v at hty
  rw [evalD_compileDict text py calls row v el hel kvs hk hs]
  · simp only [lookD]
  · intro p hp
    obtain ⟨h0, h1⟩ := hty p hp
    generalize p.1 = k at h0 h1
    rcases h1 with rfl | h1
    · rw [(C27_comparison_null py .eq k).1]
      cases k <;> first | exact absurd rfl h0 | simp [pyEq, pyOp, pyCmp, numeric, tv]
    · rw [cmp_kind py .eq h1, ofBool_eq, tv_ofTri]
      cases v <;> cases k <;>
        simp_all [SameKind, kindCmp, pyEq, pyOp, pyCmp, numeric, Cmp.holds, ratCmp_eq_iff, strCmp_eq_iff]
  · intro k _; simp [keysOf]
  · simp only [finOf, endOf_constWhens]
    cases el with
    | none => simp only [eval, constWhens, semW]
    | some e => simp only [constWhens, semW, scalar_ok text py calls row e (hel e rfl)]

/-- Non-vacuity: `CASE a WHEN 1 THEN 'x' WHEN 2.5 THEN 'y' ELSE 'z' END` with the number 5/2 in `a`. -/
example : eval py calls (fun _ => .flt (5 / 2)) (compile (.caseV (.col ['a']) (constWhens (some (.lit (.str ['z'])))
      [(.int 1, .lit (.str ['x'])), (.flt (5 / 2), .lit (.str ['y']))]))) =
    sem text py.cmp calls (fun _ => .flt (5 / 2)) (.caseV (.col ['a']) (constWhens (some (.lit (.str ['z'])))
      [(.int 1, .lit (.str ['x'])), (.flt (5 / 2), .lit (.str ['y']))])) :=
  C31_case_constants_partial text py calls _ _ rfl _ (by simp [scalarOk]) _ (by simp) (by simp [scalarOk])
    (by simp [sem, SameKind, numeric])

/-! #### Violations -/

/-- **C31 is violated by NOT over AND**: `NOT (a = 1 AND b = 1)` on a row with `a` NULL and `b` 1 is NULL in SQL (the row
is filtered out) but 1 in the code (the row is kept). -/
theorem C31_not_and_violated :
    let e := E.not (.and (.cmp .eq (.col ['a']) (.lit (.int 1))) (.cmp .eq (.col ['b']) (.lit (.int 1))))
    let r : Str → Val := fun c => if c = ['a'] then .null else .int 1
    eval py calls r (compile e) = .int 1 ∧ sem text py.cmp calls r e = .null := ⟨rfl, rfl⟩

/-- Likewise `a NOT BETWEEN 1 AND 2` with `a` NULL. -/
theorem C31_not_between_violated :
    let e := E.not (.between (.col ['a']) (.lit (.int 1)) (.lit (.int 2)))
    eval py calls (fun _ => .null) (compile e) = .int 1 ∧ sem text py.cmp calls (fun _ => .null) e = .null := ⟨rfl, rfl⟩

/-- `CASE WHEN a = 1 THEN 5 END` is 0 instead of NULL when nothing matches. -/
theorem C31_case_without_else_violated :
    let e := E.caseC (.when (.cmp .eq (.col ['a']) (.lit (.int 1))) (.lit (.int 5)) .noElse)
    eval py calls (fun _ => .int 2) (compile e) = .int 0 ∧ sem text py.cmp calls (fun _ => .int 2) e = .null := ⟨rfl, rfl⟩

/-- `CASE a WHEN 1 THEN 5 WHEN 1 THEN 6 END` takes the last instead of the first alternative, and `CASE NULL WHEN NULL`
matches. -/
theorem C31_case_constants_violated :
    eval py calls row (compile (.caseV (.lit (.int 1)) (constWhens none [(.int 1, .lit (.int 5)), (.int 1, .lit (.int 6))])))
      = .int 6 ∧
    eval py calls row (compile (.caseV (.lit .null) (constWhens none [(.null, .lit (.int 5))]))) = .int 5 ∧
    sem text py.cmp calls row (.caseV (.lit (.int 1)) (constWhens none [(.int 1, .lit (.int 5)), (.int 1, .lit (.int 6))]))
      = .int 5 ∧
    sem text py.cmp calls row (.caseV (.lit .null) (constWhens none [(.null, .lit (.int 5))])) = .null :=
  ⟨rfl, rfl, rfl, rfl⟩

/-- `2 IS TRUE` is 0 instead of 1. -/
theorem C31_is_true_violated :
    eval py calls row (compile (.is (.lit (.int 2)) .true)) = .int 0 ∧
    sem text py.cmp calls row (.is (.lit (.int 2)) .true) = .int 1 := ⟨rfl, rfl⟩

/-- The condition class is not trivial: `(a > 1 OR b IN (1, NULL)) AND NOT (IFNULL(c, 0) = 0)`. -/
example : condOk (.and (.paren (.or (.cmp .gt (.col ['a']) (.lit (.int 1)))
      (.inl (.col ['b']) (.cons (.lit (.int 1)) (.cons (.lit .null) .nil)))))
    (.not (.paren (.cmp .eq (.ifnull (.col ['c']) (.lit (.int 0))) (.lit (.int 0)))))) = true := rfl

end
end Verif.Props
