import Verif.Model.Aggregate
import Verif.Spec.Aggregate
import Verif.Props.Scalar
/-! Property theorems C17-C20: aggregates. -/
namespace Verif.Props
open Verif.Val Verif.Agg Verif.AggSpec

theorem num?_eq_numeric : num? = numeric := by
  funext v; cases v <;> rfl

theorem run_append {α σ R : Type} (A : Calc α σ R) (l1 l2 : List α) (s : Option σ) :
    A.run s (l1 ++ l2) = (A.run s l1).bind fun s' => A.run s' l2 := by
  induction l1 generalizing s with
  | nil => rfl
  | cons v l ih =>
    simp only [List.cons_append, Calc.run]
    cases A.step s v with
    | none => rfl
    | some s' => exact ih s'

/-! ## COUNT -/

theorem count_run (l : List Val) (s : Option Int) :
    count.run s l = some (if l = [] then s else some (s.getD 0 + (nonNull l).length)) := by
  induction l generalizing s with
  | nil => rfl
  | cons v l ih =>
    simp only [Calc.run, count]
    have ih' := fun s => ih s
    unfold count at ih'
    cases v <;> cases s <;> simp only [ih'] <;> by_cases hl : l = [] <;>
      simp [hl, nonNull] <;> omega

/-- **C17** COUNT: the number of non-NULL values. -/
theorem C17_count (l : List Val) (h : l ≠ []) : count.run none l = some (some ((nonNull l).length : Int)) := by
  rw [count_run, if_neg h]; simp

/-! ## SUM -/

theorem numAdd_toRat (a b : Num) : (numAdd a b).toRat = a.toRat + b.toRat := by
  cases a <;> cases b <;> simp [numAdd, Num.toRat, Rat.intCast_add]

/-- Every value converts to a number, or is NULL. -/
def Convertible (py : Py) (v : Val) : Prop := v = .null ∨ (py.ensureNumber v).isSome

theorem ensureNumber_of_num (py : Py) {v : Val} {x : Rat} (h : num? v = some x) :
    ∃ m, py.ensureNumber v = some m ∧ m.toRat = x := by
  rw [num?_eq_numeric] at h; exact numeric_ensureNumber py h

/-- The number a value contributes to SUM. -/
def contrib (py : Py) (v : Val) : Option Rat := (py.ensureNumber v).map Num.toRat

theorem sum_run_some (py : Py) (l : List Val) (a : Num) :
    ∃ n, (sum py).run (some a) l = some (some n) ∧ n.toRat = a.toRat + total (l.filterMap (contrib py)) := by
  induction l generalizing a with
  | nil => exact ⟨a, rfl, by simp [total]; grind⟩
  | cons v l ih =>
    simp only [Calc.run, sum]
    cases hv : py.ensureNumber v with
    | none =>
      obtain ⟨n, h1, h2⟩ := ih a
      refine ⟨n, h1, ?_⟩
      rw [h2, List.filterMap_cons_none]
      simp [contrib, hv]
    | some m =>
      obtain ⟨n, h1, h2⟩ := ih (numAdd a m)
      refine ⟨n, h1, ?_⟩
      rw [h2, List.filterMap_cons_some (b := m.toRat) (by simp [contrib, hv])]
      simp [total, numAdd_toRat]; grind

theorem sum_run (py : Py) (l : List Val) (h : ∀ v ∈ l, Convertible py v) (hl : l ≠ []) :
    ∃ n, (sum py).run none l = some (some n) ∧ n.toRat = total (l.filterMap (contrib py)) := by
  cases l with
  | nil => exact absurd rfl hl
  | cons v l =>
    simp only [Calc.run]
    cases hv : py.ensureNumber v with
    | none =>
      have hn : v = .null := by
        rcases h v (by simp) with h | h
        · exact h
        · rw [hv] at h; simp at h
      subst hn
      obtain ⟨n, h1, h2⟩ := sum_run_some py l (.int 0)
      refine ⟨n, ?_, ?_⟩
      · simpa [sum, Py.ensureNumber] using h1
      · rw [h2, List.filterMap_cons_none (by simp [contrib, hv])]; simp only [Num.toRat]; grind
    | some m =>
      obtain ⟨n, h1, h2⟩ := sum_run_some py l m
      refine ⟨n, ?_, ?_⟩
      · simpa [sum, hv] using h1
      · rw [h2, List.filterMap_cons_some (b := m.toRat) (by simp [contrib, hv])]; rfl

theorem contrib_eq_numbers (py : Py) (l : List Val) (h : ∀ v ∈ l, NumOrNull v) :
    l.filterMap (contrib py) = numbers l := by
  unfold numbers
  induction l with
  | nil => rfl
  | cons v l ih =>
    have e : contrib py v = num? v := by
      rcases h v (by simp) with h | h
      · subst h; rfl
      · obtain ⟨x, hx⟩ := Option.isSome_iff_exists.mp h
        obtain ⟨m, h1, h2⟩ := ensureNumber_of_num py hx
        rw [hx]; simp [contrib, h1, h2]
    simp only [List.filterMap_cons, e, ih (fun w hw => h w (by simp [hw]))]

/-- **C17** SUM: the sum of the numbers of the group. -/
theorem C17_sum (py : Py) (l : List Val) (h : ∀ v ∈ l, NumOrNull v) (hl : l ≠ []) :
    ∃ n, (sum py).run none l = some (some n) ∧ n.toRat = total (numbers l) := by
  rw [← contrib_eq_numbers py l h]
  apply sum_run py l _ hl
  intro v hv
  rcases h v hv with h | h
  · exact Or.inl h
  · obtain ⟨x, hx⟩ := Option.isSome_iff_exists.mp h
    obtain ⟨m, h1, _⟩ := ensureNumber_of_num py hx
    exact Or.inr (by rw [h1]; rfl)

/-- SUM of integers is an integer. -/
theorem C17_sum_integers (py : Py) (l : List Int) (hl : l ≠ []) :
    (sum py).run none (l.map .int) = some (some (.int l.sum)) := by
  have key : ∀ (l : List Int) (a : Int), (sum py).run (some (.int a)) (l.map .int) = some (some (.int (a + l.sum))) := by
    intro l
    induction l with
    | nil => intro a; simp [Calc.run]
    | cons i l ih =>
      intro a
      simp only [List.map_cons, Calc.run, List.sum_cons]
      have := ih (a + i)
      simp only [sum, Py.ensureNumber, numAdd] at this ⊢
      rw [this]; congr 3; omega
  cases l with
  | nil => exact absurd rfl hl
  | cons i l =>
    have := key l i
    simp only [sum, Py.ensureNumber, numAdd] at this
    simp only [List.map_cons, Calc.run, List.sum_cons, sum, Py.ensureNumber]
    exact this

/-- **C87 is violated** by SUM over a group with only NULLs: 0 instead of NULL. -/
theorem C87_sum_all_null_violated (py : Py) : (sum py).run none [.null, .null] = some (some (.int 0)) := rfl

/-! ## MAX and MIN -/

/-- All values of the list are NULL, or all non-NULL ones are numbers, or all are texts. -/
def OneKind (l : List Val) : Prop := ∀ a ∈ nonNull l, ∀ b ∈ nonNull l, SameKind a b

theorem pyCmp_kind {a b : Val} (h : SameKind a b) : pyCmp a b = some (kindCmp a b) := by
  cases a <;> cases b <;> simp_all [SameKind, numeric, pyCmp, kindCmp]

theorem pyMax_kind {a b : Val} (h : SameKind b a) :
    pyMax a b = some (if kindCmp b a = .gt then b else a) := by
  simp [pyMax, pyOp, pyCmp_kind h, Cmp.holds]

theorem pyMin_kind {a b : Val} (h : SameKind b a) :
    pyMin a b = some (if kindCmp b a = .lt then b else a) := by
  simp [pyMin, pyOp, pyCmp_kind h, Cmp.holds]

theorem kindCmp_swap (a b : Val) : kindCmp b a = (kindCmp a b).swap := by
  cases a <;> cases b <;> first | exact strCmp_swap _ _ | exact ratCmp_swap _ _

theorem kindCmp_refl (a : Val) : kindCmp a a = .eq := by
  cases a <;> first | exact (strCmp_eq_iff _ _).mpr rfl | exact (ratCmp_eq_iff _ _).mpr rfl

theorem sameKind_symm {a b : Val} (h : SameKind a b) : SameKind b a := by
  cases a <;> cases b <;> simp_all [SameKind]

theorem sameKind_trans {a b c : Val} (h1 : SameKind a b) (h2 : SameKind b c) : SameKind a c := by
  cases a <;> cases b <;> cases c <;> simp_all [SameKind, numeric]

theorem kindCmp_lt_trans {a b c : Val} (h1 : SameKind a b) (h2 : SameKind b c)
    (hab : kindCmp a b = .lt) (hbc : kindCmp b c = .lt) : kindCmp a c = .lt := by
  cases a <;> cases b <;> cases c <;>
    first
    | (simp [SameKind, numeric] at h1; done)
    | (simp [SameKind, numeric] at h2; done)
    | exact strCmp_lt_trans _ _ _ hab hbc
    | exact (ratCmp_lt_iff _ _).mpr (rat_lt_trans ((ratCmp_lt_iff _ _).mp hab) ((ratCmp_lt_iff _ _).mp hbc))

theorem ratCmp_ngt (a b : Rat) : ratCmp a b ≠ .gt ↔ a ≤ b := by
  unfold ratCmp; split
  · simp; grind
  · split <;> simp <;> grind

theorem strCmp_ngt_trans (a b c : Str) (h1 : strCmp a b ≠ .gt) (h2 : strCmp b c ≠ .gt) : strCmp a c ≠ .gt := by
  cases hab : strCmp a b with
  | gt => exact absurd hab h1
  | eq => rw [(strCmp_eq_iff _ _).mp hab]; exact h2
  | lt =>
    cases hbc : strCmp b c with
    | gt => exact absurd hbc h2
    | eq => rw [← (strCmp_eq_iff _ _).mp hbc, hab]; decide
    | lt => rw [strCmp_lt_trans _ _ _ hab hbc]; decide

theorem kindCmp_ngt_trans {a b c : Val} (h1 : SameKind a b) (h2 : SameKind b c)
    (hab : kindCmp a b ≠ .gt) (hbc : kindCmp b c ≠ .gt) : kindCmp a c ≠ .gt := by
  cases a <;> cases b <;> cases c <;>
    first
    | (simp [SameKind, numeric] at h1; done)
    | (simp [SameKind, numeric] at h2; done)
    | exact strCmp_ngt_trans _ _ _ hab hbc
    | exact (ratCmp_ngt _ _).mpr (Rat.le_trans ((ratCmp_ngt _ _).mp hab) ((ratCmp_ngt _ _).mp hbc))

theorem cmp_lte_kind (py : Py) {a b : Val} (h : SameKind a b) (h' : kindCmp a b ≠ .gt) :
    py.cmp .lte a b = .int 1 := by
  rw [cmp_kind py _ h]; simp [Cmp.holds, h', ofBool]

theorem sameKind_ne_null {a b : Val} (h : SameKind a b) : a ≠ .null ∧ b ≠ .null := by
  cases a <;> cases b <;> simp_all [SameKind, numeric]

/-- The state of MAX over one kind of values: the first greatest one. -/
theorem max_run_some (py : Py) (l : List Val) (a : Val) (ha : ∀ v ∈ nonNull l, SameKind v a) (haa : a ≠ .null) :
    ∃ m, (Verif.Agg.max py).run (some a) l = some (some m) ∧ (m = a ∨ m ∈ nonNull l) ∧ SameKind m m ∧
      kindCmp a m ≠ .gt ∧ ∀ v ∈ nonNull l, kindCmp v m ≠ .gt := by
  induction l generalizing a with
  | nil =>
    refine ⟨a, rfl, Or.inl rfl, ?_, ?_, by simp [nonNull]⟩
    · cases a <;> simp_all [SameKind, numeric]
    · rw [kindCmp_refl]; decide
  | cons v l ih =>
    by_cases hv : v = .null
    · subst hv
      have hn : nonNull (.null :: l) = nonNull l := by simp [nonNull]
      rw [hn] at ha ⊢
      obtain ⟨m, h1, h2⟩ := ih a ha haa
      refine ⟨m, ?_, h2⟩
      simp only [Calc.run, Verif.Agg.max, extremeStep]
      have : pyMax a .null = none := by cases a <;> simp [pyMax, pyOp, pyCmp, numeric]
      rw [this]; exact h1
    · have hn : nonNull (v :: l) = v :: nonNull l := by simp [nonNull, hv]
      rw [hn] at ha ⊢
      have hva : SameKind v a := ha v (by simp)
      have hstep : (Verif.Agg.max py).step (some a) v = some (some (if kindCmp v a = .gt then v else a)) := by
        simp only [Verif.Agg.max, extremeStep, pyMax_kind hva]
      simp only [Calc.run, hstep]
      by_cases hgt : kindCmp v a = .gt
      · rw [if_pos hgt]
        obtain ⟨m, h1, h2, h3, h4, h5⟩ := ih v
          (fun w hw => sameKind_trans (ha w (by simp [hw])) (sameKind_symm hva)) hv
        have hav : kindCmp a v = .lt := by rw [kindCmp_swap, hgt]; rfl
        have hvm : SameKind v m := by
          rcases h2 with rfl | h2
          · exact h3
          · exact sameKind_trans hva (sameKind_symm (ha m (by simp [h2])))
        refine ⟨m, h1, ?_, h3, ?_, ?_⟩
        · rcases h2 with rfl | h2
          · simp
          · simp [h2]
        · exact kindCmp_ngt_trans (sameKind_symm hva) hvm (by rw [hav]; decide) h4
        · intro w hw
          rcases List.mem_cons.mp hw with rfl | hw
          · exact h4
          · exact h5 w hw
      · rw [if_neg hgt]
        obtain ⟨m, h1, h2, h3, h4, h5⟩ := ih a (fun w hw => ha w (by simp [hw])) haa
        have ham : SameKind a m := by
          rcases h2 with rfl | h2
          · exact h3
          · exact sameKind_symm (ha m (by simp [h2]))
        refine ⟨m, h1, ?_, h3, h4, ?_⟩
        · rcases h2 with rfl | h2
          · simp
          · simp [h2]
        · intro w hw
          rcases List.mem_cons.mp hw with rfl | hw
          · exact kindCmp_ngt_trans hva ham hgt h4
          · exact h5 w hw

theorem min_run_some (py : Py) (l : List Val) (a : Val) (ha : ∀ v ∈ nonNull l, SameKind v a) (haa : a ≠ .null) :
    ∃ m, (Verif.Agg.min py).run (some a) l = some (some m) ∧ (m = a ∨ m ∈ nonNull l) ∧ SameKind m m ∧
      kindCmp m a ≠ .gt ∧ ∀ v ∈ nonNull l, kindCmp m v ≠ .gt := by
  induction l generalizing a with
  | nil =>
    refine ⟨a, rfl, Or.inl rfl, ?_, ?_, by simp [nonNull]⟩
    · cases a <;> simp_all [SameKind, numeric]
    · rw [kindCmp_refl]; decide
  | cons v l ih =>
    by_cases hv : v = .null
    · subst hv
      have hn : nonNull (.null :: l) = nonNull l := by simp [nonNull]
      rw [hn] at ha ⊢
      obtain ⟨m, h1, h2⟩ := ih a ha haa
      refine ⟨m, ?_, h2⟩
      simp only [Calc.run, Verif.Agg.min, extremeStep]
      have : pyMin a .null = none := by cases a <;> simp [pyMin, pyOp, pyCmp, numeric]
      rw [this]; exact h1
    · have hn : nonNull (v :: l) = v :: nonNull l := by simp [nonNull, hv]
      rw [hn] at ha ⊢
      have hva : SameKind v a := ha v (by simp)
      have hstep : (Verif.Agg.min py).step (some a) v = some (some (if kindCmp v a = .lt then v else a)) := by
        simp only [Verif.Agg.min, extremeStep, pyMin_kind hva]
      simp only [Calc.run, hstep]
      by_cases hgt : kindCmp v a = .lt
      · rw [if_pos hgt]
        obtain ⟨m, h1, h2, h3, h4, h5⟩ := ih v
          (fun w hw => sameKind_trans (ha w (by simp [hw])) (sameKind_symm hva)) hv
        have hvm : SameKind m v := by
          rcases h2 with rfl | h2
          · exact h3
          · exact sameKind_trans (ha m (by simp [h2])) (sameKind_symm hva)
        refine ⟨m, h1, ?_, h3, ?_, ?_⟩
        · rcases h2 with rfl | h2
          · simp
          · simp [h2]
        · exact kindCmp_ngt_trans hvm hva h4 (by rw [hgt]; decide)
        · intro w hw
          rcases List.mem_cons.mp hw with rfl | hw
          · exact h4
          · exact h5 w hw
      · rw [if_neg hgt]
        obtain ⟨m, h1, h2, h3, h4, h5⟩ := ih a (fun w hw => ha w (by simp [hw])) haa
        have ham : SameKind m a := by
          rcases h2 with rfl | h2
          · exact h3
          · exact ha m (by simp [h2])
        have hav : kindCmp a v ≠ .gt := by
          rw [kindCmp_swap]; cases h : kindCmp v a <;> simp_all
        refine ⟨m, h1, ?_, h3, h4, ?_⟩
        · rcases h2 with rfl | h2
          · simp
          · simp [h2]
        · intro w hw
          rcases List.mem_cons.mp hw with rfl | hw
          · exact kindCmp_ngt_trans ham (sameKind_symm hva) h4 hav
          · exact h5 w hw

/-- Leading NULLs do not change the state of MAX and MIN. -/
theorem extreme_skip (A : Calc Val Val Val) (hA : A.step none .null = some none) (l : List Val) :
    (nonNull l = [] ∧ A.run none l = some none) ∨
    ∃ v l', nonNull l = v :: nonNull l' ∧ v ≠ .null ∧ A.run none l = A.run none (v :: l') := by
  induction l with
  | nil => left; exact ⟨rfl, rfl⟩
  | cons v l ih =>
    by_cases hv : v = .null
    · subst hv
      have hn : nonNull (.null :: l) = nonNull l := by simp [nonNull]
      have hr : A.run none (.null :: l) = A.run none l := by simp [Calc.run, hA]
      rw [hn, hr]; exact ih
    · right
      exact ⟨v, l, by simp [nonNull, hv], hv, rfl⟩

/-- **C17** MAX: NULL for a group without values; otherwise a value of the group that no other exceeds. -/
theorem C17_max (py : Py) (l : List Val) (h : OneKind l) :
    ((nonNull l = [] ∧ (Verif.Agg.max py).run none l = some none) ∨
     ∃ m ∈ nonNull l, (Verif.Agg.max py).run none l = some (some m) ∧
       ∀ v ∈ nonNull l, py.cmp .lte v m = .int 1) := by
  rcases extreme_skip (Verif.Agg.max py) rfl l with h0 | ⟨v, l', hn, hv, hr⟩
  · exact Or.inl h0
  · right
    unfold OneKind at h
    rw [hn] at h ⊢
    rw [hr]
    have hs : (Verif.Agg.max py).step none v = some (some v) := by simp [Verif.Agg.max, extremeStep, hv]
    simp only [Calc.run, hs]
    obtain ⟨m, h1, h2, _, h4, h5⟩ := max_run_some py l' v (fun w hw => h w (by simp [hw]) v (by simp)) hv
    have hm : m ∈ v :: nonNull l' := by
      rcases h2 with rfl | h2
      · simp
      · simp [h2]
    refine ⟨m, hm, h1, ?_⟩
    intro w hw
    apply cmp_lte_kind py (h w hw m hm)
    rcases List.mem_cons.mp hw with rfl | hw
    · exact h4
    · exact h5 w hw

/-- **C17** MIN: NULL for a group without values; otherwise a value of the group that exceeds no other. -/
theorem C17_min (py : Py) (l : List Val) (h : OneKind l) :
    ((nonNull l = [] ∧ (Verif.Agg.min py).run none l = some none) ∨
     ∃ m ∈ nonNull l, (Verif.Agg.min py).run none l = some (some m) ∧
       ∀ v ∈ nonNull l, py.cmp .lte m v = .int 1) := by
  rcases extreme_skip (Verif.Agg.min py) rfl l with h0 | ⟨v, l', hn, hv, hr⟩
  · exact Or.inl h0
  · right
    unfold OneKind at h
    rw [hn] at h ⊢
    rw [hr]
    have hs : (Verif.Agg.min py).step none v = some (some v) := by simp [Verif.Agg.min, extremeStep, hv]
    simp only [Calc.run, hs]
    obtain ⟨m, h1, h2, _, h4, h5⟩ := min_run_some py l' v (fun w hw => h w (by simp [hw]) v (by simp)) hv
    have hm : m ∈ v :: nonNull l' := by
      rcases h2 with rfl | h2
      · simp
      · simp [h2]
    refine ⟨m, hm, h1, ?_⟩
    intro w hw
    apply cmp_lte_kind py (h m hm w hw)
    rcases List.mem_cons.mp hw with rfl | hw
    · exact h4
    · exact h5 w hw

/-! ## GROUP_CONCAT, GROUP_ARRAY -/

theorem groupConcat_run (py : Py) (l : List Val) (s : Option (List Str)) :
    (groupConcat py).run s l =
      some (if nonNull l = [] then s else some (s.getD [] ++ (nonNull l).map (Py.pyStr py))) := by
  induction l generalizing s with
  | nil => rfl
  | cons v l ih =>
    by_cases hv : v = .null
    · subst hv
      have : nonNull (.null :: l) = nonNull l := by simp [nonNull]
      rw [this, ← ih s]; rfl
    · have hn : nonNull (v :: l) = v :: nonNull l := by simp [nonNull, hv]
      have hs : (groupConcat py).step s v = some (some (s.getD [] ++ [Py.pyStr py v])) := by
        cases v <;> simp_all [groupConcat]
      simp only [Calc.run, hs, ih, hn]
      by_cases h : nonNull l = [] <;> simp [h]

theorem groupArray_run (l : List Val) (s : Option (List Val)) :
    groupArray.run s l = some (if nonNull l = [] then s else some (s.getD [] ++ nonNull l)) := by
  induction l generalizing s with
  | nil => rfl
  | cons v l ih =>
    by_cases hv : v = .null
    · subst hv
      have : nonNull (.null :: l) = nonNull l := by simp [nonNull]
      rw [this, ← ih s]; rfl
    · have hn : nonNull (v :: l) = v :: nonNull l := by simp [nonNull, hv]
      have hs : groupArray.step s v = some (some (s.getD [] ++ [v])) := by
        cases v <;> simp_all [groupArray]
      simp only [Calc.run, hs, ih, hn]
      by_cases h : nonNull l = [] <;> simp [h]

theorem joinComma_eq (l : List Str) : joinComma l = List.intercalate [','] l := by
  induction l with
  | nil => rfl
  | cons a l ih =>
    cases l with
    | nil => simp [joinComma, List.intercalate]
    | cons b l => rw [joinComma, ih] <;> simp [List.intercalate]

/-- **C17** GROUP_CONCAT: the texts of the non-NULL values, in row order, joined by commas. -/
theorem C17_group_concat (py : Py) (l : List Val) :
    ((groupConcat py).run none l).map (groupConcat py).final =
      some (List.intercalate [','] ((nonNull l).map (Py.pyStr py))) := by
  rw [← joinComma_eq, groupConcat_run]
  by_cases h : nonNull l = [] <;> simp [h, groupConcat]

/-- **C17** GROUP_ARRAY: the non-NULL values in row order. -/
theorem C17_group_array (l : List Val) :
    (groupArray.run none l).map groupArray.final = some (nonNull l) := by
  rw [groupArray_run]
  by_cases h : nonNull l = [] <;> simp [h, groupArray]

/-- **C87 is violated** by GROUP_CONCAT over a group with only NULLs: the empty text instead of NULL (its result is a
text by type). -/
theorem C87_group_concat_all_null_violated (py : Py) :
    ((groupConcat py).run none [.null]).map (groupConcat py).final = some [] := rfl

/-! ## COUNT(DISTINCT), GROUP_UNIQ_ARRAY -/

theorem same_iff {a b : Val} (ha : a ≠ .null) (hb : b ≠ .null) : same a b ↔ keyOf a = keyOf b := by
  cases a <;> cases b <;> simp_all [same, num?, keyOf, numeric]

theorem setAdd_keys (s : List Val) (v : Val) :
    (setAdd s v).map keyOf = if keyOf v ∈ s.map keyOf then s.map keyOf else s.map keyOf ++ [keyOf v] := by
  unfold setAdd
  have : (s.any (fun w => decide (keyOf w = keyOf v)) = true) ↔ keyOf v ∈ s.map keyOf := by
    simp only [List.any_eq_true, decide_eq_true_eq, List.mem_map]
  by_cases h : keyOf v ∈ s.map keyOf
  · rw [if_pos (this.mpr h), if_pos h]
  · rw [if_neg (fun e => h (this.mp e)), if_neg h]; simp

theorem foldl_setAdd_inv (l : List Val) (s : List Val) (hs : (s.map keyOf).Nodup) :
    ((l.foldl setAdd s).map keyOf).Nodup ∧
    (∀ k, k ∈ (l.foldl setAdd s).map keyOf ↔ k ∈ s.map keyOf ∨ k ∈ l.map keyOf) ∧
    (∀ v, v ∈ l.foldl setAdd s → v ∈ s ∨ v ∈ l) := by
  induction l generalizing s with
  | nil => simp [hs]
  | cons v l ih =>
    have h1 : ((setAdd s v).map keyOf).Nodup := by
      rw [setAdd_keys]; split
      · exact hs
      · rename_i hn
        rw [List.nodup_append]
        refine ⟨hs, by simp, ?_⟩
        intro a ha b hb e
        simp at hb; subst hb; subst e; exact hn ha
    have h2 : ∀ k, k ∈ (setAdd s v).map keyOf ↔ k ∈ s.map keyOf ∨ k = keyOf v := by
      intro k; rw [setAdd_keys]; split
      · rename_i hm
        constructor
        · exact Or.inl
        · rintro (h | rfl)
          · exact h
          · exact hm
      · simp
    have h3 : ∀ w, w ∈ setAdd s v → w ∈ s ∨ w = v := by
      intro w; unfold setAdd; split
      · exact Or.inl
      · simp
    obtain ⟨i1, i2, i3⟩ := ih _ h1
    simp only [List.foldl_cons]
    refine ⟨i1, ?_, ?_⟩
    · intro k
      rw [i2, h2, List.map_cons, List.mem_cons, or_assoc]
    · intro w hw
      rcases i3 w hw with h | h
      · rcases h3 w h with h | h
        · exact Or.inl h
        · right; simp [h]
      · right; simp [h]

theorem distinct_run (l : List Val) (s : Option (List Val)) :
    distinctCount.run s l =
      some (if nonNull l = [] then s else some ((nonNull l).foldl setAdd (s.getD []))) := by
  induction l generalizing s with
  | nil => rfl
  | cons v l ih =>
    by_cases hv : v = .null
    · subst hv
      have : nonNull (.null :: l) = nonNull l := by simp [nonNull]
      rw [this, ← ih s]; rfl
    · have hn : nonNull (v :: l) = v :: nonNull l := by simp [nonNull, hv]
      have hs : distinctCount.step s v = some (some (setAdd (s.getD []) v)) := by
        cases s <;> cases v <;> simp_all [distinctCount, setAdd]
      simp only [Calc.run, hs, ih, hn]
      by_cases h : nonNull l = [] <;> simp [h]

/-- A list of representatives of the distinct non-NULL values of a group. -/
def Distinct (l L : List Val) : Prop :=
  (∀ w ∈ L, w ∈ nonNull l) ∧ L.Pairwise (fun a b => ¬ same a b) ∧ ∀ v ∈ nonNull l, ∃ w ∈ L, same v w

theorem distinct_state (l : List Val) : Distinct l ((nonNull l).foldl setAdd []) := by
  obtain ⟨h1, h2, h3⟩ := foldl_setAdd_inv (nonNull l) [] (by simp)
  have hne : ∀ v ∈ nonNull l, v ≠ .null := by intro v hv; simp [nonNull] at hv; exact hv.2
  have hmem : ∀ w ∈ (nonNull l).foldl setAdd [], w ∈ nonNull l := by
    intro w hw; rcases h3 w hw with h | h
    · simp at h
    · exact h
  refine ⟨hmem, ?_, ?_⟩
  · rw [List.Nodup, List.pairwise_map] at h1
    apply h1.imp_of_mem
    intro a b ha hb h e
    exact h ((same_iff (hne a (hmem a ha)) (hne b (hmem b hb))).mp e)
  · intro v hv
    have : keyOf v ∈ ((nonNull l).foldl setAdd []).map keyOf := (h2 _).mpr (Or.inr (List.mem_map.mpr ⟨v, hv, rfl⟩))
    obtain ⟨w, hw, e⟩ := List.mem_map.mp this
    exact ⟨w, hw, (same_iff (hne v hv) (hne w (hmem w hw))).mpr e.symm⟩

theorem distinct_length (l L L' : List Val) (h : Distinct l L) (h' : Distinct l L') : L.length = L'.length := by
  have hne : ∀ v ∈ nonNull l, v ≠ .null := by intro v hv; simp [nonNull] at hv; exact hv.2
  have key : ∀ {M : List Val}, Distinct l M → (M.map keyOf).Nodup ∧ ∀ k, k ∈ M.map keyOf ↔ k ∈ (nonNull l).map keyOf := by
    intro M hM
    obtain ⟨a1, a2, a3⟩ := hM
    constructor
    · rw [List.Nodup, List.pairwise_map]
      apply a2.imp_of_mem
      intro a b ha hb hs e
      exact hs ((same_iff (hne a (a1 a ha)) (hne b (a1 b hb))).mpr e)
    · intro k
      simp only [List.mem_map]
      constructor
      · rintro ⟨w, hw, e⟩; exact ⟨w, a1 w hw, e⟩
      · rintro ⟨v, hv, e⟩
        obtain ⟨w, hw, hs⟩ := a3 v hv
        exact ⟨w, hw, by rw [← e]; exact ((same_iff (hne v hv) (hne w (a1 w hw))).mp hs).symm⟩
  have hp : (L.map keyOf).Perm (L'.map keyOf) := by
    rw [List.perm_ext_iff_of_nodup (key h).1 (key h').1]
    intro k; rw [(key h).2, (key h').2]
  simpa using hp.length_eq

/-- **C17** COUNT(DISTINCT x): the number of distinct non-NULL values, however they are listed. -/
theorem C17_count_distinct (l L : List Val) (hL : Distinct l L) :
    (distinctCount.run none l).map distinctCount.final = some (.int L.length) := by
  rw [distinct_run, distinct_length l L _ hL (distinct_state l)]
  by_cases h : nonNull l = [] <;> simp [h, distinctCount]

/-- **C17** GROUP_UNIQ_ARRAY: the distinct non-NULL values. -/
theorem C17_group_uniq_array (l : List Val) :
    ∃ L, (groupUniqArray.run none l).map groupUniqArray.final = some L ∧ Distinct l L := by
  have hrun : ∀ s, groupUniqArray.run s l = distinctCount.run s l := by
    induction l with
    | nil => intro s; rfl
    | cons v l ih =>
      intro s; simp only [Calc.run]
      have : groupUniqArray.step = distinctCount.step := rfl
      rw [this]; cases distinctCount.step s v with
      | none => rfl
      | some s' => exact ih s'
  refine ⟨_, ?_, distinct_state l⟩
  rw [hrun, distinct_run]
  by_cases h : nonNull l = [] <;> simp [h, groupUniqArray]

/-! ## BIT_AND, BIT_OR, BIT_XOR -/

/-- A group of integers and NULLs. -/
def ofInts (l : List (Option Int)) : List Val := l.map fun | none => .null | some i => .int i

theorem bit_run_some (py : Py) (op : Int → Int → Int) (l : List (Option Int)) (a : Int) :
    (bitAgg py op).run (some (.int a)) (ofInts l) = some (some (.int ((l.filterMap id).foldl op a))) := by
  induction l generalizing a with
  | nil => rfl
  | cons x l ih =>
    cases x with
    | none => simpa [ofInts, Calc.run, bitAgg] using ih a
    | some i =>
      have := ih (op a i)
      simpa [ofInts, Calc.run, bitAgg, asInt, Py.bitArg, Py.ensureInt] using this

theorem bit_run (py : Py) (op : Int → Int → Int) (l : List (Option Int)) :
    (bitAgg py op).run none (ofInts l) = some (match l.filterMap id with
      | [] => none
      | i :: r => some (.int (r.foldl op i))) := by
  induction l with
  | nil => rfl
  | cons x l ih =>
    cases x with
    | none => simpa [ofInts, Calc.run, bitAgg] using ih
    | some i =>
      have := bit_run_some py op l i
      simpa [ofInts, Calc.run, bitAgg] using this

/-- **C17** BIT_AND: bit `k` of the result is set iff it is set in every non-NULL value. -/
theorem C17_bit_and (py : Py) (l : List (Option Int)) (h : l.filterMap id ≠ []) :
    ∃ r, (bitAgg py Int.land).run none (ofInts l) = some (some (.int r)) ∧
      ∀ k, r.testBit k = (l.filterMap id).all (·.testBit k) := by
  rw [bit_run]
  generalize l.filterMap id = m at h
  cases m with
  | nil => exact absurd rfl h
  | cons i m =>
    refine ⟨_, rfl, fun k => ?_⟩
    induction m generalizing i with
    | nil => simp
    | cons j m ih =>
      simp only [List.foldl_cons]
      rw [ih _ (by simp)]
      simp [Int.testBit_land, Bool.and_assoc]

/-- **C17** BIT_OR: bit `k` of the result is set iff it is set in some non-NULL value. -/
theorem C17_bit_or (py : Py) (l : List (Option Int)) (h : l.filterMap id ≠ []) :
    ∃ r, (bitAgg py Int.lor).run none (ofInts l) = some (some (.int r)) ∧
      ∀ k, r.testBit k = (l.filterMap id).any (·.testBit k) := by
  rw [bit_run]
  generalize l.filterMap id = m at h
  cases m with
  | nil => exact absurd rfl h
  | cons i m =>
    refine ⟨_, rfl, fun k => ?_⟩
    induction m generalizing i with
    | nil => simp
    | cons j m ih =>
      simp only [List.foldl_cons]
      rw [ih _ (by simp)]
      simp [Int.testBit_lor, Bool.or_assoc]

/-- **C17** BIT_XOR: bit `k` of the result is set iff it is set in an odd number of non-NULL values. -/
theorem C17_bit_xor (py : Py) (l : List (Option Int)) (h : l.filterMap id ≠ []) :
    ∃ r, (bitAgg py Int.xor).run none (ofInts l) = some (some (.int r)) ∧
      ∀ k, r.testBit k = decide (((l.filterMap id).filter (·.testBit k)).length % 2 = 1) := by
  rw [bit_run]
  generalize l.filterMap id = m at h
  cases m with
  | nil => exact absurd rfl h
  | cons i m =>
    refine ⟨_, rfl, fun k => ?_⟩
    induction m generalizing i with
    | nil => cases hb : i.testBit k <;> simp [hb]
    | cons j m ih =>
      simp only [List.foldl_cons]
      rw [ih _ (by simp)]
      cases hi : i.testBit k <;> cases hj : j.testBit k <;> simp [Int.testBit_lxor, hi, hj] <;> omega

/-- **C87** all three bit aggregates are NULL for a group without values (SQL gives the neutral element instead). -/
theorem C87_bit_all_null (py : Py) (op : Int → Int → Int) (l : List (Option Int)) (h : l.filterMap id = []) :
    (bitAgg py op).run none (ofInts l) = some none := by rw [bit_run, h]

/-- TRUE is 1, FALSE is 0. -/
def bitOfBool : Bool → Int
  | true => 1
  | false => 0

/-- **C17** the bit aggregates of truth values are those of 1 and 0. -/
theorem C17_bit_booleans (py : Py) (op : Int → Int → Int) (a b : Bool) (l : List Bool) :
    (bitAgg py op).run none ((a :: b :: l).map .bool) = some (some (.int ((b :: l).map bitOfBool |>.foldl op (bitOfBool a)))) := by
  have h1 : ∀ (c : Bool), (if c then (1 : Int) else 0) = bitOfBool c := by intro c; cases c <;> rfl
  have h2 : ∀ (l : List Bool) (i : Int), (bitAgg py op).run (some (.int i)) (l.map .bool) = some (some (.int (l.map bitOfBool |>.foldl op i))) := by
    intro l
    induction l with
    | nil => intro i; rfl
    | cons c l ih =>
      intro i
      have := ih (op i (bitOfBool c))
      simpa [Calc.run, bitAgg, asInt, Py.bitArg, Py.ensureInt, h1] using this
  have := h2 l (op (bitOfBool a) (bitOfBool b))
  simpa [Calc.run, bitAgg, asInt, Py.bitArg, Py.ensureInt, h1] using this

/-- A first value that is not an integer makes the next row raise. -/
theorem C17_bit_text_first_raises (py : Py) :
    (bitAgg py Int.lor).run none [.str "5".toList, .int 3] = none := rfl

/-! ## C18 -/

/-- The average as the code computes it: the sum of the numbers over the number of rows from the first value on. -/
theorem avg_run_some (py : Py) (l : List Val) (c : Nat) (t : Num) :
    ∃ n, (avg py).run (some (c, t)) l = some (some (c + l.length, n)) ∧
      n.toRat = t.toRat + total (l.filterMap (contrib py)) := by
  induction l generalizing c t with
  | nil => exact ⟨t, rfl, by simp [total]; grind⟩
  | cons v l ih =>
    simp only [Calc.run, avg]
    cases hv : py.ensureNumber v with
    | none =>
      obtain ⟨n, h1, h2⟩ := ih (c + 1) t
      refine ⟨n, ?_, ?_⟩
      · rw [← show c + 1 + l.length = c + (v :: l).length by simp; omega]; exact h1
      · rw [h2, List.filterMap_cons_none]
        simp [contrib, hv]
    | some m =>
      obtain ⟨n, h1, h2⟩ := ih (c + 1) (numAdd t m)
      refine ⟨n, ?_, ?_⟩
      · rw [← show c + 1 + l.length = c + (v :: l).length by simp; omega]; exact h1
      · rw [h2, List.filterMap_cons_some (b := m.toRat) (by simp [contrib, hv])]
        simp [total, numAdd_toRat]; grind

/-- **C18** (full statement: for any group of numbers and NULLs; false, next theorem).  Proved when the NULLs all come
before the first number: AVG is the sum of the numbers divided by how many there are. -/
theorem C18_avg_partial (py : Py) (nulls l : List Val) (hn : ∀ v ∈ nulls, v = .null)
    (h : ∀ v ∈ l, (num? v).isSome) (hl : l ≠ []) :
    ((avg py).run none (nulls ++ l)).map (avg py).final = some (total (numbers l) / (numbers l).length) := by
  have hskip : (avg py).run none nulls = some none := by
    clear h hl
    induction nulls with
    | nil => rfl
    | cons v m ih =>
      obtain rfl := hn v (by simp)
      simpa [Calc.run, avg, Py.ensureNumber] using ih (fun w hw => hn w (by simp [hw]))
  rw [run_append, hskip]
  simp only [Option.bind_some]
  have hlen : (numbers l).length = l.length := by
    unfold numbers
    clear hl
    induction l with
    | nil => rfl
    | cons v l ih =>
      obtain ⟨x, hx⟩ := Option.isSome_iff_exists.mp (h v (by simp))
      rw [List.filterMap_cons_some hx]
      simp [ih (fun w hw => h w (by simp [hw]))]
  rw [hlen, ← contrib_eq_numbers py l (fun v hv => Or.inr (h v hv))]
  cases l with
  | nil => exact absurd rfl hl
  | cons v l =>
    obtain ⟨x, hx⟩ := Option.isSome_iff_exists.mp (h v (by simp))
    obtain ⟨m, h1, h2⟩ := ensureNumber_of_num py hx
    obtain ⟨n, h3, h4⟩ := avg_run_some py l 1 m
    have hs : (avg py).run none (v :: l) = some (some (1 + l.length, n)) := by
      simp only [Calc.run]
      rw [show (avg py).step none v = some (some (1, m)) by simp [avg, h1]]
      exact h3
    rw [hs, List.filterMap_cons_some (b := m.toRat) (by simp [contrib, h1])]
    simp only [Option.map_some, avg, h4, total, List.length_cons]
    rw [Nat.add_comm]

/-- **C18 is violated**: a NULL after the first number counts in the divisor; AVG of (1, NULL) is 1/2. -/
theorem C18_avg_violated (py : Py) :
    ((avg py).run none [.int 1, .null]).map (avg py).final = some (1 / 2) := by
  simp [Calc.run, avg, Py.ensureNumber, Num.toRat]

/-- AVG of a group with only NULLs is 0 (SQL: NULL). -/
theorem C18_avg_all_null_violated (py : Py) : ((avg py).run none [.null]).map (avg py).final = some 0 := rfl

end Verif.Props
