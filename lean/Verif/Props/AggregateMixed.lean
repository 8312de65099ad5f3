import Verif.Props.Aggregate
import Verif.Props.JsonAgg
/-! C17 for groups that mix texts and numbers, and C64 for rows that are NULL or have too few arguments. -/
namespace Verif.Props
open Verif.Val Verif.Agg Verif.AggSpec Verif.JsonAggSpec

/-- NULL, or the text of the value. -/
def textOrNull (py : Py) : Val → Val
  | .null => .null
  | v => .str (Py.pyStr py v)

/-- MAX or MIN. -/
def Extreme (py : Py) (A : Calc Val Val Val) : Prop := A = Agg.max py ∨ A = Agg.min py

theorem extreme_step_text {py : Py} {A : Calc Val Val Val} (hA : Extreme py A) (s : Str) (v : Val) :
    A.step (some (.str s)) v = A.step (some (.str s)) (textOrNull py v) ∧
    ∃ t, A.step (some (.str s)) v = some (some (.str t)) := by
  rcases hA with rfl | rfl <;>
  · cases v <;>
      simp [Agg.max, Agg.min, extremeStep, textOrNull, convTo, pyMax, pyMin, pyOp, pyCmp, numeric,
        show ∀ t, Py.pyStr py (.str t) = t from fun _ => rfl] <;>
      split <;> simp

/-- **C17** When the first value of the group is a text, MAX and MIN compare all values as texts. -/
theorem C17_extreme_text_first (py : Py) (A : Calc Val Val Val) (hA : Extreme py A) (l : List Val) (s : Str) (r : List Val)
    (h : nonNull l = .str s :: r) : A.run none l = A.run none (l.map (textOrNull py)) := by
  have go : ∀ (l : List Val) (s : Str), A.run (some (.str s)) l = A.run (some (.str s)) (l.map (textOrNull py)) := by
    intro l
    induction l with
    | nil => intro s; rfl
    | cons v l ih =>
      intro s
      obtain ⟨h1, t, h2⟩ := extreme_step_text hA s v
      rw [List.map_cons, Calc.run, Calc.run, ← h1, h2]
      exact ih t
  have hnull : A.step none .null = some none := by rcases hA with rfl | rfl <;> rfl
  have hstr : A.step none (.str s) = some (some (.str s)) := by rcases hA with rfl | rfl <;> rfl
  induction l with
  | nil => simp [nonNull] at h
  | cons v l ih =>
    by_cases hv : v = .null
    · subst hv
      rw [List.map_cons, textOrNull, Calc.run, Calc.run, hnull]
      exact ih (by simpa [nonNull] using h)
    · rw [nonNull, List.filter_cons_of_pos (by simpa using hv), List.cons.injEq] at h
      obtain ⟨rfl, _⟩ := h
      rw [List.map_cons, show textOrNull py (.str s) = .str s from rfl, Calc.run, Calc.run, hstr]
      exact go l s

/-- Neither `int` nor `float` reads the text. -/
def Unreadable (py : Py) : Val → Prop
  | .str s => py.int s = none ∧ py.float s = none
  | _ => False

/-- **C17** When the first value of the group is an integer or a decimal number, texts that are no numbers do not count in MAX and MIN. -/
theorem C17_extreme_number_first (py : Py) (A : Calc Val Val Val) (hA : Extreme py A) (v : Val) (l : List Val) (p : Val → Bool)
    (hv : (∃ i, v = .int i) ∨ ∃ q, v = .flt q) (hl : ∀ w ∈ l, p w = false ∧ Unreadable py w ∨
      p w = true ∧ (w = .null ∨ (∃ i, w = .int i) ∨ ∃ q, w = .flt q)) :
    A.run none (v :: l) = A.run none (v :: l.filter p) := by
  have h0 : A.step none v = some (some v) := by rcases hA with rfl | rfl <;> rcases hv with ⟨_, rfl⟩ | ⟨_, rfl⟩ <;> rfl
  rw [Calc.run, Calc.run, h0]
  show A.run (some v) l = A.run (some v) (l.filter p)
  clear h0
  induction l generalizing v with
  | nil => rfl
  | cons w l ih =>
    have hl' := fun x hx => hl x (List.mem_cons_of_mem _ hx)
    rcases hl w (by simp) with ⟨hp, hw⟩ | ⟨hp, hw⟩
    · rw [List.filter_cons_of_neg (by simp [hp]), Calc.run]
      have : A.step (some v) w = some (some v) := by
        cases w with
        | str s =>
          obtain ⟨h1, h2⟩ := hw
          rcases hA with rfl | rfl <;> rcases hv with ⟨_, rfl⟩ | ⟨_, rfl⟩ <;>
            simp [Agg.max, Agg.min, extremeStep, convTo, pyMax, pyMin, pyOp, pyCmp, numeric, h1, h2]
        | _ => exact hw.elim
      rw [this]
      exact ih v hv hl'
    · rw [List.filter_cons_of_pos hp, Calc.run, Calc.run]
      have : ∃ u, A.step (some v) w = some (some u) ∧ ((∃ i, u = .int i) ∨ ∃ q, u = .flt q) := by
        rcases hw with rfl | ⟨_, rfl⟩ | ⟨_, rfl⟩
        · rcases hA with rfl | rfl <;> rcases hv with ⟨_, rfl⟩ | ⟨_, rfl⟩ <;>
            simp [Agg.max, Agg.min, extremeStep, pyMax, pyMin, pyOp, pyCmp, numeric]
        all_goals
          rcases hA with rfl | rfl <;> rcases hv with ⟨_, rfl⟩ | ⟨_, rfl⟩ <;>
            simp [Agg.max, Agg.min, extremeStep, pyMax, pyMin, pyOp, pyCmp, numeric] <;> split <;> simp
      obtain ⟨u, h1, h2⟩ := this
      rw [h1]
      exact ih u h2 hl'

/-- **C17** When the running value of MAX is a truth value, a text counts as TRUE unless it is empty. -/
theorem C17_max_boolean_text (py : Py) (b : Bool) (s : Str) :
    (Agg.max py).run none [.bool b, .str s] = some (some (.bool (b || !s.isEmpty))) := by
  cases b <;> cases s <;>
    simp [Calc.run, Agg.max, extremeStep, convTo, truthy, pyMax, pyOp, pyCmp, numeric, Cmp.holds, compare, compareOfLessAndEq] <;> decide

/-- `MAX` of `'5'` and 10 is `'5'`, as texts; of 10 and `'x'` it is 10. -/
example : (Agg.max plainPy).run none [.null, .str "5".toList, .int 10] = some (some (.str "5".toList)) ∧
    (Agg.max plainPy).run none [.int 10, .str "x".toList, .flt 20] = some (some (.flt 20)) := by decide +kernel

/-- The pair a row of arguments stands for: NULL when the value is missing. -/
def argPair : List Val → Option (Val × Val)
  | [] => none
  | [k] => some (k, .null)
  | k :: v :: _ => some (k, v)

/-- **C64** JSON_OBJECTAGG over any rows: NULL rows do not count, a missing value is NULL, further arguments are ignored; with no
rows at all, or NULL rows only, the result is NULL; otherwise it is the object of the pairs. -/
theorem C64_json_objectagg_rows (py : Py) (l : List (Option (List Val))) :
    ∃ s, (jsonObjectagg py).run none l = some s ∧
      match (jsonObjectagg py).final s with
      | none => ∀ r ∈ l, r = none
      | some o => (∃ r ∈ l, r ≠ none) ∧
        IsObject ((l.filterMap fun r => r.bind argPair).map fun p => (Py.pyStr py p.1, p.2)) o := by
  have h0 : IsObject ([] : List (Str × Val)) [] := ⟨by simp, by simp, by simp⟩
  have key : ∀ (l : List (Option (List Val))) (ps : List (Str × Val)) (s : Option (List (Str × Val))),
      IsObject ps (s.getD []) → ∃ s', (jsonObjectagg py).run s l = some s' ∧
        (s' = none ↔ s = none ∧ ∀ r ∈ l, r = none) ∧
        IsObject (ps ++ (l.filterMap fun r => r.bind argPair).map fun p => (Py.pyStr py p.1, p.2)) (s'.getD []) := by
    intro l
    induction l with
    | nil => intro ps s hs; exact ⟨s, rfl, by simp, by simpa using hs⟩
    | cons r l ih =>
      intro ps s hs
      cases r with
      | none =>
        obtain ⟨s', h1, h2, h3⟩ := ih ps s hs
        exact ⟨s', h1, by rw [h2]; simp, by simpa using h3⟩
      | some a =>
        match a with
        | [] =>
          obtain ⟨s', h1, h2, h3⟩ := ih ps (some (s.getD [])) hs
          exact ⟨s', h1, by rw [h2]; simp, by rw [List.filterMap_cons_none rfl]; exact h3⟩
        | [k] =>
          obtain ⟨s', h1, h2, h3⟩ := ih (ps ++ [(Py.pyStr py k, .null)]) (some (dictSet (s.getD []) (Py.pyStr py k) .null))
            (isObject_snoc hs _ _)
          exact ⟨s', h1, by rw [h2]; simp, by simpa [argPair] using h3⟩
        | k :: v :: rest =>
          obtain ⟨s', h1, h2, h3⟩ := ih (ps ++ [(Py.pyStr py k, v)]) (some (dictSet (s.getD []) (Py.pyStr py k) v))
            (isObject_snoc hs _ _)
          exact ⟨s', h1, by rw [h2]; simp, by simpa [argPair] using h3⟩
  obtain ⟨s, h1, h2, h3⟩ := key l [] none h0
  refine ⟨s, h1, ?_⟩
  have hf : (jsonObjectagg py).final s = s := rfl
  rw [hf]
  cases s with
  | none => exact (h2.mp rfl).2
  | some o =>
    refine ⟨?_, by simpa using h3⟩
    apply Classical.byContradiction
    intro hn
    have : some o = none := h2.mpr ⟨rfl, fun r hr => Classical.byContradiction fun hne => hn ⟨r, hr, hne⟩⟩
    cases this

/-- **C64** Merging a batch without rows changes nothing. -/
theorem C64_merge_empty (py : Py) (s : Option (List (Str × Val))) :
    (jsonObjectagg py).reduce s none = some s ∧ (jsonObjectagg py).reduce none s = some s := by
  cases s <;> exact ⟨rfl, rfl⟩

end Verif.Props
