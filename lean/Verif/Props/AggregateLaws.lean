import Verif.Props.Aggregate
/-! Property theorems C19 (row order) and C20 (combining partial aggregates). -/
namespace Verif.Props
open Verif.Val Verif.Agg Verif.AggSpec

/-! ## C19 -/

theorem nonNull_perm {l l' : List Val} (h : l.Perm l') : (nonNull l).Perm (nonNull l') := h.filter _

/-- **C19** COUNT does not depend on the row order. -/
theorem C19_count (l l' : List Val) (h : l.Perm l') : count.run none l = count.run none l' := by
  rw [count_run, count_run, (nonNull_perm h).length_eq]
  have : l = [] ↔ l' = [] := by
    constructor
    · rintro rfl; exact h.symm.eq_nil
    · rintro rfl; exact h.eq_nil
  by_cases hl : l = []
  · rw [if_pos hl, if_pos (this.mp hl)]
  · rw [if_neg hl, if_neg (fun e => hl (this.mpr e))]

theorem total_perm {l l' : List Rat} (h : l.Perm l') : total l = total l' := by
  induction h with
  | nil => rfl
  | cons x _ ih => simp [total, ih]
  | swap x y l => simp [total]; grind
  | trans _ _ ih1 ih2 => rw [ih1, ih2]

/-- **C19** SUM (full statement: for any values; false, below) over numbers, NULLs and texts that convert: the number
does not depend on the row order. -/
theorem C19_sum (py : Py) (l l' : List Val) (h : l.Perm l') (hl : l ≠ []) (hc : ∀ v ∈ l, Convertible py v) :
    ∃ n n', (sum py).run none l = some (some n) ∧ (sum py).run none l' = some (some n') ∧ n.toRat = n'.toRat := by
  obtain ⟨n, h1, h2⟩ := sum_run py l hc hl
  have hl' : l' ≠ [] := by rintro rfl; exact hl h.eq_nil
  obtain ⟨n', h1', h2'⟩ := sum_run py l' (fun v hv => hc v (h.mem_iff.mpr hv)) hl'
  exact ⟨n, n', h1, h1', by rw [h2, h2', total_perm (h.filterMap _)]⟩

/-- **C113 is violated** by SUM over a text that does not convert: ignored after a number, an error before it. -/
theorem C113_sum_violated :
    (sum plainPy).run none [.int 1, .str "x".toList] = some (some (.int 1)) ∧
    (sum plainPy).run none [.str "x".toList, .int 1] = none := by decide +kernel

theorem oneKind_perm {l l' : List Val} (h : l.Perm l') (hk : OneKind l) : OneKind l' :=
  fun a ha b hb => hk a ((nonNull_perm h).mem_iff.mpr ha) b ((nonNull_perm h).mem_iff.mpr hb)

theorem cmp_antisymm (py : Py) {a b : Val} (h : SameKind a b) (h1 : py.cmp .lte a b = .int 1)
    (h2 : py.cmp .lte b a = .int 1) : py.cmp .eq a b = .int 1 := by
  rw [cmp_kind py _ h] at h1 ⊢
  rw [cmp_kind py _ (sameKind_symm h), kindCmp_swap a b] at h2
  cases hc : kindCmp a b <;> rw [hc] at h1 h2 <;> simp [Cmp.holds, ofBool] at h1 h2 ⊢

/-- **C19** MAX over numbers or over texts: equal values whatever the row order (and NULL in the same cases). -/
theorem C19_max (py : Py) (l l' : List Val) (h : l.Perm l') (hk : OneKind l) :
    ((Verif.Agg.max py).run none l = some none ∧ (Verif.Agg.max py).run none l' = some none) ∨
    ∃ m m', (Verif.Agg.max py).run none l = some (some m) ∧ (Verif.Agg.max py).run none l' = some (some m') ∧
      py.cmp .eq m m' = .int 1 := by
  have hp := nonNull_perm h
  rcases C17_max py l hk with ⟨h1, h2⟩ | ⟨m, hm, h2, h3⟩
  · rcases C17_max py l' (oneKind_perm h hk) with ⟨_, h4⟩ | ⟨m', hm', _⟩
    · exact Or.inl ⟨h2, h4⟩
    · rw [← hp.mem_iff, h1] at hm'; simp at hm'
  · rcases C17_max py l' (oneKind_perm h hk) with ⟨h1, _⟩ | ⟨m', hm', h2', h3'⟩
    · rw [hp.mem_iff, h1] at hm; simp at hm
    · right
      have hm'' := hp.mem_iff.mpr hm'
      exact ⟨m, m', h2, h2', cmp_antisymm py (hk m hm m' hm'') (h3' m (hp.mem_iff.mp hm)) (h3 m' hm'')⟩

/-- **C19** MIN, likewise. -/
theorem C19_min (py : Py) (l l' : List Val) (h : l.Perm l') (hk : OneKind l) :
    ((Verif.Agg.min py).run none l = some none ∧ (Verif.Agg.min py).run none l' = some none) ∨
    ∃ m m', (Verif.Agg.min py).run none l = some (some m) ∧ (Verif.Agg.min py).run none l' = some (some m') ∧
      py.cmp .eq m m' = .int 1 := by
  have hp := nonNull_perm h
  rcases C17_min py l hk with ⟨h1, h2⟩ | ⟨m, hm, h2, h3⟩
  · rcases C17_min py l' (oneKind_perm h hk) with ⟨_, h4⟩ | ⟨m', hm', _⟩
    · exact Or.inl ⟨h2, h4⟩
    · rw [← hp.mem_iff, h1] at hm'; simp at hm'
  · rcases C17_min py l' (oneKind_perm h hk) with ⟨h1, _⟩ | ⟨m', hm', h2', h3'⟩
    · rw [hp.mem_iff, h1] at hm; simp at hm
    · right
      have hm'' := hp.mem_iff.mpr hm'
      exact ⟨m, m', h2, h2', cmp_antisymm py (hk m hm m' hm'') (h3 m' hm'') (h3' m (hp.mem_iff.mp hm))⟩

/-- **C113 is violated** by MAX over a group mixing numbers and numeric texts: the type of the first value decides. -/
theorem C113_max_mixed_violated :
    (Verif.Agg.max plainPy).run none [.int 10, .str "9".toList] = some (some (.int 10)) ∧
    (Verif.Agg.max plainPy).run none [.str "9".toList, .int 10] = some (some (.str "9".toList)) := by
  constructor <;> decide +kernel

/-- **C19** COUNT(DISTINCT) does not depend on the row order. -/
theorem C19_count_distinct (l l' : List Val) (h : l.Perm l') :
    (distinctCount.run none l).map distinctCount.final = (distinctCount.run none l').map distinctCount.final := by
  rw [C17_count_distinct l _ (distinct_state l)]
  have hp := nonNull_perm h
  have : Distinct l' ((nonNull l).foldl setAdd []) := by
    obtain ⟨a, b, c⟩ := distinct_state l
    exact ⟨fun w hw => hp.mem_iff.mp (a w hw), b, fun v hv => c v (hp.mem_iff.mpr hv)⟩
  rw [C17_count_distinct l' _ this]

/-- A commutative and associative operator gives the same fold for every order. -/
theorem bit_fold_perm (op : Int → Int → Int) (hc : ∀ a b, op a b = op b a)
    (ha : ∀ a b c, op (op a b) c = op a (op b c)) {i j : Int} {l l' : List Int} (h : (i :: l).Perm (j :: l')) :
    l.foldl op i = l'.foldl op j := by
  have comm : ∀ (m : List Int) (x y : Int), m.foldl op (op x y) = op x (m.foldl op y) := by
    intro m
    induction m with
    | nil => intro x y; rfl
    | cons z m ih => intro x y; simp only [List.foldl_cons]; rw [ha, ih]
  have gen : ∀ (m m' : List Int), m.Perm m' → ∀ x, m.foldl op x = m'.foldl op x := by
    intro m m' hp
    induction hp with
    | nil => intro x; rfl
    | cons z _ ih => intro x; exact ih _
    | swap y z l => intro x; simp only [List.foldl_cons]; rw [ha, hc z y, ← ha]
    | trans _ _ ih1 ih2 => intro x; rw [ih1, ih2]
  by_cases hij : i = j
  · subst hij
    exact gen _ _ (List.perm_cons _ |>.mp h) i
  · have hj : j ∈ l := by
      have : j ∈ i :: l := h.mem_iff.mpr (by simp)
      rcases List.mem_cons.mp this with e | e
      · exact absurd e.symm hij
      · exact e
    have h1 : l.Perm (j :: l.erase j) := List.perm_cons_erase hj
    have h2 : (i :: l.erase j).Perm l' := by
      have : (j :: i :: l.erase j).Perm (j :: l') :=
        (List.Perm.swap i j _).trans ((h1.cons i).symm.trans h)
      exact (List.perm_cons _).mp this
    rw [gen _ _ h1 i, List.foldl_cons, hc i j, comm, ← gen _ _ h2 j, List.foldl_cons, comm]

theorem int_testBit_ext (a b : Int) (h : ∀ k, a.testBit k = b.testBit k) : a = b := by
  have big : ∀ m n : Nat, ∃ k, m.testBit k = false ∧ n.testBit k = false := by
    intro m n
    refine ⟨m + n, ?_, ?_⟩
    · exact Nat.testBit_lt_two_pow (Nat.lt_of_le_of_lt (Nat.le_add_right m n) Nat.lt_two_pow_self)
    · exact Nat.testBit_lt_two_pow (Nat.lt_of_le_of_lt (Nat.le_add_left n m) Nat.lt_two_pow_self)
  cases a with
  | ofNat m =>
    cases b with
    | ofNat n => rw [Nat.eq_of_testBit_eq (x := m) (y := n) (by simpa [Int.testBit] using h)]
    | negSucc n =>
      obtain ⟨k, h1, h2⟩ := big m n
      have := h k
      simp [Int.testBit, h1, h2] at this
  | negSucc m =>
    cases b with
    | ofNat n =>
      obtain ⟨k, h1, h2⟩ := big m n
      have := h k
      simp [Int.testBit, h1, h2] at this
    | negSucc n => rw [Nat.eq_of_testBit_eq (x := m) (y := n) (by simpa [Int.testBit] using h)]

theorem bitop_laws {op : Int → Int → Int} (hop : op ∈ [Int.land, Int.lor, Int.xor]) :
    (∀ a b, op a b = op b a) ∧ ∀ a b c, op (op a b) c = op a (op b c) := by
  simp only [List.mem_cons, List.not_mem_nil, or_false] at hop
  rcases hop with rfl | rfl | rfl
  · exact ⟨fun a b => int_testBit_ext _ _ fun k => by simp [Int.testBit_land, Bool.and_comm],
      fun a b c => int_testBit_ext _ _ fun k => by simp [Int.testBit_land, Bool.and_assoc]⟩
  · exact ⟨fun a b => int_testBit_ext _ _ fun k => by simp [Int.testBit_lor, Bool.or_comm],
      fun a b c => int_testBit_ext _ _ fun k => by simp [Int.testBit_lor, Bool.or_assoc]⟩
  · exact ⟨fun a b => int_testBit_ext _ _ fun k => by simp [Int.testBit_lxor, Bool.xor_comm],
      fun a b c => int_testBit_ext _ _ fun k => by simp [Int.testBit_lxor]⟩

/-- **C19** BIT_AND, BIT_OR, BIT_XOR over integers and NULLs do not depend on the row order. -/
theorem C19_bits (py : Py) (l l' : List (Option Int)) (h : l.Perm l') :
    ∀ op ∈ [Int.land, Int.lor, Int.xor],
      (bitAgg py op).run none (ofInts l) = (bitAgg py op).run none (ofInts l') := by
  intro op hop
  have hop' := bitop_laws hop
  rw [bit_run, bit_run]
  have hp : (l.filterMap id).Perm (l'.filterMap id) := h.filterMap _
  generalize l.filterMap id = m at hp
  generalize l'.filterMap id = m' at hp
  cases m with
  | nil => rw [hp.symm.eq_nil]
  | cons i m =>
    cases m' with
    | nil => exact absurd hp.eq_nil (by simp)
    | cons j m' =>
      change some (some (Val.int (m.foldl op i))) = some (some (Val.int (m'.foldl op j)))
      rw [bit_fold_perm op hop'.1 hop'.2 hp]

/-! ## C20 -/

/-- Combining the states of two parts with `reduce` gives the state of the whole. -/
def Splits {α σ R : Type} (A : Calc α σ R) (l1 l2 : List α) : Prop :=
  ∃ s1 s2 s, A.run none l1 = some s1 ∧ A.run none l2 = some s2 ∧ A.run none (l1 ++ l2) = some s ∧
    A.reduce s1 s2 = some s

/-- **C20** COUNT. -/
theorem C20_count (l1 l2 : List Val) : Splits count l1 l2 := by
  refine ⟨_, _, _, count_run l1 none, count_run l2 none, count_run (l1 ++ l2) none, ?_⟩
  have : nonNull (l1 ++ l2) = nonNull l1 ++ nonNull l2 := by simp [nonNull]
  rw [this]
  by_cases h1 : l1 = [] <;> by_cases h2 : l2 = [] <;> simp [h1, h2, count, reduceWith, nonNull]

theorem numAdd_assoc (a b c : Num) : numAdd (numAdd a b) c = numAdd a (numAdd b c) := by
  cases a <;> cases b <;> cases c <;>
    simp [numAdd, Num.toRat, Rat.intCast_add] <;> grind

theorem numAdd_zero (a : Num) : numAdd a (.int 0) = a := by
  cases a <;> simp [numAdd, Num.toRat]; grind

theorem sum_run_add (py : Py) (l : List Val) (a b : Num) :
    ∃ n, (sum py).run (some b) l = some (some n) ∧ (sum py).run (some (numAdd a b)) l = some (some (numAdd a n)) := by
  induction l generalizing b with
  | nil => exact ⟨b, rfl, rfl⟩
  | cons v l ih =>
    simp only [Calc.run]
    cases hv : py.ensureNumber v with
    | none =>
      obtain ⟨n, h1, h2⟩ := ih b
      exact ⟨n, by simpa [sum, hv] using h1, by simpa [sum, hv] using h2⟩
    | some m =>
      obtain ⟨n, h1, h2⟩ := ih (numAdd b m)
      rw [← numAdd_assoc] at h2
      exact ⟨n, by simpa [sum, hv] using h1, by simpa [sum, hv] using h2⟩

/-- **C20** SUM, over values that convert to numbers and NULLs. -/
theorem C20_sum (py : Py) (l1 l2 : List Val) (h1 : ∀ v ∈ l1, Convertible py v) (h2 : ∀ v ∈ l2, Convertible py v) :
    Splits (sum py) l1 l2 := by
  have tot : ∀ l, (∀ v ∈ l, Convertible py v) → ∃ s, (sum py).run none l = some s := by
    intro l h
    by_cases hl : l = []
    · subst hl; exact ⟨none, rfl⟩
    · obtain ⟨n, h, _⟩ := sum_run py l h hl; exact ⟨_, h⟩
  obtain ⟨s1, e1⟩ := tot l1 h1
  obtain ⟨s2, e2⟩ := tot l2 h2
  have hwhole : (sum py).run none (l1 ++ l2) = (sum py).run s1 l2 := by rw [run_append, e1]; rfl
  cases s1 with
  | none =>
    refine ⟨none, s2, s2, e1, e2, by rw [hwhole, e2], ?_⟩
    cases s2 <;> rfl
  | some a =>
    cases l2 with
    | nil =>
      refine ⟨some a, none, some a, e1, rfl, by simpa using e1, rfl⟩
    | cons v l =>
      -- the first value of the second part, as the state it creates alone
      have hb : ∃ b, (sum py).step none v = some (some b) ∧ (sum py).step (some a) v = some (some (numAdd a b)) := by
        cases hv : py.ensureNumber v with
        | some m => exact ⟨m, by simp [sum, hv], by simp [sum, hv]⟩
        | none =>
          have hn : v = .null := by
            rcases h2 v (by simp) with h | h
            · exact h
            · rw [hv] at h; simp at h
          subst hn
          exact ⟨.int 0, rfl, by rw [numAdd_zero]; rfl⟩
      obtain ⟨b, hb1, hb2⟩ := hb
      obtain ⟨n, h3, h4⟩ := sum_run_add py l a b
      refine ⟨some a, some n, some (numAdd a n), e1, ?_, ?_, rfl⟩
      · simp only [Calc.run, hb1]; exact h3
      · rw [hwhole]; simp only [Calc.run, hb2]; exact h4

/-- **C113 is violated** by SUM when a part starts with a text that does not convert. -/
theorem C113_sum_parts_violated :
    (sum plainPy).run none ([.int 1] ++ [.str "x".toList]) = some (some (.int 1)) ∧
    (sum plainPy).run none [.str "x".toList] = none := by decide +kernel

/-- The first of two values unless the second is greater. -/
def pickMax (a b : Val) : Val := if kindCmp b a = .gt then b else a
/-- The first of two values unless the second is smaller. -/
def pickMin (a b : Val) : Val := if kindCmp b a = .lt then b else a

/-- Picking the first greatest is associative, for a total preorder. -/
theorem pick_assoc (le : Val → Val → Bool) (a b c : Val)
    (htot : ∀ x ∈ [a, b, c], ∀ y ∈ [a, b, c], le x y = true ∨ le y x = true)
    (htr : ∀ x ∈ [a, b, c], ∀ y ∈ [a, b, c], ∀ z ∈ [a, b, c], le x y = true → le y z = true → le x z = true) :
    (let pick := fun x y => if le y x then x else y; pick (pick a b) c = pick a (pick b c)) := by
  simp only [List.mem_cons, List.not_mem_nil, or_false, forall_eq_or_imp, forall_eq] at htot htr
  simp only
  cases h1 : le b a <;> cases h2 : le c b <;> cases h3 : le c a <;> simp [h1, h2, h3] <;> simp_all

theorem pickMax_assoc {a b c : Val} (h1 : SameKind a b) (h2 : SameKind b c) :
    pickMax (pickMax a b) c = pickMax a (pickMax b c) := by
  have hk : ∀ x ∈ [a, b, c], ∀ y ∈ [a, b, c], SameKind x y := by
    have hac := sameKind_trans h1 h2
    have haa := sameKind_trans h1 (sameKind_symm h1)
    have hbb := sameKind_trans h2 (sameKind_symm h2)
    have hcc := sameKind_trans (sameKind_symm h2) h2
    simp only [List.mem_cons, List.not_mem_nil, or_false, forall_eq_or_imp, forall_eq]
    exact ⟨⟨haa, h1, hac⟩, ⟨sameKind_symm h1, hbb, h2⟩, ⟨sameKind_symm hac, sameKind_symm h2, hcc⟩⟩
  have := pick_assoc (fun x y => decide (kindCmp x y ≠ .gt)) a b c
    (by intro x _ y _; simp only [decide_eq_true_eq]; rw [kindCmp_swap y x]; cases kindCmp y x <;> simp)
    (by
      intro x hx y hy z hz; simp only [decide_eq_true_eq]
      exact kindCmp_ngt_trans (hk x hx y hy) (hk y hy z hz))
  simp only [decide_eq_true_eq] at this
  have e : ∀ x y : Val, (if kindCmp y x ≠ .gt then x else y) = pickMax x y := by
    intro x y; unfold pickMax; cases kindCmp y x <;> simp
  simpa only [e] using this

theorem pickMin_assoc {a b c : Val} (h1 : SameKind a b) (h2 : SameKind b c) :
    pickMin (pickMin a b) c = pickMin a (pickMin b c) := by
  have hk : ∀ x ∈ [a, b, c], ∀ y ∈ [a, b, c], SameKind x y := by
    have hac := sameKind_trans h1 h2
    have haa := sameKind_trans h1 (sameKind_symm h1)
    have hbb := sameKind_trans h2 (sameKind_symm h2)
    have hcc := sameKind_trans (sameKind_symm h2) h2
    simp only [List.mem_cons, List.not_mem_nil, or_false, forall_eq_or_imp, forall_eq]
    exact ⟨⟨haa, h1, hac⟩, ⟨sameKind_symm h1, hbb, h2⟩, ⟨sameKind_symm hac, sameKind_symm h2, hcc⟩⟩
  have := pick_assoc (fun x y => decide (kindCmp y x ≠ .gt)) a b c
    (by intro x _ y _; simp only [decide_eq_true_eq]; rw [kindCmp_swap y x]; cases kindCmp y x <;> simp)
    (by
      intro x hx y hy z hz; simp only [decide_eq_true_eq]
      exact fun u v => kindCmp_ngt_trans (hk z hz y hy) (hk y hy x hx) v u)
  simp only [decide_eq_true_eq] at this
  have e : ∀ x y : Val, (if kindCmp x y ≠ .gt then x else y) = pickMin x y := by
    intro x y; unfold pickMin; rw [kindCmp_swap x y]; cases kindCmp x y <;> simp
  simpa only [e] using this

/-- What MAX and MIN have in common: a `pick` of one of two values of the same kind. -/
structure Pick (py : Py) (A : Calc Val Val Val) (m : Val → Val → Option Val) (pick : Val → Val → Val) : Prop where
  step : A.step = extremeStep py m
  red : A.reduce = reduceWith m
  nul : ∀ a, m a .null = none
  eq : ∀ a b, SameKind b a → m a b = some (pick a b)
  mem : ∀ a b, pick a b = a ∨ pick a b = b
  assoc : ∀ a b c, SameKind a b → SameKind b c → pick (pick a b) c = pick a (pick b c)

theorem pick_run_some {py : Py} {A : Calc Val Val Val} {m pick} (P : Pick py A m pick) (l : List Val) (a b : Val)
    (hk : SameKind a b) (h : ∀ v ∈ nonNull l, SameKind v b) :
    ∃ n, SameKind a n ∧ A.run (some b) l = some (some n) ∧ A.run (some (pick a b)) l = some (some (pick a n)) := by
  induction l generalizing b with
  | nil => exact ⟨b, hk, rfl, rfl⟩
  | cons v l ih =>
    by_cases hv : v = .null
    · subst hv
      have hn : nonNull (.null :: l) = nonNull l := by simp [nonNull]
      rw [hn] at h
      obtain ⟨n, h0, h1, h2⟩ := ih b hk h
      have hs : ∀ x, A.step (some x) .null = some (some x) := by
        intro x; simp [P.step, extremeStep, P.nul]
      exact ⟨n, h0, by simp only [Calc.run, hs]; exact h1, by simp only [Calc.run, hs]; exact h2⟩
    · have hn : nonNull (v :: l) = v :: nonNull l := by simp [nonNull, hv]
      rw [hn] at h
      have hvb : SameKind v b := h v (by simp)
      have hs : ∀ x, SameKind v x → A.step (some x) v = some (some (pick x v)) := by
        intro x hx; simp [P.step, extremeStep, P.eq x v hx]
      have hpab : SameKind v (pick a b) := by
        rcases P.mem a b with e | e <;> rw [e]
        · exact sameKind_trans hvb (sameKind_symm hk)
        · exact hvb
      have hapbv : SameKind a (pick b v) := by
        rcases P.mem b v with e | e <;> rw [e]
        · exact hk
        · exact sameKind_trans hk (sameKind_symm hvb)
      have hl : ∀ w ∈ nonNull l, SameKind w (pick b v) := by
        intro w hw
        have hwb : SameKind w b := h w (by simp [hw])
        rcases P.mem b v with e | e <;> rw [e]
        · exact hwb
        · exact sameKind_trans hwb (sameKind_symm hvb)
      obtain ⟨n, h0, h1, h2⟩ := ih (pick b v) hapbv hl
      refine ⟨n, h0, ?_, ?_⟩
      · simp only [Calc.run, hs b hvb]; exact h1
      · simp only [Calc.run, hs _ hpab]
        rw [P.assoc a b v hk (sameKind_symm hvb)]; exact h2

theorem pick_run_kind {py : Py} {A : Calc Val Val Val} {m pick} (P : Pick py A m pick) (l : List Val) (b : Val)
    (h : ∀ v ∈ nonNull l, SameKind v b) (hb : SameKind b b) :
    ∃ n, SameKind b n ∧ A.run (some b) l = some (some n) := by
  obtain ⟨n, h0, h1, _⟩ := pick_run_some P l b b hb h
  exact ⟨n, h0, h1⟩

theorem pick_splits {py : Py} {A : Calc Val Val Val} {m pick} (P : Pick py A m pick) (l1 l2 : List Val)
    (h : OneKind (l1 ++ l2)) : Splits A l1 l2 := by
  have hA : A.step none .null = some none := by simp [P.step, extremeStep]
  have hfirst : ∀ v, v ≠ .null → A.step none v = some (some v) := by intro v hv; simp [P.step, extremeStep, hv]
  have hnn : nonNull (l1 ++ l2) = nonNull l1 ++ nonNull l2 := by simp [nonNull]
  unfold OneKind at h
  rw [hnn] at h
  have one : ∀ l, (∀ a ∈ nonNull l, ∀ b ∈ nonNull l, SameKind a b) →
      (nonNull l = [] ∧ A.run none l = some none) ∨
      ∃ n v, v ∈ nonNull l ∧ SameKind v n ∧ A.run none l = some (some n) := by
    intro l hl
    rcases extreme_skip A hA l with h0 | ⟨v, l', hn, hv, hr⟩
    · exact Or.inl h0
    · right
      rw [hn] at hl ⊢
      obtain ⟨n, h0, h1⟩ := pick_run_kind P l' v (fun w hw => hl w (by simp [hw]) v (by simp))
        (hl v (by simp) v (by simp))
      refine ⟨n, v, by simp, h0, ?_⟩
      rw [hr]; simp only [Calc.run, hfirst v hv]; exact h1
  rcases one l1 (fun a ha b hb => h a (by simp [ha]) b (by simp [hb])) with ⟨_, e1⟩ | ⟨a, v1, hv1, hk1, e1⟩
  · have hw : A.run none (l1 ++ l2) = A.run none l2 := by rw [run_append, e1]; rfl
    rcases one l2 (fun a ha b hb => h a (by simp [ha]) b (by simp [hb])) with ⟨_, e2⟩ | ⟨b, _, _, _, e2⟩
    · exact ⟨_, _, _, e1, e2, hw.trans e2, by rw [P.red]; rfl⟩
    · exact ⟨_, _, _, e1, e2, hw.trans e2, by rw [P.red]; rfl⟩
  · have hw : A.run none (l1 ++ l2) = A.run (some a) l2 := by rw [run_append, e1]; rfl
    have skip2 : ∀ l, nonNull l = [] → A.run (some a) l = some (some a) := by
      intro l hl
      induction l with
      | nil => rfl
      | cons v l ih =>
        by_cases hv : v = .null
        · subst hv
          have hs : A.step (some a) .null = some (some a) := by simp [P.step, extremeStep, P.nul]
          simp only [Calc.run, hs]
          exact ih (by simpa [nonNull] using hl)
        · simp [nonNull, hv] at hl
    -- the second part from its first value on
    have second : ∀ l, (∀ x ∈ nonNull l, SameKind x v1) → (∀ x ∈ nonNull l, ∀ y ∈ nonNull l, SameKind x y) →
        ∃ s2 s, A.run none l = some s2 ∧ A.run (some a) l = some s ∧ A.reduce (some a) s2 = some s := by
      intro l hx hl
      induction l with
      | nil => exact ⟨none, some a, rfl, rfl, by rw [P.red]; rfl⟩
      | cons v l ih =>
        by_cases hv : v = .null
        · subst hv
          have hn : nonNull (.null :: l) = nonNull l := by simp [nonNull]
          rw [hn] at hx hl
          obtain ⟨s2, s, h1, h2, h3⟩ := ih hx hl
          have hs : A.step (some a) .null = some (some a) := by simp [P.step, extremeStep, P.nul]
          exact ⟨s2, s, by simp only [Calc.run, hA]; exact h1, by simp only [Calc.run, hs]; exact h2, h3⟩
        · have hn : nonNull (v :: l) = v :: nonNull l := by simp [nonNull, hv]
          rw [hn] at hx hl
          have hva : SameKind v a := sameKind_trans (hx v (by simp)) hk1
          obtain ⟨n, h0, h1, h2⟩ := pick_run_some P l a v (sameKind_symm hva)
            (fun w hw => hl w (by simp [hw]) v (by simp))
          refine ⟨some n, some (pick a n), ?_, ?_, ?_⟩
          · simp only [Calc.run, hfirst v hv]; exact h1
          · have hs : A.step (some a) v = some (some (pick a v)) := by
              simp [P.step, extremeStep, P.eq a v hva]
            simp only [Calc.run, hs]; exact h2
          · rw [P.red]; simp [reduceWith, P.eq a n (sameKind_symm h0)]
    obtain ⟨s2, s, h1, h2, h3⟩ := second l2 (fun x hx => h x (by simp [hx]) v1 (by simp [hv1]))
      (fun x hx y hy => h x (by simp [hx]) y (by simp [hy]))
    exact ⟨_, _, _, e1, h1, hw.trans h2, h3⟩

theorem max_pick (py : Py) : Pick py (Verif.Agg.max py) pyMax pickMax where
  step := rfl
  red := rfl
  nul a := by cases a <;> simp [pyMax, pyOp, pyCmp, numeric]
  eq _ _ h := pyMax_kind h
  mem a b := by unfold pickMax; split <;> simp
  assoc _ _ _ h1 h2 := pickMax_assoc h1 h2

theorem min_pick (py : Py) : Pick py (Verif.Agg.min py) pyMin pickMin where
  step := rfl
  red := rfl
  nul a := by cases a <;> simp [pyMin, pyOp, pyCmp, numeric]
  eq _ _ h := pyMin_kind h
  mem a b := by unfold pickMin; split <;> simp
  assoc _ _ _ h1 h2 := pickMin_assoc h1 h2

/-- **C20** MAX and MIN, over numbers or over texts, with NULLs. -/
theorem C20_max_min (py : Py) (l1 l2 : List Val) (h : OneKind (l1 ++ l2)) :
    Splits (Verif.Agg.max py) l1 l2 ∧ Splits (Verif.Agg.min py) l1 l2 :=
  ⟨pick_splits (max_pick py) l1 l2 h, pick_splits (min_pick py) l1 l2 h⟩

/-- **C20** GROUP_CONCAT and GROUP_ARRAY. -/
theorem C20_group_lists (py : Py) (l1 l2 : List Val) : Splits (groupConcat py) l1 l2 ∧ Splits groupArray l1 l2 := by
  have hnn : nonNull (l1 ++ l2) = nonNull l1 ++ nonNull l2 := by simp [nonNull]
  constructor
  · refine ⟨_, _, _, groupConcat_run py l1 none, groupConcat_run py l2 none, groupConcat_run py (l1 ++ l2) none, ?_⟩
    rw [hnn]
    by_cases h1 : nonNull l1 = [] <;> by_cases h2 : nonNull l2 = [] <;> simp [h1, h2, groupConcat, reduceWith]
  · refine ⟨_, _, _, groupArray_run l1 none, groupArray_run l2 none, groupArray_run (l1 ++ l2) none, ?_⟩
    rw [hnn]
    by_cases h1 : nonNull l1 = [] <;> by_cases h2 : nonNull l2 = [] <;> simp [h1, h2, groupArray, reduceWith]

theorem foldl_setAdd_setAdd (a s : List Val) (v : Val) :
    (setAdd s v).foldl setAdd a = setAdd (s.foldl setAdd a) v := by
  by_cases h : s.any (fun w => decide (keyOf w = keyOf v)) = true
  · have e : setAdd s v = s := by unfold setAdd; rw [if_pos h]
    rw [e]
    have hk : ∀ (s a : List Val), keyOf v ∈ a.map keyOf ∨ keyOf v ∈ s.map keyOf →
        keyOf v ∈ (s.foldl setAdd a).map keyOf := by
      intro s
      induction s with
      | nil => intro a h; simpa using h
      | cons x s ih =>
        intro a h
        apply ih
        rw [setAdd_keys]
        rcases h with h | h
        · left; split
          · exact h
          · exact List.mem_append_left _ h
        · rw [List.map_cons, List.mem_cons] at h
          rcases h with h | h
          · left; rw [h]; split
            · assumption
            · simp
          · exact Or.inr h
    have hm : keyOf v ∈ (s.foldl setAdd a).map keyOf := by
      apply hk; right
      simp only [List.any_eq_true, decide_eq_true_eq] at h
      exact List.mem_map.mpr h
    generalize s.foldl setAdd a = t at hm
    unfold setAdd
    rw [if_pos]
    simp only [List.any_eq_true, decide_eq_true_eq]
    exact List.mem_map.mp hm
  · have e : setAdd s v = s ++ [v] := by unfold setAdd; rw [if_neg h]
    rw [e, List.foldl_append]; rfl

/-- **C20** COUNT(DISTINCT) and GROUP_UNIQ_ARRAY: their states combine. -/
theorem C20_count_distinct (l1 l2 : List Val) : Splits distinctCount l1 l2 := by
  have hnn : nonNull (l1 ++ l2) = nonNull l1 ++ nonNull l2 := by simp [nonNull]
  refine ⟨_, _, _, distinct_run l1 none, distinct_run l2 none, distinct_run (l1 ++ l2) none, ?_⟩
  have key : ∀ (l s a : List Val), (l.foldl setAdd s).foldl setAdd a = l.foldl setAdd (s.foldl setAdd a) := by
    intro l
    induction l with
    | nil => intro s a; rfl
    | cons v l ih => intro s a; simp only [List.foldl_cons]; rw [ih, foldl_setAdd_setAdd]
  rw [hnn]
  by_cases h1 : nonNull l1 = [] <;> by_cases h2 : nonNull l2 = [] <;>
    simp [h1, h2, distinctCount, reduceWith, key]

/-- **C20** BIT_AND, BIT_OR, BIT_XOR over integers and NULLs. -/
theorem C20_bits (py : Py) (l1 l2 : List (Option Int)) :
    ∀ op ∈ [Int.land, Int.lor, Int.xor], Splits (bitAgg py op) (ofInts l1) (ofInts l2) := by
  intro op hop
  obtain ⟨_, ha⟩ := bitop_laws hop
  have hcat : ofInts l1 ++ ofInts l2 = ofInts (l1 ++ l2) := by simp [ofInts]
  refine ⟨_, _, _, bit_run py op l1, bit_run py op l2, by rw [hcat]; exact bit_run py op (l1 ++ l2), ?_⟩
  · rw [List.filterMap_append]
    have comm : ∀ (m : List Int) (x y : Int), m.foldl op (op x y) = op x (m.foldl op y) := by
      intro m
      induction m with
      | nil => intro x y; rfl
      | cons z m ih => intro x y; simp only [List.foldl_cons]; rw [ha, ih]
    generalize l1.filterMap id = m1
    generalize l2.filterMap id = m2
    cases m1 <;> cases m2 <;> simp [bitAgg, reduceWith, asInt, comm]

/-- **C112** AVG (full statement: with NULLs; false, next theorem), over values that all convert to numbers. -/
theorem C112_avg_parts_partial (py : Py) (l1 l2 : List Val) (h1 : ∀ v ∈ l1, (py.ensureNumber v).isSome)
    (h2 : ∀ v ∈ l2, (py.ensureNumber v).isSome) : Splits (avg py) l1 l2 := by
  have gen : ∀ (l : List Val), (∀ v ∈ l, (py.ensureNumber v).isSome) → ∀ (a : Nat × Num) (b : Nat × Num),
      ∃ n : Nat × Num, (avg py).run (some b) l = some (some n) ∧
        (avg py).run (some (a.1 + b.1, numAdd a.2 b.2)) l = some (some (a.1 + n.1, numAdd a.2 n.2)) := by
    intro l
    induction l with
    | nil => intro _ a b; exact ⟨b, rfl, rfl⟩
    | cons v l ih =>
      intro h a b
      obtain ⟨m, hm⟩ := Option.isSome_iff_exists.mp (h v (by simp))
      obtain ⟨n, e1, e2⟩ := ih (fun w hw => h w (by simp [hw])) a (b.1 + 1, numAdd b.2 m)
      refine ⟨n, ?_, ?_⟩
      · simp only [Calc.run]
        rw [show (avg py).step (some b) v = some (some (b.1 + 1, numAdd b.2 m)) by simp [avg, hm]]
        exact e1
      · simp only [Calc.run]
        rw [show (avg py).step (some (a.1 + b.1, numAdd a.2 b.2)) v =
          some (some (a.1 + (b.1 + 1), numAdd a.2 (numAdd b.2 m))) by simp [avg, hm, numAdd_assoc, Nat.add_assoc]]
        exact e2
  have first : ∀ (l : List Val), (∀ v ∈ l, (py.ensureNumber v).isSome) →
      (l = [] ∧ (avg py).run none l = some none) ∨ ∃ n, (avg py).run none l = some (some n) := by
    intro l h
    cases l with
    | nil => left; exact ⟨rfl, rfl⟩
    | cons v l =>
      right
      obtain ⟨m, hm⟩ := Option.isSome_iff_exists.mp (h v (by simp))
      obtain ⟨n, e1, _⟩ := gen l (fun w hw => h w (by simp [hw])) (0, .int 0) (1, m)
      refine ⟨n, ?_⟩
      simp only [Calc.run]
      rw [show (avg py).step none v = some (some (1, m)) by simp [avg, hm]]
      exact e1
  rcases first l1 h1 with ⟨rfl, e1⟩ | ⟨a, e1⟩
  · rcases first l2 h2 with ⟨_, e2⟩ | ⟨b, e2⟩
    · exact ⟨_, _, _, e1, e2, by simpa using e2, rfl⟩
    · exact ⟨_, _, _, e1, e2, by simpa using e2, rfl⟩
  · have hw : (avg py).run none (l1 ++ l2) = (avg py).run (some a) l2 := by rw [run_append, e1]; rfl
    cases l2 with
    | nil => exact ⟨_, _, _, e1, rfl, hw, rfl⟩
    | cons v l =>
      obtain ⟨m, hm⟩ := Option.isSome_iff_exists.mp (h2 v (by simp))
      obtain ⟨n, e2, e3⟩ := gen l (fun w hw => h2 w (by simp [hw])) a (1, m)
      refine ⟨_, some n, _, e1, ?_, ?_, rfl⟩
      · simp only [Calc.run]
        rw [show (avg py).step none v = some (some (1, m)) by simp [avg, hm]]
        exact e2
      · rw [hw]; simp only [Calc.run]
        rw [show (avg py).step (some a) v = some (some (a.1 + 1, numAdd a.2 m)) by simp [avg, hm]]
        exact e3

/-- **C112 is violated** by AVG with NULLs: the average of (1), (NULL) depends on whether the two rows are aggregated
together (1/2) or in two parts (1). -/
theorem C112_avg_parts_violated (py : Py) :
    ((avg py).run none ([.int 1] ++ [.null])).map (avg py).final = some (1 / 2) ∧
    ((avg py).run none [.int 1] = some (some (1, .int 1))) ∧ (avg py).run none [.null] = some none ∧
    ((avg py).reduce (some (1, .int 1)) none).map (avg py).final = some 1 := by
  refine ⟨C18_avg_violated py, rfl, rfl, ?_⟩
  simp [avg, reduceWith, Num.toRat]
  grind

/-- **C112 is violated** by JSON_OBJECTAGG for all non-empty parts: combining two parts loses everything (the reduce
step returns the result of `dict.update`, which is `None`). -/
theorem C112_json_objectagg_parts_violated (py : Py) (l1 l2 : List (Option (List Val))) (s1 s2 : List (Str × Val))
    (_h1 : (jsonObjectagg py).run none l1 = some (some s1)) (_h2 : (jsonObjectagg py).run none l2 = some (some s2)) :
    (jsonObjectagg py).reduce (some s1) (some s2) = some none := rfl

/-- Such parts exist. -/
example : (jsonObjectagg plainPy).run none [some [.str "a".toList, .int 1]] =
    some (some [("a".toList, .int 1)]) := by decide +kernel

/-- Non-vacuity of the hypotheses on groups. -/
example : OneKind [.int 3, .null, .flt (1 / 2), .bool true] ∧ OneKind [.str "b".toList, .null, .str "a".toList] ∧
    Convertible plainPy (.str "12".toList) ∧ (∀ v ∈ [Val.int 3, .null], NumOrNull v) ∧
    Distinct [.int 1, .null, .flt 1, .int 2] [.int 1, .int 2] := by
  refine ⟨?_, ?_, ?_, ?_, ?_⟩
  · simp [OneKind, nonNull, SameKind, numeric]
  · simp [OneKind, nonNull, SameKind, numeric]
  · exact Or.inr (by decide +kernel)
  · simp [NumOrNull, num?]
  · refine ⟨by simp [nonNull], ?_, ?_⟩
    · simp [same, num?]
    · simp [nonNull, same, num?]

end Verif.Props
