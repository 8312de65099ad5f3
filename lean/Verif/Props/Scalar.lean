import Verif.Model.Scalar
import Verif.Props.Value
/-! Property theorems C27-C30, C51: comparison, IN, arithmetic, rounding. -/
namespace Verif.Props
open Verif.Val

/-! ## C27 -/

/-- **C27**, comparisons: a NULL operand gives NULL. -/
theorem C27_comparison_null (py : Py) (op : Cmp) (a : Val) :
    py.cmp op .null a = .null ∧ py.cmp op a .null = .null := by
  cases a <;> simp [Py.cmp, Py.cmpRaw, cls, caught]

/-- **C27**, arithmetic and bit operations: a NULL operand gives NULL. -/
theorem C27_arithmetic_null (py : Py) (a : Val) :
    (∀ op, py.ar op .null a = .null ∧ py.ar op a .null = .null) ∧
    (∀ op, py.bit op .null a = .null ∧ py.bit op a .null = .null) ∧
    py.bitNot .null = .null ∧ py.abs .null = .null ∧ py.floor .null = .null ∧ py.ceil .null = .null ∧
    py.sign .null = .null ∧ (∀ y, py.round .null y = .null) ∧ mysqlNot .null = .null ∧
    (∀ l, py.mysqlIn .null l = .null) := by
  simp [Py.ar, Py.arRaw, Py.bit, Py.bitNot, Py.abs, Py.floor, Py.ceil, Py.sign, Py.round, Py.unary, mysqlNot,
    Py.mysqlIn, caught]

/-- **C27**, errors: an operand that cannot be converted gives NULL, not an exception (the raw function raises: it
returns `none`). -/
theorem C27_error_is_null :
    plainPy.arRaw .add (.str "abc".toList) (.int 1) = none ∧ plainPy.ar .add (.str "abc".toList) (.int 1) = .null ∧
    plainPy.cmpRaw .lt (.int 1) (.str "abc".toList) = none ∧ plainPy.cmp .lt (.int 1) (.str "abc".toList) = .null := by
  decide +kernel

/-! ## C28 -/

theorem strCmp_swap (a b : Str) : strCmp b a = (strCmp a b).swap := by
  induction a generalizing b with
  | nil => cases b <;> rfl
  | cons x a ih =>
    cases b with
    | nil => rfl
    | cons y b =>
      simp only [strCmp]
      by_cases h1 : x.toNat < y.toNat
      · have : ¬ y.toNat < x.toNat := by omega
        simp [h1, this]
      · by_cases h2 : y.toNat < x.toNat
        · simp [h1, h2]
        · simp [h1, h2, ih b]

theorem strCmp_eq_iff (a b : Str) : strCmp a b = .eq ↔ a = b := by
  induction a generalizing b with
  | nil => cases b <;> simp [strCmp]
  | cons x a ih =>
    cases b with
    | nil => simp [strCmp]
    | cons y b =>
      simp only [strCmp]
      by_cases h1 : x.toNat < y.toNat
      · simp only [h1, if_true]
        constructor
        · intro h; simp at h
        · intro h; simp at h; rw [h.1] at h1; omega
      · by_cases h2 : y.toNat < x.toNat
        · simp only [h1, h2, if_true, if_false]
          constructor
          · intro h; simp at h
          · intro h; simp at h; rw [h.1] at h2; omega
        · simp only [h1, h2, if_false, ih b]
          have : x = y := Char.toNat_inj.mp (by omega)
          simp [this]

theorem strCmp_lt_trans (a b c : Str) (h1 : strCmp a b = .lt) (h2 : strCmp b c = .lt) : strCmp a c = .lt := by
  induction a generalizing b c with
  | nil =>
    cases b with
    | nil => simp [strCmp] at h1
    | cons y b =>
      cases c with
      | nil => simp [strCmp] at h2
      | cons z c => rfl
  | cons x a ih =>
    cases b with
    | nil => simp [strCmp] at h1
    | cons y b =>
      cases c with
      | nil => simp [strCmp] at h2
      | cons z c =>
        simp only [strCmp] at h1 h2 ⊢
        by_cases hxy : x.toNat < y.toNat
        · by_cases hyz : y.toNat < z.toNat
          · rw [if_pos (by omega)]
          · rw [if_neg hyz] at h2
            by_cases hzy : z.toNat < y.toNat
            · rw [if_pos hzy] at h2; simp at h2
            · rw [if_pos (by omega)]
        · rw [if_neg hxy] at h1
          by_cases hyx : y.toNat < x.toNat
          · rw [if_pos hyx] at h1; simp at h1
          · rw [if_neg hyx] at h1
            by_cases hyz : y.toNat < z.toNat
            · rw [if_pos (by omega)]
            · rw [if_neg hyz] at h2
              by_cases hzy : z.toNat < y.toNat
              · rw [if_pos hzy] at h2; simp at h2
              · rw [if_neg hzy] at h2
                rw [if_neg (by omega), if_neg (by omega)]
                exact ih b c h1 h2

theorem rat_lt_trans {a b c : Rat} (h1 : a < b) (h2 : b < c) : a < c := by grind

theorem ratCmp_swap (a b : Rat) : ratCmp b a = (ratCmp a b).swap := by
  unfold ratCmp
  by_cases h1 : a < b
  · have : ¬ b < a := fun h => Rat.lt_irrefl (rat_lt_trans h1 h)
    simp [h1, this]
  · by_cases h2 : b < a
    · simp [h1, h2]
    · simp [h1, h2]

theorem ratCmp_eq_iff (a b : Rat) : ratCmp a b = .eq ↔ a = b := by
  unfold ratCmp
  by_cases h1 : a < b
  · simp only [h1, if_true]
    constructor
    · intro h; simp at h
    · rintro rfl; exact absurd h1 Rat.lt_irrefl
  · by_cases h2 : b < a
    · simp only [h1, h2, if_true, if_false]
      constructor
      · intro h; simp at h
      · rintro rfl; exact absurd h2 Rat.lt_irrefl
    · simp only [h1, h2, if_false]
      simp only [true_iff]
      exact Rat.le_antisymm (Rat.not_lt.mp h2) (Rat.not_lt.mp h1)

theorem ratCmp_lt_iff (a b : Rat) : ratCmp a b = .lt ↔ a < b := by
  unfold ratCmp
  split
  · simp_all
  · split <;> simp_all

theorem numeric_ensureNumber (py : Py) {a : Val} {x : Rat} (h : numeric a = some x) :
    ∃ m, py.ensureNumber a = some m ∧ m.toRat = x := by
  cases a with
  | null => simp [numeric] at h
  | str s => simp [numeric] at h
  | bool b =>
    refine ⟨_, rfl, ?_⟩
    cases b <;> simp [numeric] at h <;> subst h <;> rfl
  | int i => simp [numeric] at h; exact ⟨_, rfl, h⟩
  | flt q => simp [numeric] at h; exact ⟨_, rfl, h⟩

/-- The shape of every comparison: either the operands are put in some order which decides all six operators, or
they are incomparable (equality false, order NULL). -/
theorem cmp_order (py : Py) (a b : Val) (ha : a ≠ .null) (hb : b ≠ .null) :
    (∃ o, ∀ op, py.cmp op a b = ofBool (op.holds o)) ∨
    (∀ op, py.cmp op a b = match op with | .eq => ofBool false | .neq => ofBool true | _ => .null) := by
  have hop : (∃ o, ∀ op, caught ((pyOp op a b).map ofBool) = ofBool (op.holds o)) ∨
      (∀ op, caught ((pyOp op a b).map ofBool) =
        match op with | .eq => ofBool false | .neq => ofBool true | _ => .null) := by
    unfold pyOp
    cases pyCmp a b with
    | some o => left; exact ⟨o, fun op => by simp [caught]⟩
    | none => right; intro op; cases op <;> simp [caught]
  unfold Py.cmp Py.cmpRaw
  by_cases hc : cls a = cls b
  · simpa only [hc, if_true, ha, if_false] using hop
  · simp only [hc, if_false, ha, hb, or_self]
    cases hna : numeric a with
    | some x =>
      cases hnb : numeric b with
      | some y => left; exact ⟨ratCmp x y, fun op => by simp [caught]⟩
      | none =>
        simp only
        rcases py.ensureNumber a with _ | m
        · exact hop
        · rcases py.ensureNumber b with _ | n
          · exact hop
          · left; exact ⟨ratCmp m.toRat n.toRat, fun op => by simp [caught]⟩
    | none =>
      simp only
      have h1 : (py.ensureStr a).isSome := by cases a <;> simp [Py.ensureStr] at ha ⊢
      have h2 : (py.ensureStr b).isSome := by cases b <;> simp [Py.ensureStr] at hb ⊢
      obtain ⟨s, hs⟩ := Option.isSome_iff_exists.mp h1
      obtain ⟨t, ht⟩ := Option.isSome_iff_exists.mp h2
      left
      exact ⟨strCmp s t, fun op => by rw [hs, ht]; simp [caught]⟩

theorem not_ofBool (b : Bool) : mysqlNot (ofBool b) = ofBool (!b) := by cases b <;> rfl

/-- **C28**, for all operands of any types: `<>` is the negation of `=`, `>=` of `<`, `<=` of `>` (three-valued). -/
theorem C28_negations (py : Py) (a b : Val) :
    py.cmp .neq a b = mysqlNot (py.cmp .eq a b) ∧ py.cmp .gte a b = mysqlNot (py.cmp .lt a b) ∧
    py.cmp .lte a b = mysqlNot (py.cmp .gt a b) := by
  by_cases ha : a = .null
  · subst ha; simp [C27_comparison_null, mysqlNot]
  by_cases hb : b = .null
  · subst hb; simp [C27_comparison_null, mysqlNot]
  rcases cmp_order py a b ha hb with ⟨o, h⟩ | h
  · simp only [h, not_ofBool, Cmp.holds]
    cases o <;> decide
  · simp only [h]; decide

/-- **C28**, for all operands of any types: when `a < b` is not NULL, exactly one of `<`, `=`, `>` is true. -/
theorem C28_trichotomy (py : Py) (a b : Val) (h : py.cmp .lt a b ≠ .null) :
    (py.cmp .lt a b, py.cmp .eq a b, py.cmp .gt a b) ∈
      [(Val.int 1, Val.int 0, Val.int 0), (.int 0, .int 1, .int 0), (.int 0, .int 0, .int 1)] := by
  by_cases ha : a = .null
  · subst ha; exact absurd (C27_comparison_null py .lt b).1 h
  by_cases hb : b = .null
  · subst hb; exact absurd (C27_comparison_null py .lt a).2 h
  rcases cmp_order py a b ha hb with ⟨o, h'⟩ | h'
  · simp only [h']
    cases o <;> simp [Cmp.holds, ofBool]
  · exact absurd (h' .lt) h

/-- Both operands numbers (booleans included), or both texts. -/
def SameKind : Val → Val → Prop
  | .str _, .str _ => True
  | a, b => (numeric a).isSome ∧ (numeric b).isSome

/-- The operator seen from the other side. -/
def mirror : Cmp → Cmp
  | .eq => .eq | .neq => .neq | .gt => .lt | .gte => .lte | .lt => .gt | .lte => .gte

theorem holds_swap (op : Cmp) (o : Ordering) : op.holds o = (mirror op).holds o.swap := by
  cases op <;> cases o <;> rfl

/-- Order of two values of the same kind. -/
def kindCmp : Val → Val → Ordering
  | .str s, .str t => strCmp s t
  | a, b => ratCmp ((numeric a).getD 0) ((numeric b).getD 0)

theorem cmp_kind (py : Py) (op : Cmp) {a b : Val} (h : SameKind a b) :
    py.cmp op a b = ofBool (op.holds (kindCmp a b)) := by
  cases a <;> cases b <;>
    simp_all [SameKind, numeric, Py.cmp, Py.cmpRaw, cls, pyOp, pyCmp, caught, kindCmp]

/-- **C28** (full statement: also for a number and a numeric text; false, see below).  Proved for two numbers or two
texts: mirrored operators agree. -/
theorem C28_mirror (py : Py) (op : Cmp) (a b : Val) (h : SameKind a b) :
    py.cmp op a b = py.cmp (mirror op) b a := by
  have h' : SameKind b a := by
    cases a <;> cases b <;> simp_all [SameKind]
  rw [cmp_kind py op h, cmp_kind py _ h']
  have : kindCmp b a = (kindCmp a b).swap := by
    cases a <;> cases b <;> first | exact strCmp_swap _ _ | exact ratCmp_swap _ _
  rw [this, ← holds_swap]

/-- **C28**: for numbers, the operators are the order of the numbers; for texts, equality is equality. -/
theorem C28_meaning (py : Py) :
    (∀ a b : Int, (py.cmp .eq (.int a) (.int b) = .int 1 ↔ a = b) ∧
      (py.cmp .lt (.int a) (.int b) = .int 1 ↔ a < b)) ∧
    (∀ a b : Rat, (py.cmp .eq (.flt a) (.flt b) = .int 1 ↔ a = b) ∧
      (py.cmp .lt (.flt a) (.flt b) = .int 1 ↔ a < b)) ∧
    (∀ (a : Int) (b : Rat), (py.cmp .eq (.int a) (.flt b) = .int 1 ↔ (a : Rat) = b) ∧
      (py.cmp .lt (.int a) (.flt b) = .int 1 ↔ (a : Rat) < b)) ∧
    (∀ a b : Str, py.cmp .eq (.str a) (.str b) = .int 1 ↔ a = b) := by
  have ob : ∀ b, ofBool b = .int 1 ↔ b = true := by intro b; cases b <;> simp [ofBool]
  refine ⟨fun a b => ?_, fun a b => ?_, fun a b => ?_, fun a b => ?_⟩
  · rw [cmp_kind py _ (by simp [SameKind, numeric]), cmp_kind py _ (by simp [SameKind, numeric]), ob, ob]
    simp [Cmp.holds, kindCmp, numeric, ratCmp_eq_iff, ratCmp_lt_iff, Rat.intCast_inj, Rat.intCast_lt_intCast]
  · rw [cmp_kind py _ (by simp [SameKind, numeric]), cmp_kind py _ (by simp [SameKind, numeric]), ob, ob]
    simp [Cmp.holds, kindCmp, numeric, ratCmp_eq_iff, ratCmp_lt_iff]
  · rw [cmp_kind py _ (by simp [SameKind, numeric]), cmp_kind py _ (by simp [SameKind, numeric]), ob, ob]
    simp [Cmp.holds, kindCmp, numeric, ratCmp_eq_iff, ratCmp_lt_iff]
  · rw [cmp_kind py _ (by simp [SameKind]), ob]
    simp [Cmp.holds, kindCmp, strCmp_eq_iff]

/-- **C28**: `<` is transitive among numbers and among texts. -/
theorem C28_lt_transitive (py : Py) (a b c : Val) (h1 : SameKind a b) (h2 : SameKind b c)
    (hab : py.cmp .lt a b = .int 1) (hbc : py.cmp .lt b c = .int 1) : py.cmp .lt a c = .int 1 := by
  have h3 : SameKind a c := by
    cases a <;> cases b <;> cases c <;> simp_all [SameKind, numeric]
  rw [cmp_kind py _ h1] at hab
  rw [cmp_kind py _ h2] at hbc
  rw [cmp_kind py _ h3]
  have ob : ∀ b, ofBool b = .int 1 ↔ b = true := by intro b; cases b <;> simp [ofBool]
  rw [ob] at hab hbc ⊢
  simp only [Cmp.holds, decide_eq_true_eq] at hab hbc ⊢
  cases a <;> cases b <;> cases c <;>
    first
    | (simp [SameKind, numeric] at h1; done)
    | (simp [SameKind, numeric] at h2; done)
    | exact strCmp_lt_trans _ _ _ hab hbc
    | exact (ratCmp_lt_iff _ _).mpr (rat_lt_trans ((ratCmp_lt_iff _ _).mp hab) ((ratCmp_lt_iff _ _).mp hbc))

/-- **C89 is violated** for a number and a numeric text: the first operand decides the kind of comparison. -/
theorem C89_mixed_violated :
    plainPy.cmp .eq (.int 10) (.str "10.0".toList) = .int 1 ∧ plainPy.cmp .eq (.str "10.0".toList) (.int 10) = .int 0 ∧
    plainPy.cmp .gt (.int 10) (.str "9".toList) = .int 1 ∧ plainPy.cmp .lt (.str "9".toList) (.int 10) = .int 0 := by
  decide +kernel

/-! ## C29 -/

/-- Specification: three-valued disjunction. -/
def or3 (a b : Val) : Val :=
  if a = .int 1 ∨ b = .int 1 then .int 1 else if a = .null ∨ b = .null then .null else .int 0

/-- The comparison `=` of non-NULL values is 1 or 0. -/
theorem eq_two_valued (py : Py) (a b : Val) (ha : a ≠ .null) (hb : b ≠ .null) :
    ∃ r, py.cmpRaw .eq a b = some (ofBool r) ∧ py.cmp .eq a b = ofBool r := by
  have h := cmp_order py a b ha hb
  have hv : ∃ r, py.cmp .eq a b = ofBool r := by
    rcases h with ⟨o, h⟩ | h
    · exact ⟨_, h .eq⟩
    · exact ⟨false, h .eq⟩
  obtain ⟨r, hr⟩ := hv
  refine ⟨r, ?_, hr⟩
  unfold Py.cmp caught at hr
  cases hx : py.cmpRaw .eq a b with
  | none => rw [hx] at hr; cases r <;> simp [ofBool] at hr
  | some v => rw [hx] at hr; simpa using hr

theorem inLoop_spec (py : Py) (a : Val) (ha : a ≠ .null) (l : List Val) (hs : Bool) :
    py.inLoop a l hs = some (
      if ∃ v ∈ l, py.cmp .eq a v = .int 1 then .int 1
      else if hs = true ∨ .null ∈ l then .null else .int 0) := by
  induction l generalizing hs with
  | nil => cases hs <;> simp [Py.inLoop]
  | cons v l ih =>
    rw [Py.inLoop]
    by_cases hv : v = .null
    · subst hv
      rw [if_pos rfl, ih]
      simp [C27_comparison_null]
    · rw [if_neg hv]
      obtain ⟨r, h1, h2⟩ := eq_two_valued py a v ha hv
      rw [h1]
      cases r with
      | true => simp [ofBool, truthy, h2]
      | false =>
        have hne : ¬ Val.null = v := fun e => hv e.symm
        have ht : ¬ truthy (ofBool false) = true := by decide
        simp only [if_neg ht, ih]
        simp [h2, ofBool, hne]

/-- **C29**: `x IN list` is TRUE iff some element equals `x`; otherwise NULL iff `x` or some element is NULL;
otherwise FALSE. -/
theorem C29_in (py : Py) (a : Val) (l : List Val) :
    (py.mysqlIn a l = .int 1 ↔ ∃ v ∈ l, py.cmp .eq a v = .int 1) ∧
    (py.mysqlIn a l = .null ↔ (¬ ∃ v ∈ l, py.cmp .eq a v = .int 1) ∧ (a = .null ∨ .null ∈ l)) ∧
    (py.mysqlIn a l = .int 0 ↔ (¬ ∃ v ∈ l, py.cmp .eq a v = .int 1) ∧ a ≠ .null ∧ .null ∉ l) := by
  by_cases ha : a = .null
  · subst ha
    simp [Py.mysqlIn, caught, C27_comparison_null]
  · unfold Py.mysqlIn
    rw [if_neg ha, inLoop_spec py a ha]
    simp only [caught, Option.getD_some, Bool.false_eq_true, false_or]
    by_cases h1 : ∃ v ∈ l, py.cmp .eq a v = .int 1
    · simp [h1]
    · rw [if_neg h1]
      by_cases h2 : Val.null ∈ l <;> simp [h1, h2, ha]

/-- **C29**: for a non-empty list, IN is the three-valued disjunction of the equalities. -/
theorem C29_in_is_disjunction (py : Py) (a : Val) (v : Val) (l : List Val) :
    py.mysqlIn a (v :: l) = (l.map fun w => py.cmp .eq a w).foldl or3 (py.cmp .eq a v) := by
  have hor : ∀ (l : List Val) (x : Val), (x = .null ∨ x = .int 0 ∨ x = .int 1) →
      (∀ w ∈ l, w = .null ∨ w = .int 0 ∨ w = .int 1) →
      l.foldl or3 x = if x = .int 1 ∨ .int 1 ∈ l then .int 1 else if x = .null ∨ .null ∈ l then .null else .int 0 := by
    intro l
    induction l with
    | nil => rintro x (rfl | rfl | rfl) _ <;> simp
    | cons w l ih =>
      intro x hx hw
      have hw0 := hw w (by simp)
      rw [List.foldl_cons, ih _ _ (fun u hu => hw u (by simp [hu]))]
      · rcases hx with rfl | rfl | rfl <;> rcases hw0 with rfl | rfl | rfl <;> simp [or3]
      · unfold or3; split
        · simp
        · split <;> simp
  have hval : ∀ w, py.cmp .eq a w = .null ∨ py.cmp .eq a w = .int 0 ∨ py.cmp .eq a w = .int 1 := by
    intro w
    by_cases ha : a = .null
    · subst ha; left; exact (C27_comparison_null py .eq w).1
    · by_cases hw : w = .null
      · subst hw; left; exact (C27_comparison_null py .eq a).2
      · obtain ⟨r, _, h⟩ := eq_two_valued py a w ha hw
        rw [h]; cases r <;> simp [ofBool]
  rw [hor _ _ (hval v) (by intro w hw; simp at hw; obtain ⟨u, _, rfl⟩ := hw; exact hval u)]
  obtain ⟨h1, h2, h3⟩ := C29_in py a (v :: l)
  have hnull : ∀ w, py.cmp .eq a w = .null ↔ a = .null ∨ w = .null := by
    intro w
    constructor
    · intro h
      by_cases ha : a = .null
      · exact Or.inl ha
      · right
        apply Classical.byContradiction
        intro hw
        obtain ⟨r, _, h'⟩ := eq_two_valued py a w ha hw
        rw [h] at h'; cases r <;> simp [ofBool] at h'
    · rintro (rfl | rfl)
      · exact (C27_comparison_null py .eq w).1
      · exact (C27_comparison_null py .eq a).2
  by_cases hex : ∃ w ∈ v :: l, py.cmp .eq a w = .int 1
  · rw [h1.mpr hex, if_pos]
    obtain ⟨w, hw, e⟩ := hex
    rcases List.mem_cons.mp hw with h | h
    · subst h; exact Or.inl e
    · right; rw [List.mem_map]; exact ⟨w, h, e⟩
  · have hno : ¬ (py.cmp .eq a v = .int 1 ∨ Val.int 1 ∈ l.map fun w => py.cmp .eq a w) := by
      rintro (h | h)
      · exact hex ⟨v, by simp, h⟩
      · obtain ⟨w, hw, e⟩ := List.mem_map.mp h; exact hex ⟨w, by simp [hw], e⟩
    rw [if_neg hno]
    by_cases hn : a = .null ∨ .null ∈ v :: l
    · rw [h2.mpr ⟨hex, hn⟩, if_pos]
      rcases hn with h | h
      · left; rw [hnull]; exact Or.inl h
      · rcases List.mem_cons.mp h with e | e
        · left; rw [hnull]; exact Or.inr e.symm
        · right; exact List.mem_map.mpr ⟨.null, e, (hnull .null).mpr (Or.inr rfl)⟩
    · have hn' : a ≠ .null ∧ .null ∉ v :: l := ⟨fun e => hn (Or.inl e), fun e => hn (Or.inr e)⟩
      rw [h3.mpr ⟨hex, hn'⟩, if_neg]
      rintro (h | h)
      · rcases (hnull v).mp h with e | e
        · exact hn'.1 e
        · exact hn'.2 (by simp [e])
      · obtain ⟨w, hw, e⟩ := List.mem_map.mp h
        rcases (hnull w).mp e with e | e
        · exact hn'.1 e
        · exact hn'.2 (by rw [← e]; simp [hw])

/-- **C29**, NOT IN: TRUE only if the list has no element equal to `x` and no NULL is involved. -/
theorem C29_not_in (py : Py) (a : Val) (l : List Val) :
    (mysqlNot (py.mysqlIn a l) = .int 1 ↔ (¬ ∃ v ∈ l, py.cmp .eq a v = .int 1) ∧ a ≠ .null ∧ .null ∉ l) ∧
    (mysqlNot (py.mysqlIn a l) = .null ↔ (¬ ∃ v ∈ l, py.cmp .eq a v = .int 1) ∧ (a = .null ∨ .null ∈ l)) := by
  obtain ⟨h1, h2, h3⟩ := C29_in py a l
  rw [← h2, ← h3]
  have hv : py.mysqlIn a l = .int 1 ∨ py.mysqlIn a l = .null ∨ py.mysqlIn a l = .int 0 := by
    rw [h1, h2, h3]
    by_cases hx : ∃ v ∈ l, py.cmp .eq a v = .int 1
    · exact Or.inl hx
    · by_cases hy : a = .null ∨ .null ∈ l
      · exact Or.inr (Or.inl ⟨hx, hy⟩)
      · exact Or.inr (Or.inr ⟨hx, fun e => hy (Or.inl e), fun e => hy (Or.inr e)⟩)
  rcases hv with h | h | h <;> rw [h] <;> simp [mysqlNot, truthy, ofBool]

/-- Non-vacuity. -/
example : plainPy.mysqlIn (.int 3) [.int 1, .null, .str "3".toList] = .int 1 ∧
    plainPy.mysqlIn (.int 2) [.int 1, .null] = .null ∧ plainPy.mysqlIn (.int 2) [.int 1, .int 4] = .int 0 := by
  decide +kernel

/-! ## C30 -/

/-- **C30**: addition, subtraction, multiplication of integers are exact; division gives the exact quotient; division
and modulo by zero give NULL. -/
theorem C30_integer_arithmetic (py : Py) (a b : Int) :
    py.ar .add (.int a) (.int b) = .int (a + b) ∧ py.ar .sub (.int a) (.int b) = .int (a - b) ∧
    py.ar .mul (.int a) (.int b) = .int (a * b) ∧
    (b ≠ 0 → py.ar .div (.int a) (.int b) = .flt ((a : Rat) / b)) ∧
    py.ar .div (.int a) (.int 0) = .null ∧ py.ar .mod (.int a) (.int 0) = .null := by
  refine ⟨rfl, rfl, rfl, fun hb => ?_, ?_, ?_⟩
  · have : ¬ ((b : Rat) = 0) := by
      rw [show (0 : Rat) = ((0 : Int) : Rat) from rfl, Rat.intCast_inj]; exact hb
    simp [Py.ar, Py.arRaw, Py.ensureNumber, Ar.apply, Num.toRat, this, Num.toVal, caught]
  · simp [Py.ar, Py.arRaw, Py.ensureNumber, Ar.apply, Num.toRat, caught]
  · simp [Py.ar, Py.arRaw, Py.ensureNumber, Ar.apply, caught]

theorem fmod_neg_bounds (a : Int) {b : Int} (h : b < 0) : b < a.fmod b ∧ a.fmod b ≤ 0 := by
  have h1 : 0 < -b := by omega
  have h2 := Int.fmod_lt_of_pos (-a) h1
  have h3 := Int.fmod_nonneg_of_pos (-a) h1
  rw [Int.neg_fmod_neg] at h2 h3
  omega

/-- **C30** (full statement: the remainder has the sign of the dividend; false, next theorem).  Proved: for `b ≠ 0`,
`a MOD b` is an integer `r` with `a = b*q + r` for an integer `q`, smaller than `b` in magnitude, with the sign
of `b`. -/
theorem C30_modulo (py : Py) (a b : Int) (hb : b ≠ 0) :
    ∃ q r : Int, py.ar .mod (.int a) (.int b) = .int r ∧ a = b * q + r ∧ r.natAbs < b.natAbs ∧
      (0 < b → 0 ≤ r) ∧ (b < 0 → r ≤ 0) := by
  refine ⟨a.fdiv b, a.fmod b, ?_, ?_, ?_, ?_, ?_⟩
  · simp [Py.ar, Py.arRaw, Py.ensureNumber, Ar.apply, hb, Num.toVal, caught]
  · have := Int.mul_fdiv_add_fmod a b; omega
  · rcases Int.lt_or_gt_of_ne hb with h | h
    · have h1 := fmod_neg_bounds a h
      omega
    · have h1 := Int.fmod_lt_of_pos a h
      have h2 := Int.fmod_nonneg_of_pos a h
      omega
  · intro h; exact Int.fmod_nonneg_of_pos a h
  · intro h; exact (fmod_neg_bounds a h).2

/-- **C90 is violated** for operands of different signs: `-7 MOD 3` is 2, SQL's is -1. -/
theorem C90_mod_sign_violated (py : Py) : py.ar .mod (.int (-7)) (.int 3) = .int 2 := rfl

/-! ## C51 -/

/-- **C51**: FLOOR and CEIL are the greatest integer not above and the least integer not below. -/
theorem C51_floor_ceil (py : Py) (q : Rat) :
    ∃ f c : Int, py.floor (.flt q) = .int f ∧ py.ceil (.flt q) = .int c ∧
      (∀ k : Int, (k : Rat) ≤ q ↔ k ≤ f) ∧ (∀ k : Int, q ≤ (k : Rat) ↔ c ≤ k) :=
  ⟨q.floor, q.ceil, rfl, rfl, fun _ => Rat.le_floor_iff.symm, fun _ => Rat.ceil_le_iff.symm⟩

/-- **C51** on integers, texts of integers and signs: FLOOR, CEIL and ROUND of an integer are the integer, ABS is its
magnitude, SIGN its sign. -/
theorem C51_integers (py : Py) (i : Int) (y : Option Nat) :
    py.floor (.int i) = .int i ∧ py.ceil (.int i) = .int i ∧ py.round (.int i) y = .int i ∧
    py.abs (.int i) = .int i.natAbs ∧ py.sign (.int i) = .int i.sign := by
  refine ⟨rfl, rfl, rfl, rfl, ?_⟩
  have e0 : ((i : Rat) = 0) ↔ i = 0 := by
    rw [show (0 : Rat) = ((0 : Int) : Rat) from rfl, Rat.intCast_inj]
  have e1 : ((i : Rat) < 0) ↔ i < 0 := by
    rw [show (0 : Rat) = ((0 : Int) : Rat) from rfl, Rat.intCast_lt_intCast]
  simp only [Py.sign, Py.unary, Py.ensureNumber, Num.toRat, caught, e0, e1, Option.map_some, Option.getD_some,
    reduceCtorEq, if_false]
  congr 1
  rcases Int.lt_trichotomy i 0 with h | h | h
  · rw [if_neg (by omega), if_pos h, Int.sign_eq_neg_one_of_neg h]
  · subst h; rfl
  · rw [if_neg (by omega), if_neg (by omega), Int.sign_eq_one_of_pos h]

theorem roundHalfEven_near (q : Rat) :
    q - 1 / 2 ≤ roundHalfEven q ∧ (roundHalfEven q : Rat) ≤ q + 1 / 2 := by
  have h1 : ((q.floor : Int) : Rat) ≤ q := Rat.floor_le q
  have hc : (((q.floor + 1 : Int)) : Rat) = (q.floor : Rat) + 1 := by push_cast; rfl
  have h2 : q < ((q.floor : Int) : Rat) + 1 := hc ▸ Rat.lt_floor_add_one q
  unfold roundHalfEven
  simp only
  split
  · constructor <;> grind
  · split
    · rw [hc]; constructor <;> grind
    · split
      · constructor <;> grind
      · rw [hc]; constructor <;> grind

/-- **C51** ROUND with an explicit number of digits: a multiple of `10^-d` at most half a unit of that digit away
from the argument. -/
theorem C51_round_explicit (py : Py) (q : Rat) (d : Nat) :
    ∃ k : Int, py.round (.flt q) (some d) = .flt (k / 10 ^ d) ∧
      q * 10 ^ d - 1 / 2 ≤ k ∧ (k : Rat) ≤ q * 10 ^ d + 1 / 2 :=
  ⟨roundHalfEven (q * 10 ^ d), rfl, roundHalfEven_near _⟩

/-- **C93 is violated** by the function behind ROUND with one argument: it keeps two decimals instead of giving the nearest integer (and
from SQL it is not even called like this: `C93_round_call_violated`). -/
theorem C93_round_default_violated (py : Py) : py.round (.flt (5 / 4)) none = .flt (5 / 4) := by
  have h : (roundTo (.flt (5 / 4)) 2).toVal = .flt (5 / 4) := by decide +kernel
  simpa [Py.round, Py.unary, Py.ensureNumber, caught] using h

end Verif.Props
