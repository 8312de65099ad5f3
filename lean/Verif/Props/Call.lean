import Verif.Model.Call
import Verif.Props.Scalar
/-! C140 (calls), C141 (registered functions), C142 (mathematical functions), and ROUND with one argument (C93). -/
namespace Verif.Props
open Verif.Val Verif.Call

section
variable {V : Type} (null : V)

/-- **C140**: a call that gives every parameter a value returns what the function returns, and NULL if the function raises; it never
ends the query. -/
theorem C140_call (f : Fn V) (args : List V) (h : args.length = f.params ∨ (f.rest = true ∧ f.params ≤ args.length)) :
    calculate null f args = .value ((f.body args).getD null) := by
  have hle : f.params ≤ args.length := by rcases h with h | h <;> omega
  have happ : f.apply args = f.body args := by
    unfold Fn.apply
    rw [if_neg, if_neg (by omega), Nat.sub_eq_zero_of_le hle]
    · simp
    · rintro ⟨h1, h2⟩
      rcases h with h | ⟨h, _⟩
      · omega
      · rw [h] at h2; cases h2
  unfold calculate
  split
  · next hf =>
    have heq : args.length = f.params := by
      rcases h with h | ⟨h, _⟩
      · exact h
      · simp [Fn.fast, h] at hf
    rw [if_neg (by omega), Nat.sub_eq_zero_of_le hle]
    simp [happ]
  · rw [happ]

/-- **C140**: no call with at most as many arguments as the function has parameters ends the query, and no call of a function with
local variables, with a list of arguments or with more than four parameters does. -/
theorem C140_never_ends_partial (f : Fn V) (args : List V)
    (h : args.length ≤ f.params ∨ f.rest = true ∨ 0 < f.locals ∨ 4 < f.params) : ∃ v, calculate null f args = .value v := by
  unfold calculate
  split
  · next hf =>
    simp only [Fn.fast, Bool.and_eq_true, Bool.not_eq_true', decide_eq_true_eq] at hf
    rcases h with h | h | h | h
    · rw [if_neg (by omega)]; exact ⟨_, rfl⟩
    · rw [hf.1.1] at h; cases h
    · omega
    · omega
  · exact ⟨_, rfl⟩

/-- **C140 is violated by too many arguments**: such a call of any other function ends the query. -/
theorem C140_too_many_violated (f : Fn V) (h1 : f.rest = false) (h2 : f.locals = 0) (h3 : f.params ≤ 4) (args : List V)
    (h : f.params < args.length) : calculate null f args = .raised := by
  unfold calculate
  rw [if_pos (by simp [Fn.fast, h1, h2, h3]), if_pos h]

/-- **C140**: an argument that is left out has its default, for functions with local variables, or with more than four parameters. -/
theorem C140_default_partial (f : Fn V) (h : 0 < f.locals ∨ 4 < f.params ∨ f.rest = true) (args : List V) (hl : args.length ≤ f.params)
    (hd : f.params ≤ args.length + f.defaults.length) :
    calculate null f args
      = .value ((f.body (args ++ f.defaults.drop (f.defaults.length - (f.params - args.length)))).getD null) := by
  have hf : f.fast = false := by
    simp only [Fn.fast, Bool.and_eq_false_iff, Bool.not_eq_false', decide_eq_false_iff_not]
    rcases h with h | h | h
    · exact Or.inl (Or.inr (by omega))
    · exact Or.inr (by omega)
    · exact Or.inl (Or.inl h)
  unfold calculate Fn.apply
  rw [hf, if_neg (by simp), if_neg (by rintro ⟨h, _⟩; omega), if_neg (by omega)]

/-- **C140 is violated by defaults**: in a call of any other function an argument that is left out is NULL, not its default. -/
theorem C140_default_violated (f : Fn V) (h1 : f.rest = false) (h2 : f.locals = 0) (h3 : f.params ≤ 4) (args : List V)
    (h : args.length ≤ f.params) :
    calculate null f args = .value ((f.body (args ++ List.replicate (f.params - args.length) null)).getD null) := by
  have hf : f.fast = true := by simp [Fn.fast, h1, h2, h3]
  have := C140_call null f (args ++ List.replicate (f.params - args.length) null) (Or.inl (by simp; omega))
  rw [← this]
  unfold calculate
  simp only [hf, if_true]
  rw [if_neg (by omega), if_neg (by simp; omega)]
  simp [show f.params - (args.length + (f.params - args.length)) = 0 by omega]

end

section
variable {V : Type} (null : V) (library : Str → List V → Outcome V)

theorem find_register (t : Table V) (name n : Str) (f : Fn V) :
    find (register name f t) n = if n = name then some f else find t n := by
  induction t with
  | nil =>
    simp only [register, find]
    by_cases h : n = name
    · simp [h]
    · simp [h, Ne.symm h]
  | cons x t ih =>
    obtain ⟨k, g⟩ := x
    simp only [register]
    split
    · next h =>
      subst h
      simp only [find]
      by_cases h : n = k
      · simp [h]
      · simp [h, Ne.symm h]
    · next h =>
      simp only [find, ih]
      by_cases hn : n = name
      · subst hn; simp [h]
      · simp [hn]

/-- Names with a meaning of their own. -/
def reservedNames : List String := ["get_value", "call_define", "jit", "add", "sub", "mul", "div", "mod"]

/-- **C141**: after `register_mysql_func(name, f)` a call of `name`, in any spelling, is a call of `f`, for names in small letters. -/
theorem C141_registered_partial (t : Table V) (name written : Str) (f : Fn V) (hn : ∀ s ∈ reservedNames, name ≠ s.toList)
    (hw : written.map Char.toLower = name) (args : List V) :
    run null library (register name f t) written args = calculate null f args := by
  have hf : find (register name f t) name = some f := by rw [find_register, if_pos rfl]
  have ht : target (register name f t) written = .mysql name := by
    unfold target
    simp only [hw]
    rw [if_neg, if_pos]
    · refine ⟨?_, by rw [hf]; rfl⟩
      simp only [List.mem_cons, List.not_mem_nil, or_false, not_or]
      exact ⟨hn "add" (by decide), hn "sub" (by decide), hn "mul" (by decide), hn "div" (by decide), hn "mod" (by decide)⟩
    · simp only [List.mem_cons, List.not_mem_nil, or_false, not_or]
      exact ⟨hn "get_value" (by decide), hn "call_define" (by decide), hn "jit" (by decide)⟩
  unfold run
  rw [ht]
  simp only [hf]

/-- **C141**: calls of other names do what they did. -/
theorem C141_others (t : Table V) (name written : Str) (f : Fn V) (hw : written.map Char.toLower ≠ name) (args : List V) :
    run null library (register name f t) written args = run null library t written args := by
  have hf : find (register name f t) (written.map Char.toLower) = find t (written.map Char.toLower) := by
    rw [find_register, if_neg hw]
  have ht : target (register name f t) written = target t written := by
    unfold target
    simp only [hf]
  unfold run
  rw [ht]
  cases hc : target t written with
  | special n => rfl
  | library n => rfl
  | mysql n =>
    have : n = written.map Char.toLower := by
      unfold target at hc
      simp only at hc
      split at hc
      · cases hc
      · split at hc <;> cases hc
        rfl
    subst this
    simp only [hf]

theorem toLower_idem (c : Char) : c.toLower.toLower = c.toLower := by
  unfold Char.toLower
  split
  · next h =>
    rw [dif_neg]
    have h1 := h.1
    have h2 := h.2
    simp only [UInt32.le_iff_toNat_le, ge_iff_le, UInt32.toNat_add] at *
    simp at *
    omega
  · rfl

/-- **C141 is violated by names with capitals** (and by the reserved names): what is registered under them is never called. -/
theorem C141_capitals_violated (t : Table V) (name : Str) (f : Fn V)
    (hn : name.map Char.toLower ≠ name ∨ ∃ s ∈ reservedNames, name = s.toList)
    (written : Str) (args : List V) :
    run null library (register name f t) written args = run null library t written args := by
  rcases hn with hn | ⟨s, hs, rfl⟩
  · refine C141_others null library t name written f (fun h => hn ?_) args
    rw [← h, List.map_map]
    exact List.map_congr_left fun c _ => toLower_idem c
  · by_cases hw : written.map Char.toLower = s.toList
    · have key : ∃ x : Target, (∀ t : Table V, target t written = x) ∧ ∀ n, x ≠ .mysql n := by
        unfold target
        simp only [hw]
        simp only [reservedNames, List.mem_cons, List.not_mem_nil, or_false] at hs
        rcases hs with rfl | rfl | rfl | rfl | rfl | rfl | rfl | rfl
        · exact ⟨.special _, fun t => if_pos (by decide), fun n h => by cases h⟩
        · exact ⟨.special _, fun t => if_pos (by decide), fun n h => by cases h⟩
        · exact ⟨.special _, fun t => if_pos (by decide), fun n h => by cases h⟩
        all_goals exact ⟨.library _, fun t => (if_neg (by decide)).trans (if_neg fun h => absurd h.1 (by decide)), fun n h => by cases h⟩
      obtain ⟨x, hx, hm⟩ := key
      unfold run
      rw [hx, hx]
      cases x with
      | mysql n => exact absurd rfl (hm n)
      | special n => rfl
      | library n => rfl
    · exact C141_others null library t s.toList written f hw args

end

section
variable (py : Py)

/-- **C142**: a mathematical function of one argument (SQRT, EXP, LN, SIN, …): NULL for NULL, for what is no number and outside the
domain of the function; else the value of the function at the number, also when it is given as text. -/
theorem C142_math1 (f : Num → Option Rat) (x : Val) :
    (x = .null → calculate .null (math1 py f) [x] = .value .null) ∧
    (py.ensureNumber x = none → calculate .null (math1 py f) [x] = .value .null) ∧
    (∀ n, py.ensureNumber x = some n → f n = none → calculate .null (math1 py f) [x] = .value .null) ∧
    (∀ n q, py.ensureNumber x = some n → f n = some q → calculate .null (math1 py f) [x] = .value (.flt q)) := by
  have hc : calculate Val.null (math1 py f) [x] = .value (((math1 py f).body [x]).getD .null) := C140_call Val.null _ _ (Or.inl rfl)
  rw [hc]
  refine ⟨?_, ?_, ?_, ?_⟩
  · rintro rfl; rfl
  · intro h
    by_cases hx : x = .null
    · subst hx; rfl
    · simp [math1, hx, h]
  · intro n h hf
    have hx : x ≠ .null := by rintro rfl; cases h
    simp [math1, hx, h, hf]
  · intro n q h hf
    have hx : x ≠ .null := by rintro rfl; cases h
    simp [math1, hx, h, hf]

/-- **C142**: POW: NULL when one of the arguments is NULL or no number and outside the domain; else the value of the function. -/
theorem C142_math2 (f : Num → Num → Option Rat) (x y : Val) :
    (x = .null ∨ y = .null → calculate .null (math2 py f) [x, y] = .value .null) ∧
    (py.ensureNumber x = none ∨ py.ensureNumber y = none → calculate .null (math2 py f) [x, y] = .value .null) ∧
    (∀ n m, py.ensureNumber x = some n → py.ensureNumber y = some m →
      calculate .null (math2 py f) [x, y] = .value (((f n m).map Val.flt).getD .null)) := by
  have hc : calculate Val.null (math2 py f) [x, y] = .value (((math2 py f).body [x, y]).getD .null) := C140_call Val.null _ _ (Or.inl rfl)
  rw [hc]
  refine ⟨?_, ?_, ?_⟩
  · intro h; simp [math2, h]
  · intro h
    by_cases hx : x = .null ∨ y = .null
    · simp [math2, hx]
    · simp only [math2, hx, if_false]
      rcases h with h | h
      · simp [h]
      · cases h2 : py.ensureNumber x <;> simp [h]
  · intro n m h1 h2
    have hx : ¬ (x = .null ∨ y = .null) := by
      rintro (rfl | rfl)
      · cases h1
      · cases h2
    simp [math2, hx, h1, h2]

/-- **C142**: LOG(x, b) is the logarithm of the number x to the base b, NULL for NULL, for no number, and outside the domain. -/
theorem C142_log (f : Num → Num → Option Rat) (x : Val) :
    (∀ b, calculate .null (logFn py f) [.null, b] = .value .null) ∧
    (∀ b : Int, calculate .null (logFn py f) [x, .int b]
      = .value (((py.ensureNumber x).bind fun n => (f n (.int b)).map Val.flt).getD .null)) := by
  have hc : ∀ x b, calculate Val.null (logFn py f) [x, b] = .value (((logFn py f).body [x, b]).getD .null) :=
    fun x b => C140_call Val.null _ _ (Or.inl rfl)
  refine ⟨fun b => by rw [hc]; rfl, fun b => ?_⟩
  rw [hc]
  by_cases hx : x = .null
  · subst hx; rfl
  · simp [logFn, hx]

/-- **C142 is violated by LOG with one argument**: it is NULL, for every argument, and not the logarithm to the default base. -/
theorem C142_log_default_violated (f : Num → Num → Option Rat) (x : Val) : calculate .null (logFn py f) [x] = .value .null := by
  rw [C140_default_violated .null (logFn py f) rfl rfl (Nat.le_succ_of_le (Nat.le_succ _)) [x] (Nat.le_succ 1)]
  show Outcome.value (((logFn py f).body [x, .null]).getD .null) = _
  by_cases hx : x = .null
  · subst hx; rfl
  · simp only [logFn, hx, if_false]
    cases py.ensureNumber x <;> rfl

/-- **C93 is violated by ROUND with one argument**: it is NULL, for every argument. -/
theorem C93_round_call_violated (other : Val → Val → Option Val) (x : Val) : calculate .null (roundFn py other) [x] = .value .null := by
  rw [C140_default_violated .null (roundFn py other) rfl rfl (Nat.le_succ_of_le (Nat.le_succ _)) [x] (Nat.le_succ 1)]
  show Outcome.value (((roundFn py other).body [x, .null]).getD .null) = _
  simp [roundFn]

/-- **C93**: ROUND(x, d) calls the function `C93_round_ties` is about. -/
theorem C93_round_call (other : Val → Val → Option Val) (x : Val) (d : Nat) :
    calculate .null (roundFn py other) [x, .int d] = .value (py.round x (some d)) := by
  rw [C140_call .null (roundFn py other) [x, .int d] (Or.inl rfl)]
  by_cases hx : x = .null
  · subst hx; rfl
  · simp [roundFn, hx]

end

/-- A function with a default and a local variable; one without local variables; the two ways of calling. -/
example : (⟨2, [7], false, 1, fun l => some l.sum⟩ : Fn Nat).fast = false ∧ (⟨2, [7], false, 0, fun l => some l.sum⟩ : Fn Nat).fast = true ∧
    calculate 0 (⟨2, [7], false, 1, fun l => some l.sum⟩ : Fn Nat) [1] = .value 8 ∧
    calculate 0 (⟨2, [7], false, 0, fun l => some l.sum⟩ : Fn Nat) [1] = .value 1 ∧
    calculate 0 (⟨1, [], true, 0, fun l => some l.sum⟩ : Fn Nat) [1, 2, 3] = .value 6 := by
  refine ⟨rfl, rfl, rfl, rfl, rfl⟩

/-- C141 on `Double` for a function registered as `double`, and as `Double`. -/
example (lib : Str → List Nat → Outcome Nat) :
    run 0 lib (register "double".toList ⟨1, [], false, 0, fun l => some (2 * l.sum)⟩ []) "Double".toList [4] = .value 8 ∧
    run 0 lib (register "Double".toList ⟨1, [], false, 0, fun l => some (2 * l.sum)⟩ []) "Double".toList [4] = lib "double".toList [4] := by
  constructor
  · rw [C141_registered_partial 0 lib [] "double".toList "Double".toList _ (by decide) (by decide)]
    rfl
  · rfl

end Verif.Props
