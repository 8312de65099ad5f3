import Verif.Props.StrSearch
import Verif.Props.Json
/-! More about functions: truth values as counts (C32), equality of numbers in FIELD (C33), LIKE on numbers (C36), wildcards in JSON
paths (C37). -/
namespace Verif.Props
open Verif.Val Verif.Json Verif.JsonSpec

section
variable (py : Py) {v : Val} {s : Str}

/-- **C32** TRUE and FALSE as counts are 1 and 0. -/
theorem C32_boolean_count (h : py.ensureStr v = some s) :
    Str.left py v (.bool true) = Str.left py v (.int 1) ∧ Str.left py v (.bool false) = Str.left py v (.int 0) ∧
    Str.left py v (.bool true) = .str (s.take 1) ∧ Str.left py v (.bool false) = .str [] := by
  have e : ∀ b : Bool, Str.left py v (.bool b) = Str.left py v (.int (if b then 1 else 0)) := by
    intro b; simp [Str.left, Str.leftRaw, Str.indexOrNone, Str.index]
  refine ⟨e true, e false, ?_, ?_⟩
  · rw [e true]; exact C32_left py h 1
  · rw [e false]; exact (C32_left py h 0).trans (by simp)

/-- **C33** Numbers are equal in FIELD when they have the same value, whatever their types; a number and a text never are. -/
theorem C33_equality_numbers (m : Int) (q q' : Rat) (b : Bool) (t : Str) :
    (Str.pyEq (.int m) (.flt q) = true ↔ (m : Rat) = q) ∧ (Str.pyEq (.flt q) (.flt q') = true ↔ q = q') ∧
    (Str.pyEq (.bool b) (.int m) = true ↔ m = if b then 1 else 0) ∧
    Str.pyEq (.int m) (.str t) = false ∧ Str.pyEq (.flt q) (.str t) = false := by
  have hb : (if b = true then (1 : Rat) else 0) = ((if b then 1 else 0 : Int) : Rat) := by cases b <;> rfl
  refine ⟨?_, ?_, ?_, ?_, ?_⟩
  · simp [Str.pyEq, pyOp, pyCmp, Cmp.holds, numeric, ratCmp_eq_iff]
  · simp [Str.pyEq, pyOp, pyCmp, Cmp.holds, numeric, ratCmp_eq_iff]
  · simp only [Str.pyEq, pyOp, pyCmp, Cmp.holds, numeric, Bool.or_eq_true, decide_eq_true_eq, Option.some.injEq]
    rw [show (Val.bool b = Val.int m) = False by simp, false_or]
    simp only [ratCmp_eq_iff, hb]
    constructor
    · intro h; exact (Rat.intCast_inj.mp h).symm
    · intro h; rw [h]
  · simp [Str.pyEq, pyOp, pyCmp, numeric]
  · simp [Str.pyEq, pyOp, pyCmp, numeric]

/-- **C36 is violated** by numbers: `123 LIKE '1%'` is 0 (SQL: 1), whatever the number and the pattern. -/
theorem C36_like_number_violated (same : Char → Char → Bool) (n : Int) (q : Rat) (b : Bool) (r : Str) :
    Str.like same (.int n) (.str r) = .int 0 ∧ Str.like same (.flt q) (.str r) = .int 0 ∧ Str.like same (.bool b) (.str r) = .int 0 := by
  simp [Str.like, Str.likeRaw, caught]

end

theorem getP_noStar (x : J) (p : List Leg) (hs : NoStar p) (ht : NoTextIndex x p) :
    (∀ y, At x p y → getP x p = y) ∧ ((∀ y, ¬ At x p y) → getP x p = .null) :=
  ⟨fun _ h => get_at h hs, fun h => get_not hs ht h⟩

/-- **C37** A path `$.*.p` over an array: the array of the values `p` leads to in its elements, without NULLs, in order. -/
theorem C37_wildcard_array (l : List J) (p : List Leg) (hne : p ≠ []) (hp : ∀ x ∈ p, PlainLeg x) (hs : NoStar p)
    (ht : ∀ x ∈ l, NoTextIndex x p) (f : J → Option J) (hf : ∀ x ∈ l, ∀ y, f x = some y ↔ At x p y ∧ y ≠ .null) :
    extract (.arr l) [pathText (.name ['*'] :: p)] = .arr (l.filterMap f) := by
  have hpl : ∀ x ∈ Leg.name ['*'] :: p, PlainLeg x := by
    intro x hx
    rcases List.mem_cons.mp hx with rfl | hx
    · exact ⟨by decide, by decide, by decide, by decide⟩
    · exact hp x hx
  have e : extract (.arr l) [pathText (.name ['*'] :: p)] = getP (.arr l) (.name ['*'] :: p) := by
    simp only [extract, C37_path_roundtrip _ hpl]
  rw [e, getP, if_pos rfl, if_neg hne]
  show J.arr _ = J.arr _
  congr 1
  clear e
  induction l with
  | nil => rfl
  | cons x l ih =>
    have ih := ih (fun y hy => ht y (by simp [hy])) (fun y hy => hf y (by simp [hy]))
    have hx := getP_noStar x p hs (ht x (by simp))
    have hfx := hf x (by simp)
    simp only [List.map_cons]
    by_cases hnull : getP x p = .null
    · have hfn : f x = none := by
        cases h : f x with
        | none => rfl
        | some y =>
          obtain ⟨h1, h2⟩ := (hfx y).mp h
          exact absurd ((hx.1 y h1).symm.trans hnull) h2
      rw [List.filterMap_cons_none hfn, List.filter_cons_of_neg (by rw [hnull]; simp), ih]
    · have hat : At x p (getP x p) := by
        apply Classical.byContradiction
        intro hno
        apply hnull
        apply hx.2
        intro y hy
        exact hno ((hx.1 y hy).symm ▸ hy)
      have hfs : f x = some (getP x p) := (hfx _).mpr ⟨hat, hnull⟩
      rw [List.filterMap_cons_some hfs, List.filter_cons_of_pos, ih]
      split
      · rename_i h; exact absurd h hnull
      · rfl

/-- **C37 is violated** by the path `$.*`: it is the document itself instead of the values of its members. -/
theorem C37_wildcard_violated (j : J) (hj : j ≠ .null) : extract j [pathText [.name ['*']]] = j := by
  have hpl : ∀ x ∈ [Leg.name ['*']], PlainLeg x := by
    intro x hx
    rw [List.mem_singleton.mp hx]
    exact ⟨by decide, by decide, by decide, by decide⟩
  have e : extract j [pathText [.name ['*']]] = getP j [.name ['*']] := by
    cases j <;> first | exact absurd rfl hj | (simp only [extract, C37_path_roundtrip _ hpl])
  rw [e]
  cases j <;> first | exact absurd rfl hj | simp [getP]

/-- The hypotheses are met: three objects, two of them with a member `a`. -/
example : extract (.arr [.obj [(['a'], .int 1)], .obj [(['b'], .int 2)], .obj [(['a'], .int 3)]])
    [pathText [.name ['*'], .name ['a']]] = .arr [.int 1, .int 3] := by
  rw [C37_wildcard_array _ [.name ['a']] (by simp) (by simp [PlainLeg]) (by simp [NoStar]) ?_
    (fun x => match x with | .obj [(k, y)] => if k = ['a'] then some y else none | _ => none) ?_]
  · rfl
  · intro x hx pre m post s hpre
    have := congrArg List.length hpre
    simp only [List.length_append, List.length_cons, List.length_nil] at this
    have : pre = [] := List.length_eq_zero_iff.mp (by omega)
    subst this
    simp at hpre
  · intro x hx y
    simp only [List.mem_cons, List.not_mem_nil, or_false] at hx
    rcases hx with rfl | rfl | rfl
    · constructor
      · intro h; simp at h; subst h; exact ⟨.member rfl (.here _), by simp⟩
      · rintro ⟨h, _⟩
        cases h with
        | member h1 h2 => cases h2; simpa [entry] using h1
    · constructor
      · intro h; simp at h
      · rintro ⟨h, _⟩
        cases h with
        | member h1 h2 => simp [entry] at h1
    · constructor
      · intro h; simp at h; subst h; exact ⟨.member rfl (.here _), by simp⟩
      · rintro ⟨h, _⟩
        cases h with
        | member h1 h2 => cases h2; simpa [entry] using h1

end Verif.Props
