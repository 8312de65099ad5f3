import Verif.Props.JsonShape
/-! JSON_CONTAINS compares with Python's `==`: exactly sameness of the two documents.  Names in quotes inside brackets. -/
namespace Verif.Props
open Verif.Val Verif.Json Verif.JsonSpec

theorem number_numVal (j : J) : numVal j = number j := by
  cases j with
  | bool b => cases b <;> rfl
  | _ => rfl

theorem same_refl_of_num {x y : J} : Same x y → (number x).isSome → number x = number y := by
  intro h hx
  cases h with
  | num h1 h2 => rw [h1, h2]
  | null => simp [number] at hx
  | str => simp [number] at hx
  | arr => simp [number] at hx
  | obj => simp [number] at hx

mutual
theorem jEq_iff : ∀ (a b : J), jEq a b = true ↔ Same a b
  | .null, b => by
    constructor
    · intro h; cases b <;> simp [jEq] at h; exact .null
    · intro h; cases h with
      | null => simp [jEq]
      | num h1 _ => simp [number] at h1
  | .str s, b => by
    constructor
    · intro h; cases b <;> simp [jEq] at h; subst h; exact .str _
    · intro h; cases h with
      | str => simp [jEq]
      | num h1 _ => simp [number] at h1
  | .bool x, b => by
    have e : jEq (.bool x) b = decide (numVal b = some (if x then 1 else 0)) := by rw [jEq]
    have hx : number (.bool x) = some (if x then 1 else 0) := by cases x <;> rfl
    rw [e, number_numVal, decide_eq_true_iff]
    exact ⟨fun h => .num hx h, fun h => (same_refl_of_num h (by rw [hx]; rfl)).symm.trans hx⟩
  | .int x, b => by
    have e : jEq (.int x) b = decide (numVal b = some (x : Rat)) := by rw [jEq]
    have hx : number (.int x) = some (x : Rat) := rfl
    rw [e, number_numVal, decide_eq_true_iff]
    exact ⟨fun h => .num hx h, fun h => (same_refl_of_num h (by rw [hx]; rfl)).symm.trans hx⟩
  | .flt x, b => by
    have e : jEq (.flt x) b = decide (numVal b = some x) := by rw [jEq]
    have hx : number (.flt x) = some x := rfl
    rw [e, number_numVal, decide_eq_true_iff]
    exact ⟨fun h => .num hx h, fun h => (same_refl_of_num h (by rw [hx]; rfl)).symm.trans hx⟩
  | .arr l, b => by
    constructor
    · intro h
      cases b <;> simp only [jEq] at h <;> try exact absurd h Bool.false_ne_true
      obtain ⟨h1, h2⟩ := (jEqL_iff l _).mp h
      exact .arr h1 h2
    · intro h; cases h with
      | arr h1 h2 => rw [jEq]; exact (jEqL_iff l _).mpr ⟨h1, h2⟩
      | num h1 _ => simp [number] at h1
  | .obj d, b => by
    constructor
    · intro h
      cases b <;> simp only [jEq] at h <;> try exact absurd h Bool.false_ne_true
      rw [Bool.and_eq_true, decide_eq_true_iff] at h
      obtain ⟨h0, h⟩ := h
      have := (jEqO_iff d _).mp h
      exact .obj h0 (fun k x hx => (this k x hx).1) (fun k x y hx => (this k x hx).2 y)
    · intro h; cases h with
      | obj h1 h2 h3 =>
        rw [jEq, Bool.and_eq_true, decide_eq_true_iff]
        exact ⟨h1, (jEqO_iff d _).mpr fun k x hx => ⟨h2 k x hx, fun y => h3 k x y hx⟩⟩
      | num h1 _ => simp [number] at h1
theorem jEqL_iff : ∀ (l l' : List J), jEqL l l' = true ↔
    (l.length = l'.length ∧ ∀ (i : Nat) x y, l[i]? = some x → l'[i]? = some y → Same x y)
  | [], [] => by simp [jEqL]
  | [], _ :: _ => by simp [jEqL]
  | _ :: _, [] => by simp [jEqL]
  | a :: l, b :: l' => by
    rw [jEqL, Bool.and_eq_true, jEq_iff a b, jEqL_iff l l']
    constructor
    · rintro ⟨h, h1, h2⟩
      refine ⟨by simp [h1], ?_⟩
      intro i x y hx hy
      cases i with
      | zero => simp at hx hy; subst hx; subst hy; exact h
      | succ i => exact h2 i x y (by simpa using hx) (by simpa using hy)
    · rintro ⟨h1, h2⟩
      exact ⟨h2 0 a b rfl rfl, by simpa using h1, fun i x y hx hy => h2 (i + 1) x y (by simpa using hx) (by simpa using hy)⟩
theorem jEqO_iff : ∀ (d d' : List (Str × J)), jEqO d d' = true ↔
    ∀ k x, (k, x) ∈ d → entry k d' ≠ none ∧ ∀ y, entry k d' = some y → Same x y
  | [], d' => by simp [jEqO]
  | (k, x) :: d, d' => by
    rw [jEqO, Bool.and_eq_true, jEqO_iff d d', lookup_entry]
    cases he : entry k d' with
    | none =>
      simp only [Bool.false_eq_true, false_and, false_iff]
      intro h
      exact (h k x (by simp)).1 he
    | some y =>
      simp only
      rw [jEq_iff x y]
      constructor
      · rintro ⟨h1, h2⟩ k' x' hm
        rcases List.mem_cons.mp hm with e | hm
        · cases e
          rw [he]
          exact ⟨by simp, fun z hz => by cases hz; exact h1⟩
        · exact h2 k' x' hm
      · intro h
        exact ⟨(h k x (by simp)).2 y he, fun k' x' hm => h k' x' (List.mem_cons_of_mem _ hm)⟩
end

/-- **C39**, JSON_CONTAINS exactly: for a path that leads to `x`, the answer is whether `x` and the candidate are the same
document - numbers by value, objects whatever the order of their members; for a path that leads nowhere (and does not index
a text), whether the candidate is `null`. -/
theorem C39_contains_same (j c : J) (p : List Leg) (hp : ∀ y ∈ p, PlainLeg y) (hs : NoStar p) (hj : j ≠ .null) :
    (∀ x, At j p x → (contains j c (pathText p) = some true ↔ Same x c)) ∧
    (NoTextIndex j p → (∀ x, ¬ At j p x) → (contains j c (pathText p) = some true ↔ c = .null)) := by
  have e : contains j c (pathText p) = some (jEq (getP j (legs (pathText p))) c) := by
    cases j <;> first | exact absurd rfl hj | rfl
  rw [e, C37_path_roundtrip p hp]
  constructor
  · intro x h
    rw [get_at h hs, ← jEq_iff]; simp
  · intro ht h
    rw [get_not hs ht h, Option.some_inj, jEq_iff]
    constructor
    · intro h
      cases h with
      | null => rfl
      | num h1 _ => simp [number] at h1
    · rintro rfl; exact .null

/-- C39 on `{"a": {"x": 1, "y": [true]}}` and the candidate `{"y": [1], "x": 1.0}` at `$.a`: the same document. -/
example : contains (.obj [(['a'], .obj [(['x'], .int 1), (['y'], .arr [.bool true])])])
    (.obj [(['y'], .arr [.int 1]), (['x'], .flt 1)]) (pathText [.name ['a']]) = some true := by decide +kernel
/-- and `{"y": [2], "x": 1.0}` is not. -/
example : contains (.obj [(['a'], .obj [(['x'], .int 1), (['y'], .arr [.bool true])])])
    (.obj [(['y'], .arr [.int 2]), (['x'], .flt 1)]) (pathText [.name ['a']]) = some false := by decide +kernel

/-- **C37**, quoted names: `$["k"]` leads to the member named `k`, whatever characters other than `]` are in the name. -/
theorem C37_quoted_name (d : List (Str × J)) (k : Str) (h : ']' ∉ k) (hk : k ≠ ['*']) (x : J) (hx : entry k d = some x) :
    extract (.obj d) ['$' :: '[' :: '"' :: (k ++ ['"', ']'])] = x := by
  have hq : (['"'] ++ k ++ ['"']) = '"' :: (k ++ ['"']) := by simp
  have hb : bracket ('"' :: (k ++ ['"'])) = .name k := by
    have hd : allDigits ('"' :: (k ++ ['"'])) = false := by simp [allDigits, isDigit]
    rw [bracket, hd, if_neg (by simp), if_pos]
    · simp
    · refine ⟨rfl, ?_⟩
      rw [← hq, List.getLast?_append]; rfl
  have hn : ']' ∉ '"' :: (k ++ ['"']) := by simp [h]
  have hl : legs ('$' :: '[' :: '"' :: (k ++ ['"', ']'])) = [.name k] := by
    have e : dropRoot ('$' :: '[' :: '"' :: (k ++ ['"', ']'])) = [] ++ '[' :: (('"' :: (k ++ ['"'])) ++ ']' :: []) := by
      simp [dropRoot]
    rw [legs, e, parse_bracket [] _ [] (by simp) (by simp) (by simp) hn, hb, if_pos rfl]
    simp [stripDots, parsePath]
  rw [extract, hl]
  · rw [getP, if_neg hk]; simp only [lookup_entry, hx]; rw [getP]
  · simp

/-- **C37**: a quote on one side only belongs to the name. -/
theorem C37_half_quoted (d : List (Str × J)) (k : Str) (h : ']' ∉ k) (hl : k.getLast? ≠ some '"') (hk : k ≠ []) (x : J)
    (hx : entry ('"' :: k) d = some x) : extract (.obj d) ['$' :: '[' :: '"' :: (k ++ [']'])] = x := by
  have hb : bracket ('"' :: k) = .name ('"' :: k) := by
    have hd : allDigits ('"' :: k) = false := by simp [allDigits, isDigit]
    rw [bracket, hd, if_neg (by simp), if_neg]
    rintro ⟨-, h2⟩
    cases k with
    | nil => exact hk rfl
    | cons c k => exact hl (by rw [← h2]; simp)
  have hn : ']' ∉ '"' :: k := by simp [h]
  have hl : legs ('$' :: '[' :: '"' :: (k ++ [']'])) = [.name ('"' :: k)] := by
    have e : dropRoot ('$' :: '[' :: '"' :: (k ++ [']'])) = [] ++ '[' :: (('"' :: k) ++ ']' :: []) := by
      simp [dropRoot]
    rw [legs, e, parse_bracket [] _ [] (by simp) (by simp) (by simp) hn, hb, if_pos rfl]
    simp [stripDots, parsePath]
  rw [extract, hl]
  · rw [getP, if_neg (by simp)]; simp only [lookup_entry, hx]; rw [getP]
  · simp

/-- `$["a b.c"]` in a concrete object. -/
example : extract (.obj [("a b.c".toList, .int 7)]) ["$[\"a b.c\"]".toList] = .int 7 :=
  C37_quoted_name [("a b.c".toList, .int 7)] "a b.c".toList (by decide) (by decide) (.int 7) rfl

end Verif.Props
