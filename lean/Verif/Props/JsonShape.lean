import Verif.Props.Json
/-! C39: JSON_DEPTH, JSON_LENGTH, JSON_KEYS, JSON_CONTAINS, JSON_CONTAINS_PATH. -/
namespace Verif.Props
open Verif.Val Verif.Json Verif.JsonSpec

/-! ### JSON_DEPTH -/

theorem depthL_ge (m : Nat) (l : List J) : m ≤ depthL m l := by
  induction l generalizing m with
  | nil => simp [depthL]
  | cons x l ih => rw [depthL]; exact Nat.le_trans (Nat.le_max_left _ _) (ih _)

theorem depthL_mem (m : Nat) (l : List J) (x : J) (h : x ∈ l) : depth x ≤ depthL m l := by
  induction l generalizing m with
  | nil => cases h
  | cons y l ih =>
    rw [depthL]
    rcases List.mem_cons.1 h with rfl | h
    · exact Nat.le_trans (Nat.le_max_right _ _) (depthL_ge _ _)
    · exact ih _ h

theorem depthL_attained (m : Nat) (l : List J) : depthL m l = m ∨ ∃ x ∈ l, depthL m l = depth x := by
  induction l generalizing m with
  | nil => exact Or.inl rfl
  | cons y l ih =>
    rw [depthL]
    rcases ih (max m (depth y)) with h | ⟨x, hx, h⟩
    · rcases Nat.le_total m (depth y) with h' | h'
      · exact Or.inr ⟨y, by simp, by rw [h, Nat.max_eq_right h']⟩
      · exact Or.inl (by rw [h, Nat.max_eq_left h'])
    · exact Or.inr ⟨x, by simp [hx], h⟩

theorem depthO_eq (m : Nat) (d : List (Str × J)) : depthO m d = depthL m (d.map (·.2)) := by
  induction d generalizing m with
  | nil => rfl
  | cons x d ih => obtain ⟨k, x⟩ := x; rw [depthO, List.map_cons, depthL, ih]

theorem depth_pos (j : J) : 1 ≤ depth j := by
  cases j with
  | arr l => cases l <;> simp [depth]
  | obj d => cases d with
    | nil => simp [depth]
    | cons x d => obtain ⟨k, x⟩ := x; simp [depth]
  | _ => simp [depth]

/-- The depth of a non-empty array is one plus the largest depth of its elements. -/
theorem depth_arr (l : List J) (h : l ≠ []) :
    (∀ x ∈ l, depth x + 1 ≤ depth (.arr l)) ∧ ∃ x ∈ l, depth (.arr l) = depth x + 1 := by
  cases l with
  | nil => exact absurd rfl h
  | cons y l =>
    rw [depth]
    constructor
    · intro x hx
      rcases List.mem_cons.1 hx with rfl | hx
      · exact Nat.succ_le_succ (depthL_ge _ _)
      · exact Nat.succ_le_succ (depthL_mem _ _ _ hx)
    · rcases depthL_attained (depth y) l with h | ⟨x, hx, h⟩
      · exact ⟨y, by simp, by rw [h]⟩
      · exact ⟨x, by simp [hx], by rw [h]⟩

theorem depth_obj (d : List (Str × J)) : depth (.obj d) = depth (.arr (d.map (·.2))) := by
  cases d with
  | nil => simp [depth]
  | cons x d => obtain ⟨k, x⟩ := x; rw [depth, List.map_cons, depth, depthO_eq]

theorem below_depth {j x : J} {n : Nat} (h : Below j n x) : n + 1 ≤ depth j := by
  induction h with
  | here j => exact depth_pos j
  | @elem l y n x hy _ ih =>
    have := (depth_arr l (by intro h; rw [h] at hy; cases hy)).1 y hy
    omega
  | @member d k y n x hy _ ih =>
    have hy' : y ∈ d.map (·.2) := List.mem_map.2 ⟨_, hy, rfl⟩
    have := (depth_arr (d.map (·.2)) (by intro h; rw [h] at hy'; cases hy')).1 y hy'
    rw [depth_obj]
    omega

theorem depth_attained (n : Nat) : ∀ j, depth j = n + 1 → ∃ x, Below j n x := by
  induction n with
  | zero => intro j _; exact ⟨j, .here j⟩
  | succ n ih =>
    intro j hj
    cases j with
    | arr l =>
      have hne : l ≠ [] := by rintro rfl; simp [depth] at hj
      obtain ⟨x, hx, e⟩ := (depth_arr l hne).2
      obtain ⟨z, hz⟩ := ih x (by omega)
      exact ⟨z, .elem hx hz⟩
    | obj d =>
      have hne : d.map (·.2) ≠ [] := by
        intro h
        rw [depth_obj, h] at hj
        simp [depth] at hj
      obtain ⟨x, hx, e⟩ := (depth_arr _ hne).2
      rw [← depth_obj] at e
      obtain ⟨z, hz⟩ := ih x (by omega)
      obtain ⟨⟨k, y⟩, hy, rfl⟩ := List.mem_map.1 hx
      exact ⟨z, .member hy hz⟩
    | _ => simp [depth] at hj

/-- **C39**, JSON_DEPTH is the number of levels of the document: something lies `depth - 1` levels below the root and nothing
lies deeper. -/
theorem C39_depth (j : J) : (∃ x, Below j (depth j - 1) x) ∧ ∀ n x, Below j n x → n < depth j := by
  have := depth_pos j
  exact ⟨depth_attained (depth j - 1) j (by omega), fun n x h => below_depth h⟩

/-- **C39**, recursively: one for scalars and empty containers, else one plus the maximum over the members. -/
theorem C39_depth_members (l : List J) (d : List (Str × J)) :
    (l ≠ [] → IsGreatest' (fun n => ∃ x ∈ l, n = depth x + 1) (depth (.arr l))) ∧
    (d ≠ [] → IsGreatest' (fun n => ∃ kx ∈ d, n = depth kx.2 + 1) (depth (.obj d))) := by
  constructor
  · intro h
    obtain ⟨h1, x, hx, h2⟩ := depth_arr l h
    exact ⟨⟨x, hx, h2⟩, fun n ⟨y, hy, e⟩ => e ▸ h1 y hy⟩
  · intro h
    obtain ⟨h1, x, hx, h2⟩ := depth_arr (d.map (·.2)) (by simpa using h)
    rw [← depth_obj] at h1 h2
    obtain ⟨kx, hkx, rfl⟩ := List.mem_map.1 hx
    exact ⟨⟨kx, hkx, h2⟩, fun n ⟨y, hy, e⟩ => e ▸ h1 y.2 (List.mem_map.2 ⟨y, hy, rfl⟩)⟩

/-- C39 on `{"a": [1, {"b": []}]}`: depth 4, reached by the empty array. -/
example : depth (.obj [(['a'], .arr [.int 1, .obj [(['b'], .arr [])]])]) = 4 := by decide +kernel

/-! ### JSON_LENGTH, JSON_KEYS -/

/-- **C39**, JSON_LENGTH of the value a path leads to: the number of its members; JSON_KEYS: the names of its members. -/
theorem C39_length (j : J) (p : List Leg) (hp : ∀ x ∈ p, PlainLeg x) (hs : NoStar p) :
    (∀ l, At j p (.arr l) → Json.length j (pathText p) = l.length) ∧
    (∀ d, At j p (.obj d) → Json.length j (pathText p) = d.length ∧ keys j (pathText p) = d.map (·.1)) := by
  have hne : pathText p ≠ [] := by simp [pathText]
  constructor
  · intro l h
    rw [Json.length, if_neg hne, C37_path_roundtrip p hp, get_at h hs]
  · intro d h
    rw [Json.length, keys, if_neg hne, C37_path_roundtrip p hp, get_at h hs]
    exact ⟨rfl, rfl⟩

/-- The same without a path. -/
theorem C39_length_root (l : List J) (d : List (Str × J)) :
    Json.length (.arr l) = l.length ∧ Json.length (.obj d) = d.length ∧ keys (.obj d) = d.map (·.1) := ⟨rfl, rfl, rfl⟩

/-- Scalars have length 1 in MySQL; here 0. -/
theorem C101_scalar_length_violated (j : J) (h : ∀ l, j ≠ .arr l) (h' : ∀ d, j ≠ .obj d) :
    Json.length j = 0 := by
  cases j <;> first | rfl | exact absurd rfl (h _) | exact absurd rfl (h' _)

/-! ### JSON_CONTAINS -/

theorem lookup_none {k : Str} {d : List (Str × J)} (h : k ∉ d.map (·.1)) : lookup k d = none := by
  induction d with
  | nil => rfl
  | cons y d ih =>
    simp only [List.map_cons, List.mem_cons, not_or] at h
    rw [lookup, if_neg (Ne.symm h.1), ih h.2]

theorem lookup_mem {k : Str} {x : J} {d : List (Str × J)} (hn : (d.map (·.1)).Nodup) (h : (k, x) ∈ d) :
    lookup k d = some x := by
  induction d with
  | nil => cases h
  | cons y d ih =>
    simp only [List.map_cons, List.nodup_cons] at hn
    rcases List.mem_cons.1 h with e | h
    · subst e; simp [lookup]
    · have : y.1 ≠ k := fun e => hn.1 (e ▸ List.mem_map.2 ⟨_, h, rfl⟩)
      rw [lookup, if_neg this, ih hn.2 h]

mutual
theorem jEq_refl : ∀ (j : J), Wf j → jEq j j = true
  | .null, _ => by simp [jEq]
  | .bool b, _ => by simp [jEq, numVal]
  | .int i, _ => by simp [jEq, numVal]
  | .flt q, _ => by simp [jEq, numVal]
  | .str s, _ => by simp [jEq]
  | .arr l, h => by rw [jEq]; rw [Wf] at h; exact jEqL_refl l h
  | .obj d, h => by
    rw [jEq]; rw [Wf] at h
    simp only [decide_true, Bool.true_and]
    exact jEqO_refl d d h.2 fun k x hx => lookup_mem h.1 hx
theorem jEqL_refl : ∀ (l : List J), WfL l → jEqL l l = true
  | [], _ => by simp [jEqL]
  | x :: l, h => by
    rw [WfL] at h
    rw [jEqL, jEq_refl x h.1, jEqL_refl l h.2]; rfl
theorem jEqO_refl : ∀ (d e : List (Str × J)), WfO d → (∀ k x, (k, x) ∈ d → lookup k e = some x) → jEqO d e = true
  | [], _, _, _ => by simp [jEqO]
  | (k, x) :: d, e, h, hl => by
    rw [WfO] at h
    rw [jEqO, hl k x (by simp)]
    simp only [jEq_refl x h.1, Bool.true_and]
    exact jEqO_refl d e h.2 fun k' x' hx => hl k' x' (by simp [hx])
end

/-- **C39**, JSON_CONTAINS is reflexive, at the root and at every path: whatever a path leads to is contained there. -/
theorem C39_contains_reflexive (j x : J) (p : List Leg) (hp : ∀ y ∈ p, PlainLeg y) (hs : NoStar p) (hj : j ≠ .null)
    (h : At j p x) (hw : Wf x) : contains j x (pathText p) = some true := by
  have e : contains j x (pathText p) = some (jEq (getP j (legs (pathText p))) x) := by
    cases j <;> first | exact absurd rfl hj | rfl
  rw [e, C37_path_roundtrip p hp, get_at h hs, jEq_refl x hw]

/-- Containment in MySQL's sense is more than equality: an array contains its elements.  Here it does not:
JSON_CONTAINS('[1,2]', '1', '$') = 0. -/
theorem C101_contains_element_violated : contains (.arr [.int 1, .int 2]) (.int 1) ['$'] = some false := by decide +kernel

/-- … and an object its parts: JSON_CONTAINS('{"a":1,"b":2}', '{"a":1}', '$') = 0. -/
theorem C101_contains_part_violated :
    contains (.obj [(['a'], .int 1), (['b'], .int 2)]) (.obj [(['a'], .int 1)]) ['$'] = some false := by decide +kernel

/-- C39 applies to `{"a":1,"b":[2,3]}` at `$.b`. -/
example : At (.obj [(['a'], .int 1), (['b'], .arr [.int 2, .int 3])]) [.name ['b']] (.arr [.int 2, .int 3]) ∧
    Wf (.arr [.int 2, .int 3]) := ⟨.member rfl (.here _), by simp [Wf, WfL]⟩

/-! ### JSON_CONTAINS_PATH -/

/-- The path leads to a value that is not `null`. -/
def Leads (j : J) (p : List Leg) : Prop := ∃ x, At j p x ∧ x ≠ .null

theorem present_iff (j : J) (p : List Leg) (hp : ∀ x ∈ p, PlainLeg x) (hs : NoStar p) (ht : NoTextIndex j p) :
    present (getP j (legs (pathText p))) = true ↔ Leads j p := by
  rw [C37_path_roundtrip p hp]
  constructor
  · intro h
    by_cases hx : ∃ x, At j p x
    · obtain ⟨x, hx⟩ := hx
      refine ⟨x, hx, ?_⟩
      rw [get_at hx hs] at h
      rintro rfl
      exact absurd h (by decide)
    · rw [get_not hs ht fun x h => hx ⟨x, h⟩] at h
      exact absurd h (by decide)
  · rintro ⟨x, hx, hne⟩
    rw [get_at hx hs]
    cases x <;> first | rfl | exact absurd rfl hne

/-- **C39**, JSON_CONTAINS_PATH: with 'all' whether every path leads to a value, with 'one' whether one does. -/
theorem C39_contains_path (j : J) (hj : j ≠ .null) (ps : List (List Leg)) (hp : ∀ p ∈ ps, ∀ x ∈ p, PlainLeg x)
    (hs : ∀ p ∈ ps, NoStar p) (ht : ∀ p ∈ ps, NoTextIndex j p) :
    (containsPath j true (ps.map pathText) = some true ↔ ∀ p ∈ ps, Leads j p) ∧
    (containsPath j false (ps.map pathText) = some true ↔ ∃ p ∈ ps, Leads j p) := by
  have e : ∀ all, containsPath j all (ps.map pathText) =
      some (if all then (ps.map pathText).all fun p => present (getP j (legs p))
        else (ps.map pathText).any fun p => present (getP j (legs p))) := by
    intro all
    cases ps with
    | nil => cases j <;> cases all <;> rfl
    | cons p ps => cases j <;> first | exact absurd rfl hj | rfl
  have key : ∀ p ∈ ps, (present (getP j (legs (pathText p))) = true ↔ Leads j p) :=
    fun p h => present_iff j p (hp p h) (hs p h) (ht p h)
  constructor
  · rw [e]
    simp only [if_true, Option.some.injEq, List.all_map, List.all_eq_true, Function.comp]
    exact forall₂_congr fun p h => key p h
  · rw [e]
    simp only [Bool.false_eq_true, if_false, Option.some.injEq, List.any_map, List.any_eq_true, Function.comp]
    exact exists_congr fun p => and_congr_right fun h => key p h

/-- A member whose value is JSON `null` is reported as missing (MySQL reports it): JSON_CONTAINS_PATH('{"a":null}','one','$.a')
= 0. -/
theorem C101_null_member_violated :
    containsPath (.obj [(['a'], .null)]) false [['$', '.', 'a']] = some false := by decide +kernel

/-- A document with members at `$.a` and `$.b[1]`, none at `$.c`. -/
example : Leads (.obj [(['a'], .int 1), (['b'], .arr [.int 2, .int 3])]) [.name ['b'], .idx 1] ∧
    ¬ Leads (.obj [(['a'], .int 1), (['b'], .arr [.int 2, .int 3])]) [.name ['c']] := by
  refine ⟨⟨.int 3, .member rfl (.elem rfl (.here _)), by simp⟩, ?_⟩
  rintro ⟨x, hx, _⟩
  cases hx with
  | member h _ => simp [entry] at h

end Verif.Props
