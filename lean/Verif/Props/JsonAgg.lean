import Verif.Model.Aggregate
import Verif.Spec.JsonAgg
import Verif.Props.Aggregate
import Verif.Props.AggregateLaws
/-! Property theorems C64: JSON_OBJECTAGG and JSON_ARRAYAGG. -/
namespace Verif.Props
open Verif.Val Verif.Agg Verif.JsonAggSpec

theorem dictSet_names (d : List (Str × Val)) (k : Str) (v : Val) :
    (dictSet d k v).map (·.1) = if k ∈ d.map (·.1) then d.map (·.1) else d.map (·.1) ++ [k] := by
  have hm : (d.map fun e => if e.1 = k then (k, v) else e).map (·.1) = d.map (·.1) := by
    rw [List.map_map]
    apply List.map_congr_left
    intro e _
    by_cases h : e.1 = k <;> simp [h]
  unfold dictSet
  by_cases h : k ∈ d.map (·.1)
  · rw [if_pos h, if_pos, hm]
    obtain ⟨e, he, hk⟩ := List.mem_map.mp h
    exact List.any_eq_true.mpr ⟨e, he, by simpa using hk⟩
  · rw [if_neg h, if_neg]
    · simp
    · intro h'
      obtain ⟨e, he, hk⟩ := List.any_eq_true.mp h'
      exact h (List.mem_map.mpr ⟨e, he, by simpa using hk⟩)

theorem dictSet_mem (d : List (Str × Val)) (k : Str) (v : Val) (k' : Str) (v' : Val) :
    (k', v') ∈ dictSet d k v ↔ (k' = k ∧ v' = v) ∨ (k' ≠ k ∧ (k', v') ∈ d) := by
  unfold dictSet
  split
  · rename_i h
    obtain ⟨e, he, hk⟩ := List.any_eq_true.mp h
    simp only [decide_eq_true_eq] at hk
    simp only [List.mem_map]
    constructor
    · rintro ⟨x, hx, hxe⟩
      by_cases hxk : x.1 = k
      · rw [if_pos hxk] at hxe
        injection hxe with h1 h2
        exact Or.inl ⟨h1.symm, h2.symm⟩
      · rw [if_neg hxk] at hxe
        subst hxe
        exact Or.inr ⟨hxk, hx⟩
    · rintro (⟨rfl, rfl⟩ | ⟨h1, h2⟩)
      · exact ⟨e, he, by rw [if_pos hk]⟩
      · exact ⟨_, h2, by rw [if_neg h1]⟩
  · rename_i h
    have hn : ∀ x ∈ d, x.1 ≠ k := by
      intro x hx hk
      exact h (List.any_eq_true.mpr ⟨x, hx, by simpa using hk⟩)
    simp only [List.mem_append, List.mem_singleton, Prod.mk.injEq]
    constructor
    · rintro (h1 | h1)
      · exact Or.inr ⟨hn _ h1, h1⟩
      · exact Or.inl h1
    · rintro (h1 | h1)
      · exact Or.inr h1
      · exact Or.inl h1.2

/-- Adding one more row keeps the object right. -/
theorem isObject_snoc {ps o : List (Str × Val)} (h : IsObject ps o) (k : Str) (v : Val) :
    IsObject (ps ++ [(k, v)]) (dictSet o k v) := by
  have names : ∀ a, a ∈ o.map (·.1) ↔ a ∈ ps.map (·.1) := by
    intro a
    constructor
    · intro ha
      obtain ⟨⟨k', v'⟩, he, rfl⟩ := List.mem_map.mp ha
      obtain ⟨b, c, e, _⟩ := (h.last k' v').mp he
      subst e
      simp
    · intro ha
      -- the last row with the name
      have : ∀ l : List (Str × Val), a ∈ l.map (·.1) →
          ∃ b v' c, l = b ++ (a, v') :: c ∧ a ∉ c.map (·.1) := by
        intro l
        induction l with
        | nil => simp
        | cons e l ih =>
          intro hl
          by_cases hin : a ∈ l.map (·.1)
          · obtain ⟨b, v', c, e1, e2⟩ := ih hin
            exact ⟨e :: b, v', c, by simp [e1], e2⟩
          · have : a = e.1 := by simpa [hin] using hl
            exact ⟨[], e.2, l, by simp [this], hin⟩
      obtain ⟨b, v', c, e1, e2⟩ := this ps ha
      exact List.mem_map.mpr ⟨_, (h.last a v').mpr ⟨b, c, e1, e2⟩, rfl⟩
  refine ⟨?_, ?_, ?_⟩
  · rw [dictSet_names]
    split
    · exact h.once
    · rename_i hk
      refine List.nodup_append.mpr ⟨h.once, by simp, ?_⟩
      intro a ha b hb hab
      simp only [List.mem_singleton] at hb
      subst hb; subst hab
      exact hk ha
  · rintro a b ⟨i, j, hij, hi, hj⟩
    rw [dictSet_names] at hi hj
    have old : (∃ i j : Nat, i < j ∧ (o.map (·.1))[i]? = some a ∧ (o.map (·.1))[j]? = some b) →
        ∃ i : Nat, ((ps ++ [(k, v)]).map (·.1))[i]? = some a ∧
          ∀ j : Nat, ((ps ++ [(k, v)]).map (·.1))[j]? = some b → i < j := by
      intro hex
      obtain ⟨i, hi, hlt⟩ := h.order a b hex
      refine ⟨i, ?_, ?_⟩
      · rw [List.map_append, List.getElem?_append_left]
        · exact hi
        · exact (List.getElem?_eq_some_iff.mp hi).1
      · intro j hj
        rw [List.map_append] at hj
        by_cases hjl : j < (ps.map (·.1)).length
        · rw [List.getElem?_append_left hjl] at hj
          exact hlt j hj
        · have := (List.getElem?_eq_some_iff.mp hi).1
          omega
    split at hi
    · rename_i hk
      rw [if_pos hk] at hj
      exact old ⟨i, j, hij, hi, hj⟩
    · rename_i hk
      rw [if_neg hk] at hj
      by_cases hjl : j < (o.map (·.1)).length
      · rw [List.getElem?_append_left hjl] at hj
        rw [List.getElem?_append_left (by omega)] at hi
        exact old ⟨i, j, hij, hi, hj⟩
      · have hjl' : j < (o.map (·.1) ++ [k]).length := (List.getElem?_eq_some_iff.mp hj).1
        have hje : j = (o.map (·.1)).length := by
          rw [List.length_append] at hjl'
          simp only [List.length_cons, List.length_nil] at hjl'
          omega
        rw [List.getElem?_append_right (by omega), hje] at hj
        simp only [Nat.sub_self, List.getElem?_cons_zero, Option.some.injEq] at hj
        subst hj
        rw [List.getElem?_append_left (by omega)] at hi
        have ha : a ∈ ps.map (·.1) := (names a).mp (List.mem_of_getElem? hi)
        obtain ⟨n, hn⟩ := List.getElem?_of_mem ha
        have hnl := (List.getElem?_eq_some_iff.mp hn).1
        refine ⟨n, by rw [List.map_append, List.getElem?_append_left hnl]; exact hn, ?_⟩
        intro m hm
        rw [List.map_append] at hm
        by_cases hml : m < (ps.map (·.1)).length
        · rw [List.getElem?_append_left hml] at hm
          exact absurd ((names k).mpr (List.mem_of_getElem? hm)) hk
        · omega
  · intro k' v'
    rw [dictSet_mem, h.last]
    constructor
    · rintro (⟨rfl, rfl⟩ | ⟨hne, b, c, e, hn⟩)
      · exact ⟨ps, [], rfl, by simp⟩
      · refine ⟨b, c ++ [(k, v)], by simp [e], ?_⟩
        simp only [List.map_append, List.mem_append, not_or]
        exact ⟨hn, by simpa using hne⟩
    · rintro ⟨b, c, e, hn⟩
      rcases List.eq_nil_or_concat c with rfl | ⟨c', x, rfl⟩
      · have := List.append_inj_right' e rfl
        simp only [List.cons.injEq, Prod.mk.injEq, and_true] at this
        exact Or.inl ⟨this.1.symm, this.2.symm⟩
      · rw [List.concat_eq_append] at e hn
        have e' : ps ++ [(k, v)] = (b ++ (k', v') :: c') ++ [x] := by simpa using e
        have e1 := List.append_inj_left' e' rfl
        have e2 := List.append_inj_right' e' rfl
        simp only [List.cons.injEq, and_true] at e2
        subst e2
        refine Or.inr ⟨?_, b, c', e1, ?_⟩
        · rintro rfl
          exact hn (by simp)
        · intro hc
          exact hn (by rw [List.map_append]; exact List.mem_append_left _ hc)

theorem objectagg_run (py : Py) (l : List (Val × Val)) (s : Option (List (Str × Val))) :
    (jsonObjectagg py).run s (l.map fun p => some [p.1, p.2]) =
      some (if l = [] then s else some (l.foldl (fun d p => dictSet d (Py.pyStr py p.1) p.2) (s.getD []))) := by
  induction l generalizing s with
  | nil => rfl
  | cons p l ih =>
    simp only [List.map_cons, Calc.run]
    have : (jsonObjectagg py).step s (some [p.1, p.2]) =
        some (some (dictSet (s.getD []) (Py.pyStr py p.1) p.2)) := rfl
    rw [this]
    simp only
    rw [ih]
    cases l <;> simp

/-- **C64** JSON_OBJECTAGG(k, v) over the rows of a group (taken in one batch) is the JSON object of the rows: one
member for each text of a key, in the order the keys first occur, with the value of the last row that has it.  No
row: NULL. -/
theorem C64_json_objectagg (py : Py) (l : List (Val × Val)) :
    ∃ s, (jsonObjectagg py).run none (l.map fun p => some [p.1, p.2]) = some s ∧
      match (jsonObjectagg py).final s with
      | none => l = []
      | some o => l ≠ [] ∧ IsObject (l.map fun p => (Py.pyStr py p.1, p.2)) o := by
  refine ⟨_, objectagg_run py l none, ?_⟩
  by_cases h : l = []
  · subst h; simp [jsonObjectagg]
  · rw [if_neg h]
    refine ⟨h, ?_⟩
    have : ∀ (l : List (Val × Val)) (ps o : List (Str × Val)), IsObject ps o →
        IsObject (ps ++ l.map fun p => (Py.pyStr py p.1, p.2))
          (l.foldl (fun d p => dictSet d (Py.pyStr py p.1) p.2) o) := by
      intro l
      induction l with
      | nil => intro ps o ho; simpa using ho
      | cons p l ih =>
        intro ps o ho
        have := ih _ _ (isObject_snoc ho (Py.pyStr py p.1) p.2)
        simpa using this
    have h0 : IsObject ([] : List (Str × Val)) [] := ⟨by simp, by simp, by simp⟩
    simpa using this l [] [] h0

/-- The text of a key: texts as they are, integers in decimal; NULL is the text `None` (**violation**: SQL refuses
NULL names), the Booleans `True` and `False`. -/
theorem C64_key_text (py : Py) :
    (∀ s, Py.pyStr py (.str s) = s) ∧ (∀ i, Py.pyStr py (.int i) = intText i) ∧
    Py.pyStr py .null = "None".toList ∧ Py.pyStr py (.bool true) = "True".toList ∧
    Py.pyStr py (.bool false) = "False".toList := by
  refine ⟨fun _ => rfl, fun _ => rfl, ?_, ?_, ?_⟩ <;> simp [Py.pyStr]

/-- **C108 is violated** by NULL keys: JSON_OBJECTAGG(NULL, 1) is {"None": 1} instead of an error. -/
theorem C108_null_key_violated (py : Py) :
    (jsonObjectagg py).run none [some [.null, .int 1]] = some (some [("None".toList, .int 1)]) := by
  have h : ∀ (a b : Str), a = b → some (some [(a, Val.int 1)]) = some (some [(b, Val.int 1)]) := by
    rintro _ _ rfl; rfl
  exact h (Py.pyStr py .null) _ (C64_key_text py).2.2.1

/-- **C64** JSON_ARRAYAGG over the rows of a group, however they are divided in two parts, is the list of its
values other than NULL, in row order; NULL if there are none. -/
theorem C64_json_arrayagg (l1 l2 : List Val) :
    ∃ s s1 s2, jsonArrayagg.run none (l1 ++ l2) = some s ∧ jsonArrayagg.run none l1 = some s1 ∧
      jsonArrayagg.run none l2 = some s2 ∧ jsonArrayagg.reduce s1 s2 = some s ∧
      jsonArrayagg.final s =
        if (l1 ++ l2).filter (· ≠ .null) = [] then none else some ((l1 ++ l2).filter (· ≠ .null)) := by
  have run : ∀ (l : List Val) (s : Option (List Val)), jsonArrayagg.run s l =
      some (if l.filter (· ≠ .null) = [] then s else some (s.getD [] ++ l.filter (· ≠ .null))) := by
    intro l
    induction l with
    | nil => intro s; rfl
    | cons v l ih =>
      intro s
      simp only [Calc.run]
      by_cases hv : v = .null
      · subst hv
        have : jsonArrayagg.step s .null = some s := rfl
        rw [this]
        simp only
        rw [ih, List.filter_cons_of_neg (by simp)]
      · have : jsonArrayagg.step s v = some (some (s.getD [] ++ [v])) := by
          cases v <;> first | exact absurd rfl hv | (cases s <;> rfl)
        rw [this]
        simp only
        rw [ih, List.filter_cons_of_pos (by simpa using hv)]
        split
        · rename_i h; rw [h, if_neg (by simp)]
        · rw [if_neg (by simp)]; simp
  refine ⟨_, _, _, run _ _, run _ _, run _ _, ?_, ?_⟩
  · rw [List.filter_append]
    by_cases h1 : l1.filter (· ≠ .null) = [] <;> by_cases h2 : l2.filter (· ≠ .null) = []
    · rw [if_pos h1, if_pos h2, if_pos (by rw [h1, h2]; rfl)]; rfl
    · rw [if_pos h1, if_neg h2, if_neg (by rw [h1]; simpa using h2), h1]; rfl
    · rw [if_neg h1, if_pos h2, if_neg (by rw [h2]; simpa using h1), h2]; simp [jsonArrayagg, reduceWith]
    · rw [if_neg h1, if_neg h2, if_neg (fun h => h1 (List.append_eq_nil_iff.mp h).1)]
      simp [jsonArrayagg, reduceWith]
  · split <;> simp [jsonArrayagg]

/-- **C108 is violated** by NULLs: SQL's JSON_ARRAYAGG keeps them. -/
theorem C108_arrayagg_null_violated :
    (jsonArrayagg.run none [.int 1, .null]).map jsonArrayagg.final = some (some [.int 1]) := by decide +kernel

/-- A group with a repeated key. -/
example : (jsonObjectagg plainPy).run none
      [some [.str "a".toList, .int 1], some [.int 2, .null], some [.str "a".toList, .int 3]] =
    some (some [("a".toList, .int 3), ("2".toList, .null)]) := by decide +kernel

end Verif.Props
