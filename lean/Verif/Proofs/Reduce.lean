import Verif.Model.Reduce
import Verif.Spec.Group
namespace Verif.Reduce
open Verif.Agg Verif.GroupSpec

variable {κ α S : Type} [DecidableEq κ]

theorem mem_firsts (l : List κ) (k : κ) : k ∈ firsts l ↔ k ∈ l := by
  induction l with
  | nil => simp [firsts]
  | cons a l ih =>
    simp only [firsts, List.mem_cons, List.mem_filter, ih, decide_eq_true_eq]
    by_cases h : k = a <;> simp [h]

theorem nodup_firsts (l : List κ) : (firsts l).Nodup := by
  induction l with
  | nil => simp [firsts]
  | cons a l ih =>
    simp only [firsts, List.nodup_cons]
    exact ⟨by simp, ih.filter _⟩

theorem firsts_append (a b : List κ) : firsts (a ++ b) = firsts a ++ (firsts b).filter (· ∉ a) := by
  induction a with
  | nil => simp only [List.nil_append, firsts]; symm; rw [List.filter_eq_self]; simp
  | cons x a ih =>
    simp only [List.cons_append, firsts, ih, List.filter_append, List.filter_filter]
    congr 2
    apply List.filter_congr
    intro k _
    by_cases h : k = x <;> simp [h]

theorem firsts_snoc (a : List κ) (k : κ) : firsts (a ++ [k]) = if k ∈ a then firsts a else firsts a ++ [k] := by
  rw [firsts_append]
  by_cases h : k ∈ a <;> simp [firsts, h]

theorem firsts_nodup {l : List κ} (h : l.Nodup) : firsts l = l := by
  induction l with
  | nil => rfl
  | cons a l ih =>
    rw [List.nodup_cons] at h
    simp only [firsts, ih h.2]
    congr 1
    rw [List.filter_eq_self]
    intro x hx
    simp only [decide_eq_true_eq]
    rintro rfl; exact h.1 hx

theorem firsts_firsts_append (a b : List κ) (a' b' : List κ) (ha : firsts a = firsts a') (hb : firsts b = firsts b') :
    firsts (a ++ b) = firsts (a' ++ b') := by
  rw [firsts_append, firsts_append, ha, hb]
  congr 1
  apply List.filter_congr
  intro k _
  have : k ∈ a ↔ k ∈ a' := by rw [← mem_firsts a, ← mem_firsts a', ha]
  by_cases h : k ∈ a
  · simp [h, this.mp h]
  · have h' : k ∉ a' := fun e => h (this.mpr e)
    simp [h, h']

/-- The values of a key in a table. -/
theorem group_append (k : κ) (a b : List (κ × α)) : group k (a ++ b) = group k a ++ group k b := by
  simp [group]

theorem upsert_keys (init : S) (f : S → S) (k : κ) (t : List (κ × S)) :
    (upsert init f k t).map (·.1) = if k ∈ t.map (·.1) then t.map (·.1) else t.map (·.1) ++ [k] := by
  induction t with
  | nil => simp [upsert]
  | cons e t ih =>
    obtain ⟨k', s⟩ := e
    simp only [upsert]
    by_cases h : k' = k
    · subst h; simp
    · have h' : k ≠ k' := fun e => h e.symm
      simp only [h, if_false, List.map_cons, ih, List.mem_cons, h', false_or]
      split <;> simp

theorem upsert_group (init : S) (f : S → S) (k : κ) (t : List (κ × S)) (hn : (t.map (·.1)).Nodup) (j : κ) :
    group j (upsert init f k t) =
      if j = k then [f ((group k t).headD init)] else group j t := by
  induction t with
  | nil => by_cases h : j = k <;> simp [upsert, group, h]; exact fun e => h e.symm
  | cons e t ih =>
    obtain ⟨k', s⟩ := e
    simp only [List.map_cons, List.nodup_cons] at hn
    simp only [upsert]
    by_cases h : k' = k
    · subst h
      have hg : group k' t = [] := by
        simp only [group, List.map_eq_nil_iff, List.filter_eq_nil_iff, decide_eq_true_eq]
        intro a ha e
        exact hn.1 (List.mem_map.mpr ⟨a, ha, e⟩)
      by_cases hj : j = k'
      · subst hj
        simp only [if_true]
        have : group j ((j, f s) :: t) = f s :: group j t := by simp [group]
        have h2 : group j ((j, s) :: t) = s :: group j t := by simp [group]
        rw [this, h2, hg]; rfl
      · have hj' : ¬ k' = j := fun e => hj e.symm
        simp [hj, group, hj']
    · rw [if_neg h]
      have e1 : group j ((k', s) :: upsert init f k t) = if k' = j then s :: group j (upsert init f k t) else group j (upsert init f k t) := by
        by_cases h3 : k' = j <;> simp [group, h3]
      have e2 : ∀ i, group i ((k', s) :: t) = if k' = i then s :: group i t else group i t := by
        intro i; by_cases h3 : k' = i <;> simp [group, h3]
      rw [e1, ih hn.2, e2 j, e2 k, if_neg h]
      by_cases h3 : k' = j
      · subst h3; simp [h]
      · simp [h3]

/-- The table obtained by upserting a list of items with the combination `c`. -/
def tableOf {β : Type} (init : S) (c : S → β → S) (l : List (κ × β)) : List (κ × S) :=
  l.foldl (fun t r => upsert init (c · r.2) r.1 t) []

theorem tableOf_snoc {β : Type} (init : S) (c : S → β → S) (l : List (κ × β)) (r : κ × β) :
    tableOf init c (l ++ [r]) = upsert init (c · r.2) r.1 (tableOf init c l) := by
  simp [tableOf]

theorem tableOf_spec {β : Type} (init : S) (c : S → β → S) (l : List (κ × β)) :
    (tableOf init c l).map (·.1) = firsts (l.map (·.1)) ∧
    ∀ k, group k (tableOf init c l) = if k ∈ l.map (·.1) then [(group k l).foldl c init] else [] := by
  suffices ∀ (m : List (κ × β)) , ∀ l, l = m.reverse →
      ((tableOf init c l).map (·.1) = firsts (l.map (·.1)) ∧
       ∀ k, group k (tableOf init c l) = if k ∈ l.map (·.1) then [(group k l).foldl c init] else []) from
    this l.reverse l (by simp)
  intro m
  induction m with
  | nil => rintro l rfl; simp [tableOf, firsts, group]
  | cons r m ih =>
    rintro l rfl
    obtain ⟨h1, h2⟩ := ih m.reverse rfl
    rw [List.reverse_cons, tableOf_snoc]
    generalize m.reverse = l at h1 h2
    constructor
    · rw [upsert_keys, h1]
      simp only [mem_firsts, List.map_append, List.map_cons, List.map_nil]
      rw [firsts_snoc]
    · intro k
      rw [upsert_group _ _ _ _ (by rw [h1]; exact nodup_firsts _), h2, h2]
      simp only [List.map_append, List.map_cons, List.map_nil, List.mem_append, List.mem_singleton, group_append]
      by_cases hk : k = r.1
      · subst hk
        have hg : group r.1 [r] = [r.2] := by simp [group]
        by_cases hm : r.1 ∈ l.map (·.1)
        · simp [hm, hg]
        · have hnil : group r.1 l = [] := by
            simp only [group, List.map_eq_nil_iff, List.filter_eq_nil_iff, decide_eq_true_eq]
            intro a ha e
            exact hm (List.mem_map.mpr ⟨a, ha, e⟩)
          simp [hm, hg, hnil]
      · have hg : group k [r] = [] := by
          have : ¬ r.1 = k := fun e => hk e.symm
          simp [group, this]
        simp only [hk, if_false, hg, List.append_nil, or_false]

/-- A table with distinct keys is determined by its keys and groups. -/
theorem table_ext (t : List (κ × S)) (hn : (t.map (·.1)).Nodup) (f : κ → S)
    (h : ∀ k ∈ t.map (·.1), group k t = [f k]) : t = (t.map (·.1)).map fun k => (k, f k) := by
  induction t with
  | nil => rfl
  | cons e t ih =>
    obtain ⟨k, s⟩ := e
    simp only [List.map_cons, List.nodup_cons] at hn ⊢
    have hk := h k (by simp)
    have hnil : group k t = [] := by
      simp only [group, List.map_eq_nil_iff, List.filter_eq_nil_iff, decide_eq_true_eq]
      intro a ha e
      exact hn.1 (List.mem_map.mpr ⟨a, ha, e⟩)
    have h0 : group k ((k, s) :: t) = s :: group k t := by simp [group]
    rw [h0, hnil] at hk
    simp only [List.cons.injEq, and_true] at hk
    rw [hk]
    congr 1
    apply ih hn.2
    intro j hj
    have hne : ¬ k = j := by rintro rfl; exact hn.1 hj
    have := h j (by simp only [List.map_cons, List.mem_cons]; exact Or.inr hj)
    simpa [group, hne] using this

/-- The law the aggregates must satisfy on the values that occur. -/
def Fold.Law (A : Fold α S) (good : α → Prop) : Prop :=
  ∀ l1 l2 : List α, (∀ v ∈ l1, good v) → (∀ v ∈ l2, good v) →
    A.red (l1.foldl A.step A.init) (l2.foldl A.step A.init) = (l1 ++ l2).foldl A.step A.init

/-- The invariant of the collection after the rows `R`. -/
structure Inv (A : Fold α S) (R : List (κ × α)) (st : St κ S) : Prop where
  keys : firsts (st.coll.map (·.1)) = firsts (R.map (·.1))
  vals : ∀ k, (group k st.coll).foldl A.red A.init = (group k R).foldl A.step A.init
  uniq : st.batchCount ≤ 1 → (st.coll.map (·.1)).Nodup
  zero : st.batchCount = 0 → st.coll = []
  fixed : ∀ k, ∀ s ∈ group k st.coll, A.red A.init s = s

theorem inv_reduce {A : Fold α S} {R : List (κ × α)} {st : St κ S} (h : Inv A R st)
    (hsingle : ∀ k, A.red A.init ((group k R).foldl A.step A.init) = (group k R).foldl A.step A.init) :
    Inv A R { count := 0, batchCount := 1, coll := runReduce A st.coll } := by
  obtain ⟨h1, h2⟩ := tableOf_spec A.init A.red st.coll
  have e : runReduce A st.coll = tableOf A.init A.red st.coll := rfl
  refine ⟨?_, ?_, ?_, by simp, ?fx⟩
  case fx =>
    intro k s hs
    simp only [e, h2 k] at hs
    split at hs
    · simp only [List.mem_singleton] at hs
      rw [hs, h.vals k, hsingle]
    · simp at hs
  · simp only [e, h1]
    rw [firsts_nodup (nodup_firsts _), h.keys]
  · intro k
    simp only [e, h2 k]
    by_cases hk : k ∈ st.coll.map (·.1)
    · simp only [hk, if_true, List.foldl_cons, List.foldl_nil]
      rw [h.vals k, hsingle]
    · have hk' : k ∉ R.map (·.1) := by
        rw [← mem_firsts, ← h.keys, mem_firsts]; exact hk
      have hg : group k R = [] := by
        simp only [group, List.map_eq_nil_iff, List.filter_eq_nil_iff, decide_eq_true_eq]
        intro a ha e
        exact hk' (List.mem_map.mpr ⟨a, ha, e⟩)
      simp [hk, hg]
  · intro _; simp only [e, h1]; exact nodup_firsts _

theorem good_group {good : α → Prop} {R : List (κ × α)} (h : ∀ r ∈ R, good r.2) (k : κ) :
    ∀ v ∈ group k R, good v := by
  intro v hv
  simp only [group, List.mem_map, List.mem_filter] at hv
  obtain ⟨r, ⟨hr, _⟩, rfl⟩ := hv
  exact h r hr

theorem inv_append {A : Fold α S} {good : α → Prop} (law : A.Law good) {R B : List (κ × α)} {st : St κ S}
    (h : Inv A R st) (hR : ∀ r ∈ R, good r.2) (hB : ∀ r ∈ B, good r.2) (c : Nat) (hne : aggBatch A B ≠ []) :
    Inv A (R ++ B) { count := c, batchCount := st.batchCount + 1, coll := st.coll ++ aggBatch A B } := by
  obtain ⟨h1, h2⟩ := tableOf_spec A.init A.step B
  have e : aggBatch A B = tableOf A.init A.step B := rfl
  refine ⟨?_, ?_, ?_, by simp, ?fx⟩
  case fx =>
    intro k s hs
    simp only [group_append, List.mem_append] at hs
    rcases hs with hs | hs
    · exact h.fixed k s hs
    · rw [e, h2 k] at hs
      split at hs
      · simp only [List.mem_singleton] at hs
        rw [hs]; exact law [] _ (by simp) (good_group hB k)
      · simp at hs
  · simp only [List.map_append, e, h1]
    apply firsts_firsts_append
    · exact h.keys
    · rw [firsts_nodup (nodup_firsts _)]
  · intro k
    simp only [group_append, e, h2 k, List.foldl_append, h.vals k]
    by_cases hk : k ∈ B.map (·.1)
    · simp only [hk, if_true, List.foldl_cons, List.foldl_nil]
      rw [law _ _ (good_group hR k) (good_group hB k), List.foldl_append]
    · have hg : group k B = [] := by
        simp only [group, List.map_eq_nil_iff, List.filter_eq_nil_iff, decide_eq_true_eq]
        intro a ha e
        exact hk (List.mem_map.mpr ⟨a, ha, e⟩)
      simp [hk, hg]
  · intro hb
    have hz : st.batchCount = 0 := by simp at hb; omega
    rw [h.zero hz]
    simp only [List.nil_append, e, h1]
    exact nodup_firsts _

theorem inv_empty {A : Fold α S} {R B : List (κ × α)} {st : St κ S}
    (h : Inv A R st) (hne : aggBatch A B = []) : Inv A (R ++ B) st := by
  obtain ⟨h1, _⟩ := tableOf_spec A.init A.step B
  have e : aggBatch A B = tableOf A.init A.step B := rfl
  rw [← e, hne] at h1
  have hB : B = [] := by
    cases B with
    | nil => rfl
    | cons r B => simp [firsts] at h1
  subst hB; simpa using h

theorem inv_step {A : Fold α S} {good : α → Prop} (law : A.Law good) (batch : Nat) {R : List (κ × α)} {st : St κ S}
    (ev : List (κ × α) × Bool) (h : Inv A R st) (hR : ∀ r ∈ R, good r.2) (hB : ∀ r ∈ ev.1, good r.2) :
    Inv A (R ++ ev.1) (batchStep A batch st ev) := by
  obtain ⟨B, lim⟩ := ev
  unfold batchStep outputed
  simp only
  by_cases hne : aggBatch A B = []
  · have := inv_empty h hne
    rw [hne]
    simp only [List.length_nil, if_true, List.append_nil]
    cases st; exact this
  · rw [if_neg (by simpa using hne)]
    have hall : ∀ r ∈ R ++ B, good r.2 := by
      intro r hr; rcases List.mem_append.mp hr with h | h
      · exact hR r h
      · exact hB r h
    have hs : ∀ k, A.red A.init ((group k (R ++ B)).foldl A.step A.init) = (group k (R ++ B)).foldl A.step A.init :=
      fun k => law [] _ (by simp) (good_group hall k)
    have hap := fun c => inv_append law h hR hB c hne
    split
    · exact inv_reduce (hap 0) hs
    · split
      · exact inv_reduce (hap 0) hs
      · exact hap _

theorem inv_all {A : Fold α S} {good : α → Prop} (law : A.Law good) (batch : Nat)
    (evs : List (List (κ × α) × Bool)) (R : List (κ × α)) (st : St κ S) (h : Inv A R st)
    (hR : ∀ r ∈ R, good r.2) (hE : ∀ ev ∈ evs, ∀ r ∈ ev.1, good r.2) :
    Inv A (R ++ evs.flatMap (·.1)) (evs.foldl (batchStep A batch) st) := by
  induction evs generalizing R st with
  | nil => simpa using h
  | cons ev evs ih =>
    simp only [List.foldl_cons, List.flatMap_cons]
    rw [← List.append_assoc]
    apply ih
    · exact inv_step law batch ev h hR (hE ev (by simp))
    · intro r hr
      rcases List.mem_append.mp hr with h | h
      · exact hR r h
      · exact hE ev (by simp) r h
    · intro e he; exact hE e (by simp [he])

theorem query_spec {A : Fold α S} {good : α → Prop} (law : A.Law good) (batch : Nat)
    (evs : List (List (κ × α) × Bool)) (hE : ∀ ev ∈ evs, ∀ r ∈ ev.1, good r.2) :
    query A batch evs =
      (groupBy (evs.flatMap (·.1))).map fun g => (g.1, g.2.foldl A.step A.init) := by
  have h0 : Inv A ([] : List (κ × α)) ({} : St κ S) := ⟨rfl, fun _ => rfl, by simp, fun _ => rfl, by simp [group]⟩
  have h := inv_all law batch evs [] {} h0 (by simp) hE
  rw [List.nil_append] at h
  generalize hst : evs.foldl (batchStep A batch) ({} : St κ S) = st at h
  have hall : ∀ r ∈ evs.flatMap (·.1), good r.2 := by
    intro r hr
    obtain ⟨ev, he, hr⟩ := List.mem_flatMap.mp hr
    exact hE ev he r hr
  generalize evs.flatMap (·.1) = R at h hall
  have hs : ∀ k, A.red A.init ((group k R).foldl A.step A.init) = (group k R).foldl A.step A.init :=
    fun k => law [] _ (by simp) (good_group hall k)
  -- the final collection has unique keys and satisfies the invariant
  have fin : ∃ c, Inv A R { count := 0, batchCount := 1, coll := c } ∧ finaled A st = c ∧
      ∀ k, k ∈ c.map (·.1) → ∃ s, group k c = [s] ∧ s = (group k R).foldl A.step A.init := by
    have tail : ∀ c, Inv A R { count := 0, batchCount := 1, coll := runReduce A c } →
        (∀ k, (group k c).foldl A.red A.init = (group k R).foldl A.step A.init) →
        ∀ k, k ∈ (runReduce A c).map (·.1) →
          ∃ s, group k (runReduce A c) = [s] ∧ s = (group k R).foldl A.step A.init := by
      intro c _ hv k hk
      obtain ⟨h1, h2⟩ := tableOf_spec A.init A.red c
      have e : runReduce A c = tableOf A.init A.red c := rfl
      rw [e, h1, mem_firsts] at hk
      exact ⟨_, by rw [e, h2 k, if_pos hk], hv k⟩
    unfold finaled
    by_cases hb : st.batchCount ≤ 1
    · rw [if_pos hb]
      refine ⟨st.coll, ⟨h.keys, h.vals, fun _ => h.uniq hb, by simp, h.fixed⟩, rfl, ?_⟩
      -- a collection with unique keys: reduce does not change the states
      intro k hk
      have hn := h.uniq hb
      obtain ⟨e, he, rfl⟩ := List.mem_map.mp hk
      have hg : group e.1 st.coll = [e.2] := by
        clear hb hst hk hs
        have hn' := hn
        have he' := he
        clear h hn he
        revert hn' he'
        generalize st.coll = t
        intro hn he
        induction t with
        | nil => simp at he
        | cons x t ih =>
          simp only [List.map_cons, List.nodup_cons] at hn
          rcases List.mem_cons.mp he with rfl | he'
          · have hnil : (t.filter (·.1 = e.1)) = [] := by
              simp only [List.filter_eq_nil_iff, decide_eq_true_eq]
              intro a ha e'
              exact hn.1 (List.mem_map.mpr ⟨a, ha, e'⟩)
            simp [group, hnil]
          · have hne : ¬ x.1 = e.1 := by
              intro e'; exact hn.1 (List.mem_map.mpr ⟨e, he', e'.symm⟩)
            have := ih hn.2 he'
            simpa [group, hne] using this
      refine ⟨e.2, hg, ?_⟩
      have hv := h.vals e.1
      rw [hg] at hv
      simp only [List.foldl_cons, List.foldl_nil] at hv
      rw [h.fixed e.1 e.2 (by rw [hg]; simp)] at hv
      exact hv
    · rw [if_neg hb]
      exact ⟨_, inv_reduce h hs, rfl, tail _ (inv_reduce h hs) h.vals⟩
  obtain ⟨c, hi, hc, hv⟩ := fin
  have hq : query A batch evs = c := by unfold query; rw [hst, hc]
  rw [hq]
  have hn : (c.map (·.1)).Nodup := hi.uniq (by simp)
  have hk : c.map (·.1) = firsts (R.map (·.1)) := by
    have := hi.keys; rw [firsts_nodup hn] at this; exact this
  rw [table_ext c hn (fun k => (group k R).foldl A.step A.init)
    (by intro k hk'; obtain ⟨s, h1, h2⟩ := hv k hk'; rw [h1, h2]), hk]
  simp [groupBy]

end Verif.Reduce
