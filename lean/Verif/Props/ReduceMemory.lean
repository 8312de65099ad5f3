import Verif.Props.Reduce
/-! Property theorem C60: the size of the intermediate collection of batched aggregation. -/
namespace Verif.Props
open Verif.Agg Verif.Reduce Verif.GroupSpec

variable {κ α S : Type} [DecidableEq κ]

theorem snoc_induction {β : Type} {P : List β → Prop} (l : List β) (nil : P [])
    (append_singleton : ∀ l a, P l → P (l ++ [a])) : P l := by
  have h : ∀ r : List β, P r.reverse := by
    intro r
    induction r with
    | nil => exact nil
    | cons a r ih => rw [List.reverse_cons]; exact append_singleton _ _ ih
  simpa using h l.reverse

/-- Specification: the number of different keys among the rows. -/
def distinctKeys (rows : List (κ × α)) : Nat := (firsts (rows.map (·.1))).length

theorem firsts_length_mono (a b : List κ) : (firsts a).length ≤ (firsts (a ++ b)).length := by
  rw [firsts_append, List.length_append]; omega

theorem firsts_sub_length {a b : List κ} (h : ∀ k ∈ a, k ∈ b) : (firsts a).length ≤ (firsts b).length :=
  (nodup_firsts a).length_le_of_subset fun k hk => (mem_firsts b k).mpr (h k ((mem_firsts a k).mp hk))

theorem table_keys {β : Type} (init : S) (c : S → β → S) (l : List (κ × β)) :
    (l.foldl (fun t r => upsert init (c · r.2) r.1 t) []).map (·.1) = firsts (l.map (·.1)) :=
  (tableOf_spec init c l).1

/-- The states of the collection after every batch of a history. -/
def states (A : Fold α S) (batch : Nat) (evs : List (List (κ × α) × Bool)) : St κ S :=
  evs.foldl (batchStep A batch) {}

/-- Keys of the collection come from the rows, and its length is bounded by the keys plus the rows appended since the
last reduction; these are fewer than the batch size unless they are those of a single batch. -/
theorem memory_inv (A : Fold α S) (batch M : Nat) (evs : List (List (κ × α) × Bool))
    (hM : ∀ ev ∈ evs, distinctKeys ev.1 ≤ M) :
    (∀ k ∈ (states A batch evs).coll.map (·.1), k ∈ (evs.flatMap (·.1)).map (·.1)) ∧
    (states A batch evs).coll.length ≤ distinctKeys (evs.flatMap (·.1)) + (states A batch evs).count ∧
    (0 < batch → (states A batch evs).count ≤ max (batch - 1) M) := by
  induction evs using snoc_induction with
  | nil => simp [states]
  | append_singleton evs ev ih =>
    obtain ⟨i1, i2, i3⟩ := ih (fun e he => hM e (by simp [he]))
    have hm := hM ev (by simp)
    have hs : states A batch (evs ++ [ev]) = batchStep A batch (states A batch evs) ev := by simp [states]
    rw [hs]
    generalize states A batch evs = st at i1 i2 i3
    have hkeys : (aggBatch A ev.1).map (·.1) = firsts (ev.1.map (·.1)) := table_keys A.init A.step ev.1
    have hlen : (aggBatch A ev.1).length = distinctKeys ev.1 := by
      rw [← List.length_map (f := (·.1)), hkeys]; rfl
    have hmem : ∀ k ∈ (st.coll ++ aggBatch A ev.1).map (·.1), k ∈ ((evs ++ [ev]).flatMap (·.1)).map (·.1) := by
      intro k hk
      rw [List.map_append, hkeys, List.mem_append, mem_firsts] at hk
      rw [List.flatMap_append, List.map_append, List.mem_append]
      rcases hk with h | h
      · exact Or.inl (i1 k h)
      · exact Or.inr (by simpa using h)
    have hmono : distinctKeys (evs.flatMap (·.1)) ≤ distinctKeys ((evs ++ [ev]).flatMap (·.1)) := by
      unfold distinctKeys
      rw [List.flatMap_append, List.map_append]
      exact firsts_length_mono _ _
    have hred : (∀ k ∈ (runReduce A (st.coll ++ aggBatch A ev.1)).map (·.1),
          k ∈ ((evs ++ [ev]).flatMap (·.1)).map (·.1)) ∧
        (runReduce A (st.coll ++ aggBatch A ev.1)).length ≤ distinctKeys ((evs ++ [ev]).flatMap (·.1)) := by
      have hk := table_keys A.init A.red (st.coll ++ aggBatch A ev.1)
      constructor
      · intro k h
        unfold runReduce at h
        rw [hk, mem_firsts] at h
        exact hmem k h
      · rw [← List.length_map (f := (·.1))]
        unfold runReduce
        rw [hk]
        exact firsts_sub_length hmem
    simp only [batchStep, outputed]
    split
    · next h0 =>
      have : aggBatch A ev.1 = [] := List.length_eq_zero_iff.mp h0
      refine ⟨hmem, ?_, i3⟩
      simp only [this, List.append_nil]
      omega
    · split
      · exact ⟨hred.1, by simpa using hred.2, by simp⟩
      · next hnb =>
        split
        · exact ⟨hred.1, by simpa using hred.2, by simp⟩
        · refine ⟨hmem, ?_, ?_⟩
          · simp only [List.length_append]; omega
          · intro hb
            have := i3 hb
            simp only
            omega

/-- **C60**: with a batch size, after every batch the intermediate collection holds at most one row per key seen so far
plus `batch - 1` further rows (or the rows of one batch, if a batch has more groups than that). -/
theorem C60_memory_bound (A : Fold α S) (batch : Nat) (hb : 0 < batch) (M : Nat)
    (evs : List (List (κ × α) × Bool)) (hM : ∀ ev ∈ evs, distinctKeys ev.1 ≤ M) :
    (states A batch evs).coll.length ≤ distinctKeys (evs.flatMap (·.1)) + max (batch - 1) M := by
  obtain ⟨_, h2, h3⟩ := memory_inv A batch M evs hM
  have := h3 hb
  omega

/-- **C60**: without a batch size (0) and without a LIMIT being reached, nothing is combined before the end: the
intermediate collection is the batches' groups one after the other. -/
theorem C60_no_batch_size (A : Fold α S) (evs : List (List (κ × α) × Bool)) (hL : ∀ ev ∈ evs, ev.2 = false) :
    (states A 0 evs).coll = evs.flatMap fun ev => aggBatch A ev.1 := by
  induction evs using snoc_induction with
  | nil => rfl
  | append_singleton evs ev ih =>
    have hs : states A 0 (evs ++ [ev]) = batchStep A 0 (states A 0 evs) ev := by simp [states]
    rw [hs, List.flatMap_append, ← ih (fun e he => hL e (by simp [he]))]
    simp only [batchStep, outputed, hL ev (by simp)]
    split <;> simp

/-- **C60**: the final reduction leaves one row per key. -/
theorem C60_final_size (A : Fold α S) (batch : Nat) (evs : List (List (κ × α) × Bool))
    (good : α → Prop) (law : A.Law good) (hE : ∀ ev ∈ evs, ∀ r ∈ ev.1, good r.2) :
    (query A batch evs).length = distinctKeys (evs.flatMap (·.1)) := by
  rw [query_spec law batch evs hE]
  simp [groupBy, distinctKeys]

/-- Non-vacuity: batch size 3, batches of two rows with one new key each: the bound is met with equality on the way. -/
example : (states (Calc.total count) 3 [([(1, .int 5), (2, .null)], false)]).coll.length = 2 ∧
    (states (Calc.total count) 3 [([(1, .int 5), (2, .null)], false), ([(1, .int 5), (3, .null)], false)]).coll.length = 3 ∧
    distinctKeys [(1, Verif.Val.Val.int 5), (2, .null), (1, .int 5), (3, .null)] = 3 := by decide +kernel

end Verif.Props
