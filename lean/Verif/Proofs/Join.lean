import Verif.Spec.Join
namespace Verif.Proofs.Join
open Verif.Join Verif.SqlJoin

theorem nodup_eraseDups {α : Type} [BEq α] [LawfulBEq α] (l : List α) : l.eraseDups.Nodup := by
  induction h : l.length using Nat.strongRecOn generalizing l with
  | _ n ih =>
    cases l with
    | nil => simp
    | cons a l =>
      rw [List.eraseDups_cons, List.nodup_cons]
      constructor
      · rw [List.mem_eraseDups]
        simp
      · refine ih _ ?_ _ rfl
        have := List.length_filter_le (fun b => !b == a) l
        simp only [List.length_cons] at h
        omega

variable {α : Type}

theorem before_append {t u : α} {l : List α} (m : List α) (h : Before t u l) : Before t u (l ++ m) := by
  obtain ⟨a, b, c, rfl⟩ := h
  exact ⟨a, b, c ++ m, by simp⟩

theorem before_of_mem {t u : α} {l m : List α} (ht : t ∈ l) (hu : u ∈ m) : Before t u (l ++ m) := by
  obtain ⟨a, b, rfl⟩ := List.append_of_mem ht
  obtain ⟨c, d, rfl⟩ := List.append_of_mem hu
  exact ⟨a, b ++ c, d, by simp⟩

theorem before_filter {t u : α} {l : List α} (p : α → Bool) (ht : p t = true) (hu : p u = true) (h : Before t u l) :
    Before t u (l.filter p) := by
  obtain ⟨a, b, c, rfl⟩ := h
  refine ⟨a.filter p, b.filter p, c.filter p, ?_⟩
  simp [List.filter_append, List.filter_cons, ht, hu]

theorem before_mem {t u : α} {l : List α} (h : Before t u l) : u ∈ l := by
  obtain ⟨a, b, c, rfl⟩ := h
  simp

theorem before_irrefl {t : α} {l : List α} (hl : l.Nodup) (h : Before t t l) : False := by
  obtain ⟨a, b, c, rfl⟩ := h
  rw [List.nodup_append] at hl
  have := hl.2.1
  simp at this

theorem chain_order (next : Name → List Name) (order : List Name → List Name) (ho : ∀ l, (order l).Perm l) (fuel : Nat)
    (cur acc l : List Name) (h : chain next order fuel cur acc = some l) (hc : cur.Nodup) (ha : acc.Nodup)
    (inv : ∀ t ∈ acc, ∀ u ∈ next t, Before t u acc ∨ u ∈ cur) :
    l.Nodup ∧ ∀ t ∈ l, ∀ u ∈ next t, Before t u l := by
  induction fuel generalizing cur acc with
  | zero => simp [chain] at h
  | succ fuel ih =>
    rw [chain] at h
    split at h
    · rename_i hcur
      cases h
      refine ⟨ha, fun t ht u hu => ?_⟩
      rcases inv t ht u hu with h | h
      · exact h
      · simp [hcur] at h
    · refine ih _ _ h ?_ ?_ ?_
      · exact (ho _).nodup_iff.2 (nodup_eraseDups _)
      · rw [List.nodup_append]
        refine ⟨ha.filter _, hc, ?_⟩
        intro a hma b hmb e
        subst e
        simp only [List.mem_filter, decide_not, Bool.not_eq_true', decide_eq_false_iff_not] at hma
        exact hma.2 hmb
      · intro t ht u hu
        rcases List.mem_append.1 ht with ht | ht
        · have ht' : t ∈ acc ∧ t ∉ cur := by simpa using ht
          left
          by_cases hucur : u ∈ cur
          · exact before_of_mem ht hucur
          · rcases inv t ht'.1 u hu with h | h
            · exact before_append _ (before_filter _ (by simpa using ht'.2) (by simpa using hucur) h)
            · exact absurd h hucur
        · right
          rw [(ho _).mem_iff, List.mem_eraseDups, List.mem_flatMap]
          exact ⟨t, ht, hu⟩

theorem reach_level {next : Name → List Name} {cur cur' : List Name} (hm : ∀ u, u ∈ cur' ↔ ∃ t ∈ cur, u ∈ next t) (x : Name) :
    Reach next cur x ↔ x ∈ cur ∨ Reach next cur' x := by
  constructor
  · intro h
    induction h with
    | base h => exact Or.inl h
    | step h hu ih =>
      right
      rcases ih with ih | ih
      · exact .base ((hm _).2 ⟨_, ih, hu⟩)
      · exact .step ih hu
  · rintro (h | h)
    · exact .base h
    · induction h with
      | base h =>
        obtain ⟨t, ht, hu⟩ := (hm _).1 h
        exact .step (.base ht) hu
      | step _ hu ih => exact .step ih hu

theorem chain_mem (next : Name → List Name) (order : List Name → List Name) (ho : ∀ l, (order l).Perm l) (fuel : Nat)
    (cur acc l : List Name) (h : chain next order fuel cur acc = some l) (x : Name) : x ∈ l ↔ x ∈ acc ∨ Reach next cur x := by
  induction fuel generalizing cur acc with
  | zero => simp [chain] at h
  | succ fuel ih =>
    rw [chain] at h
    split at h
    · rename_i hcur
      cases h
      subst hcur
      constructor
      · exact Or.inl
      · rintro (h | h)
        · exact h
        · exfalso; clear ih
          induction h with
          | base h => cases h
          | step _ _ ih' => exact ih'
    · rw [ih _ _ h, reach_level (cur := cur) (cur' := order (cur.flatMap next).eraseDups)]
      · simp only [List.mem_append, List.mem_filter, decide_eq_true_eq]
        constructor
        · rintro ((h | h) | h)
          · exact Or.inl h.1
          · exact Or.inr (Or.inl h)
          · exact Or.inr (Or.inr h)
        · rintro (h | h | h)
          · by_cases hx : x ∈ cur
            · exact Or.inl (Or.inr hx)
            · exact Or.inl (Or.inl ⟨h, hx⟩)
          · exact Or.inl (Or.inr h)
          · exact Or.inr h
      · intro u
        rw [(ho _).mem_iff, List.mem_eraseDups, List.mem_flatMap]

theorem chain_some (next : Name → List Name) (order : List Name → List Name) (ho : ∀ l, (order l).Perm l) (rank : Name → Nat)
    (hr : ∀ t, ∀ u ∈ next t, rank u < rank t) (fuel : Nat) (cur acc : List Name) (hf : 0 < fuel) (h : ∀ t ∈ cur, rank t + 1 < fuel) :
    ∃ l, chain next order fuel cur acc = some l := by
  induction fuel generalizing cur acc with
  | zero => omega
  | succ fuel ih =>
    rw [chain]
    split
    · exact ⟨acc, rfl⟩
    · rename_i hcur
      obtain ⟨t, ht⟩ : ∃ t, t ∈ cur := by
        cases cur with
        | nil => exact absurd rfl hcur
        | cons t cur => exact ⟨t, by simp⟩
      refine ih _ _ ?_ ?_
      · have := h t ht; omega
      · intro u hu
        rw [(ho _).mem_iff, List.mem_eraseDups, List.mem_flatMap] at hu
        obtain ⟨t, ht, hu⟩ := hu
        have := h t ht
        have := hr t u hu
        omega

theorem chain_none (next : Name → List Name) (order : List Name → List Name) (ho : ∀ l, (order l).Perm l) (w : Nat → Name)
    (hw : ∀ n, w (n + 1) ∈ next (w n)) (fuel : Nat) (n : Nat) (cur acc : List Name) (h : w n ∈ cur) :
    chain next order fuel cur acc = none := by
  induction fuel generalizing cur acc n with
  | zero => rfl
  | succ fuel ih =>
    rw [chain, if_neg (by intro e; rw [e] at h; cases h)]
    refine ih (n + 1) _ _ ?_
    rw [(ho _).mem_iff, List.mem_eraseDups, List.mem_flatMap]
    exact ⟨_, h, hw n⟩

end Verif.Proofs.Join
