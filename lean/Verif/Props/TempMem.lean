import Verif.Model.TempMem
/-! Property theorem C22: temporary collections. -/
namespace Verif.Props
open Verif.TempMem

variable {ν : Type} [DecidableEq ν]

/-- Readers of `n` announced in a history. -/
def announced (n : ν) (h : List (Op ν)) : Nat := (h.filter fun op => op = .reads n).length

/-- Readers of `n` that ended in a history; a tasker that reads and writes the same collection never counts. -/
def released (n : ν) (h : List (Op ν)) : Nat :=
  (h.filter fun op => match op with | .ends l o => l = n ∧ l ≠ o | _ => False).length

/-- Readers end after they were announced. -/
def Ordered (h : List (Op ν)) : Prop := ∀ n k, released n (h.take k) ≤ announced n (h.take k)

theorem run_snoc (h : List (Op ν)) (op : Op ν) : run (h ++ [op]) = (step (run h) op).1 := by simp [run]

theorem announced_snoc (n : ν) (h : List (Op ν)) (op : Op ν) :
    announced n (h ++ [op]) = announced n h + if op = .reads n then 1 else 0 := by
  unfold announced; rw [List.filter_append, List.length_append]
  by_cases e : op = .reads n <;> simp [e]

theorem released_snoc (n : ν) (h : List (Op ν)) (op : Op ν) :
    released n (h ++ [op]) = released n h + match op with | .ends l o => (if l = n ∧ l ≠ o then 1 else 0) | _ => 0 := by
  unfold released; rw [List.filter_append, List.length_append]
  cases op with
  | reads m => simp
  | writes m => simp
  | ends l o =>
    by_cases e : l = n ∧ l ≠ o
    · simp only; rw [if_pos e, List.filter_cons_of_pos (by simpa using e)]; rfl
    · simp only; rw [if_neg e, List.filter_cons_of_neg (by simpa using e)]; rfl

theorem ordered_init {h : List (Op ν)} {op : Op ν} (ho : Ordered (h ++ [op])) : Ordered h := by
  intro n k
  by_cases hk : k ≤ h.length
  · have := ho n k
    rwa [List.take_append_of_le_length hk] at this
  · have h1 := ho n h.length
    rw [List.take_left] at h1
    rwa [List.take_of_length_le (by omega)]

theorem ordered_full {h : List (Op ν)} (ho : Ordered h) (n : ν) : released n h ≤ announced n h := by
  have := ho n h.length; rwa [List.take_length] at this

theorem step_ends_at (m : Mgr ν) (l o : ν) (hlo : l ≠ o) (c : Int) (hc : m l = some c) :
    (step m (.ends l o)).2 = (if c - 1 ≤ 0 then some l else none) ∧
    (step m (.ends l o)).1 l = (if c - 1 ≤ 0 then none else some (c - 1)) := by
  have hu : unuseCollection m l = (put m l (some (c - 1)), decide (c - 1 ≤ 0)) := by simp [unuseCollection, hc]
  have hs : step m (.ends l o) = if (unuseCollection m l).2 then ((freeCollection (unuseCollection m l).1 l).1, some l)
      else ((unuseCollection m l).1, none) := by simp [step, hlo]
  rw [hs, hu]
  have hp : put m l (some (c - 1)) l = some (c - 1) := by simp [put]
  by_cases hf : c - 1 ≤ 0
  · have : freeCollection (put m l (some (c - 1))) l = (put (put m l (some (c - 1))) l none, true) := by
      simp only [freeCollection, hp]; rw [if_neg (by omega)]
    simp only [hf, decide_true, if_true, this]
    simp [put]
  · simp [hf, hp]

theorem step_ends_other (m : Mgr ν) (l o n : ν) (hn : n ≠ l) :
    (step m (.ends l o)).2 ≠ some n ∧ (step m (.ends l o)).1 n = m n := by
  by_cases hlo : l = o
  · simp [step, hlo]
  · have hs : step m (.ends l o) = if (unuseCollection m l).2 then ((freeCollection (unuseCollection m l).1 l).1, some l)
        else ((unuseCollection m l).1, none) := by simp [step, hlo]
    rw [hs]
    have h1 : (unuseCollection m l).1 n = m n := by
      unfold unuseCollection
      split <;> simp [put, hn]
    constructor
    · split <;> simp [hn.symm]
    · split
      · unfold freeCollection
        split
        · exact h1
        · split
          · exact h1
          · simp [put, hn, h1]
      · exact h1

/-- The counter is the number of readers that have not ended; without a counter there is none. -/
def Counts (m : Mgr ν) (n : ν) (a r : Nat) : Prop := m n = none ∧ a = r ∨ m n = some ((a : Int) - r)

theorem counter_spec (h : List (Op ν)) (ho : Ordered h) (n : ν) : Counts (run h) n (announced n h) (released n h) := by
  suffices ∀ (r : List (Op ν)) h, h = r.reverse → Ordered h → ∀ n, Counts (run h) n (announced n h) (released n h) from
    this h.reverse h (by simp) ho n
  clear ho h n
  intro r
  induction r with
  | nil => rintro h rfl _ n; left; simp [run, announced, released]
  | cons op r ih =>
    rintro h rfl ho n
    rw [List.reverse_cons] at ho ⊢
    have ih := ih r.reverse rfl (ordered_init ho) n
    have hle2 := ordered_full ho n
    rw [run_snoc, announced_snoc, released_snoc]
    rw [announced_snoc, released_snoc] at hle2
    generalize r.reverse = g at ih hle2 ho
    generalize run g = m at ih
    generalize announced n g = a at ih hle2
    generalize released n g = b at ih hle2
    cases op with
    | reads k =>
      by_cases e : n = k
      · subst e
        right
        simp only [step, useCollection, put, if_true]
        rcases ih with ⟨hm, hab⟩ | hm <;> rw [hm] <;> simp <;> omega
      · have e' : ¬ Op.reads k = Op.reads n := by intro h; injection h with h; exact e h.symm
        have hs : (step m (.reads k)).1 n = m n := by simp [step, useCollection, put, e]
        unfold Counts; rw [hs]; simpa [e'] using (show m n = none ∧ a = b ∨ m n = some ((a : Int) - b) from ih)
    | writes k =>
      have e' : ¬ Op.writes k = Op.reads n := by intro h; cases h
      by_cases e : n = k ∧ m k = none
      · obtain ⟨rfl, e⟩ := e
        right
        simp only [step, addCollection, e, Option.isNone_none, if_true, put, e', if_false]
        rcases ih with ⟨hm, hab⟩ | hm
        · simp; omega
        · rw [e] at hm; cases hm
      · have hs : (step m (.writes k)).1 n = m n := by
          simp only [step, addCollection]
          split
          · rename_i hk
            have hk : m k = none := by simpa using hk
            have hnk : n ≠ k := fun h => e ⟨h, hk⟩
            simp [put, hnk]
          · rfl
        unfold Counts; rw [hs]; simpa [e'] using (show m n = none ∧ a = b ∨ m n = some ((a : Int) - b) from ih)
    | ends l o =>
      have e' : ¬ Op.ends l o = Op.reads n := by intro h; cases h
      simp only [e', if_false] at hle2 ⊢
      by_cases hlo : l = o
      · have hs : (step m (.ends l o)).1 n = m n := by simp [step, hlo]
        have hz : ¬ (l = n ∧ l ≠ o) := fun h => h.2 hlo
        unfold Counts; rw [hs]; simpa [hz] using (show m n = none ∧ a = b ∨ m n = some ((a : Int) - b) from ih)
      · by_cases hln : n = l
        · subst hln
          have hle3 : b + 1 ≤ a := by simpa [hlo] using hle2
          rcases ih with ⟨hm, hab⟩ | hm
          · omega
          · have := (step_ends_at m n o hlo _ hm).2
            unfold Counts; rw [this]
            split
            · left; simp [hlo]; omega
            · right; simp [hlo]; omega
        · have hz : ¬ (l = n ∧ l ≠ o) := fun h => hln h.1.symm
          unfold Counts; rw [(step_ends_other m l o n hln).2]; simpa [hz] using (show m n = none ∧ a = b ∨ m n = some ((a : Int) - b) from ih)

/-- **C22** for all histories in which readers end after they were announced: the data of a collection is deleted when
a reader ends iff that was the last announced reader; in particular never while another announced reader has not
ended.  Afterwards the collection is forgotten. -/
theorem C22_deleted_after_last_reader (h : List (Op ν)) (l o : ν) (hlo : l ≠ o) (ho : Ordered (h ++ [.ends l o])) :
    ((step (run h) (.ends l o)).2 = some l ↔ announced l h = released l h + 1) ∧
    ((step (run h) (.ends l o)).2 = none ↔ announced l h ≠ released l h + 1) ∧
    ((step (run h) (.ends l o)).2 = some l → run (h ++ [.ends l o]) l = none) := by
  have hle := ordered_full ho l
  rw [announced_snoc, released_snoc] at hle
  have hle : released l h + 1 ≤ announced l h := by simpa [hlo] using hle
  rcases counter_spec h (ordered_init ho) l with ⟨_, he⟩ | hc
  · omega
  · obtain ⟨h1, h2⟩ := step_ends_at (run h) l o hlo _ hc
    rw [run_snoc, h1, h2]
    by_cases hf : (announced l h : Int) - released l h - 1 ≤ 0
    · simp only [hf, if_true]; refine ⟨by simp; omega, by simp; omega, by simp⟩
    · simp only [hf, if_false]; refine ⟨by simp; omega, by simp; omega, by simp⟩

/-- **C22**, other collections: the end of a reader never touches another collection. -/
theorem C22_only_own_collection (h : List (Op ν)) (l o n : ν) (hn : n ≠ l) :
    (step (run h) (.ends l o)).2 ≠ some n ∧ run (h ++ [.ends l o]) n = run h n := by
  rw [run_snoc]; exact step_ends_other _ _ _ _ hn

/-- **C22**, end of the statement (query.py:184-187 deletes everything `get_names` returns): every collection that was
written or read and whose data was not deleted when its last reader ended is still known, so it is deleted then. -/
theorem C22_nothing_left (h : List (Op ν)) (n : ν) (op : Op ν) (hop : op = .writes n ∨ op = .reads n)
    (rest : List (Op ν)) (hrest : ∀ k, (step (run (h ++ [op] ++ rest.take k)) (rest.getD k (.writes n))).2 ≠ some n) :
    (run (h ++ [op] ++ rest) n).isSome := by
  have start : (run (h ++ [op]) n).isSome := by
    rw [run_snoc]
    rcases hop with rfl | rfl
    · simp only [step, addCollection]
      split
      · simp [put]
      · rename_i hx; simpa [Option.isSome_iff_ne_none] using hx
    · simp [step, useCollection, put]
  have one : ∀ (m : Mgr ν) (op : Op ν), (m n).isSome → (step m op).2 ≠ some n → ((step m op).1 n).isSome := by
    intro m op hm hd
    cases op with
    | reads k => simp only [step, useCollection, put]; split <;> simp [hm]
    | writes k => simp only [step, addCollection]; split
                  · simp only [put]; split <;> simp [hm]
                  · exact hm
    | ends l o =>
      simp only [step] at hd ⊢
      by_cases hlo : l = o
      · simp only [hlo, if_true]; exact hm
      · simp only [hlo, if_false] at hd ⊢
        have h1 : ((unuseCollection m l).1 n).isSome := by
          unfold unuseCollection
          cases hml : m l with
          | none => exact hm
          | some c => simp only [put]; split <;> simp [hm]
        split at hd
        · rename_i hf
          rw [if_pos hf]
          have hnl : n ≠ l := by rintro rfl; exact hd rfl
          unfold freeCollection
          split
          · exact h1
          · split
            · exact h1
            · simp [put, hnl, h1]
        · rename_i hf
          rw [if_neg hf]; exact h1
  generalize h ++ [op] = g at start hrest
  induction rest generalizing g with
  | nil => simpa using start
  | cons x rest ih =>
    have h0 := hrest 0
    simp only [List.take_zero, List.append_nil, List.getD_cons_zero] at h0
    have := ih (g ++ [x])
    rw [show g ++ x :: rest = g ++ [x] ++ rest by simp]
    apply this
    · rw [run_snoc]; exact one _ _ start h0
    · intro k
      have := hrest (k + 1)
      simpa using this

/-- **C22**, a collection nobody announced (its bookkeeping is gone): its data is deleted when a reader ends. -/
theorem C22_unknown_is_deleted (m : Mgr ν) (l o : ν) (hlo : l ≠ o) (hm : m l = none) :
    (step m (.ends l o)).2 = some l ∧ (step m (.ends l o)).1 = m := by
  simp [step, hlo, unuseCollection, freeCollection, hm]

/-- **C22**, the two answers the bookkeeping gives: a collection is refused to be freed (and kept) exactly while it has
a positive number of readers; otherwise it is forgotten. -/
theorem C22_free (m : Mgr ν) (n : ν) :
    ((freeCollection m n).2 = false ↔ ∃ c, m n = some c ∧ 0 < c) ∧
    ((freeCollection m n).2 = false → (freeCollection m n).1 = m) ∧
    ((freeCollection m n).2 = true → (freeCollection m n).1 n = none ∧ ∀ k, k ≠ n → (freeCollection m n).1 k = m k) := by
  unfold freeCollection
  cases h : m n with
  | none => simp [h]
  | some c =>
    by_cases hc : c > 0
    · simp [hc]
    · simp only [if_neg hc, put]
      refine ⟨by simpa using hc, by simp, fun _ => ⟨by simp, fun k hk => by simp [hk]⟩⟩

/-- **C99 is violated** when batches are reduced in between: an intermediate reduction announces itself as a reader of
the collection it rewrites but never releases it, so the end of the final reader does not delete the data (it stays
until the whole statement ends). -/
theorem C99_intermediate_reduce_never_released (c out : ν) (hne : c ≠ out) :
    -- written; intermediate reduction reads, writes and ends; final reduction reads and ends
    (step (run [.writes c, .reads c, .writes c, .ends c c, .reads c, .writes out]) (.ends c out)).2 = none := by
  have h' : ¬ out = c := fun e => hne e.symm
  simp [run, step, useCollection, addCollection, unuseCollection, put, hne, h']

/-- Without the intermediate reduction it does. -/
example : (step (run [.writes 0, .reads 0, .writes 1]) (.ends 0 1)).2 = some 0 ∧
    Ordered [Op.writes 0, .reads 0, .reads 0, .ends 0 1, .ends 0 2] := by
  refine ⟨by decide, ?_⟩
  intro n k
  by_cases h : n = 0
  · subst h
    by_cases hk : k < 5
    · have : k = 0 ∨ k = 1 ∨ k = 2 ∨ k = 3 ∨ k = 4 := by omega
      rcases this with rfl | rfl | rfl | rfl | rfl <;> decide
    · rw [List.take_of_length_le (by simp; omega)]; decide
  · have : released n ([Op.writes 0, .reads 0, .reads 0, .ends 0 1, .ends 0 2].take k) = 0 := by
      have h' : ¬ 0 = n := fun e => h e.symm
      unfold released
      rw [List.length_eq_zero_iff, List.filter_eq_nil_iff]
      intro a ha
      have := List.mem_of_mem_take ha
      simp at this
      rcases this with rfl | rfl | rfl | rfl <;> simp [h']
    omega

end Verif.Props
