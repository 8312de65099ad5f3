/-!
Small general-purpose definitions shared by the whole development.
-/

deriving instance DecidableEq for Except

namespace Verif

/-- A Python `dict` (or `defaultdict`): association list in insertion order, one entry per key. -/
abbrev Dict (κ : Type) (α : Type) := List (κ × α)

namespace Dict
variable {κ α : Type} [DecidableEq κ]

/-- `d.get(k)` / `k in d`: `none` when the key is absent. -/
def get? : Dict κ α → κ → Option α
  | [], _ => none
  | (k', v) :: d, k => if k' = k then some v else get? d k

/-- `d[k] = v`: overwrite in place, or append. -/
def set : Dict κ α → κ → α → Dict κ α
  | [], k, v => [(k, v)]
  | (k', v') :: d, k, v => if k' = k then (k', v) :: d else (k', v') :: set d k v

/-- `d.pop(k, None)`. -/
def erase : Dict κ α → κ → Dict κ α
  | [], _ => []
  | (k', v') :: d, k => if k' = k then d else (k', v') :: erase d k

/-- `d.update(e)`. -/
def update (d e : Dict κ α) : Dict κ α := e.foldl (fun acc kv => acc.set kv.1 kv.2) d

/-- `d.keys()`. -/
def keys (d : Dict κ α) : List κ := d.map Prod.fst

@[simp] theorem get?_nil (k : κ) : get? ([] : Dict κ α) k = none := rfl

@[simp] theorem get?_set_self (d : Dict κ α) (k : κ) (v : α) : (d.set k v).get? k = some v := by
  induction d with
  | nil => simp [set, get?]
  | cons kv d ih =>
    obtain ⟨k', v'⟩ := kv
    by_cases h : k' = k <;> simp [set, get?, h, ih]

theorem get?_set_ne (d : Dict κ α) {k k' : κ} (v : α) (h : k ≠ k') : (d.set k v).get? k' = d.get? k' := by
  induction d with
  | nil => simp [set, get?, h]
  | cons kv d ih =>
    obtain ⟨k1, v1⟩ := kv
    by_cases h1 : k1 = k
    · subst h1; simp [set, get?, h]
    · simp only [set, h1, if_false, get?, ih]

theorem get?_set (d : Dict κ α) (k k' : κ) (v : α) :
    (d.set k v).get? k' = if k = k' then some v else d.get? k' := by
  split
  · next h => subst h; simp
  · next h => exact get?_set_ne d v h

theorem get?_isSome_iff {d : Dict κ α} {k : κ} : (d.get? k).isSome ↔ k ∈ d.keys := by
  induction d with
  | nil => simp [keys]
  | cons kv d ih =>
    obtain ⟨k1, v1⟩ := kv
    simp only [keys, List.map_cons, List.mem_cons]
    by_cases h : k1 = k
    · simp [get?, h]
    · simp only [get?, h, if_false]
      rw [ih]; simp [keys, Ne.symm h, eq_comm]

theorem get?_eq_none_iff {d : Dict κ α} {k : κ} : d.get? k = none ↔ k ∉ d.keys := by
  rw [← get?_isSome_iff]; cases d.get? k <;> simp

@[simp] theorem keys_cons (k : κ) (v : α) (d : Dict κ α) : keys ((k, v) :: d) = k :: keys d := rfl

theorem keys_set (d : Dict κ α) (k : κ) (v : α) :
    (d.set k v).keys = if k ∈ d.keys then d.keys else d.keys ++ [k] := by
  induction d with
  | nil => simp [set, keys]
  | cons kv d ih =>
    obtain ⟨k1, v1⟩ := kv
    by_cases h : k1 = k
    · subst h; simp [set]
    · have hk : ¬ k = k1 := fun e => h e.symm
      simp only [set, h, if_false, keys_cons, List.mem_cons, hk, false_or, ih]
      by_cases hm : k ∈ keys d
      · simp only [hm, if_true]
      · simp only [hm, if_false]; simp

theorem nodup_set {d : Dict κ α} (h : d.keys.Nodup) (k : κ) (v : α) : (d.set k v).keys.Nodup := by
  rw [keys_set]
  split
  · exact h
  · next hk => rw [List.nodup_append]; simp [h]; intro a ha e; exact hk (e ▸ ha)

theorem get?_update (d e : Dict κ α) (k : κ) (he : e.keys.Nodup) :
    (d.update e).get? k = (e.get? k).or (d.get? k) := by
  induction e generalizing d with
  | nil => simp [update]
  | cons kv e ih =>
    obtain ⟨k1, v1⟩ := kv
    simp only [keys, List.map_cons, List.nodup_cons] at he
    have := ih (d.set k1 v1) he.2
    simp only [update, List.foldl_cons] at this ⊢
    rw [this, get?_set]
    by_cases h : k1 = k
    · subst h
      have : get? e k1 = none := get?_eq_none_iff.mpr he.1
      simp [get?, this]
    · simp [get?, h]

theorem get?_erase_ne (d : Dict κ α) {k k' : κ} (h : k ≠ k') : (d.erase k).get? k' = d.get? k' := by
  induction d with
  | nil => rfl
  | cons kv d ih =>
    obtain ⟨k1, v1⟩ := kv
    by_cases h1 : k1 = k
    · subst h1; simp [erase, get?, h]
    · simp only [erase, h1, if_false, get?]; rw [ih]

theorem mem_keys_erase {d : Dict κ α} {k k' : κ} (h : k' ∈ (d.erase k).keys) : k' ∈ d.keys := by
  induction d with
  | nil => simpa [erase] using h
  | cons kv d ih =>
    obtain ⟨k1, v1⟩ := kv
    by_cases h1 : k1 = k
    · simp [erase, h1, keys] at h ⊢; exact Or.inr h
    · simp only [erase, h1, if_false, keys, List.map_cons, List.mem_cons] at h ⊢
      rcases h with h | h
      · exact Or.inl h
      · exact Or.inr (ih h)

theorem get?_erase_self {d : Dict κ α} (hd : d.keys.Nodup) (k : κ) : (d.erase k).get? k = none := by
  induction d with
  | nil => rfl
  | cons kv d ih =>
    obtain ⟨k1, v1⟩ := kv
    simp only [keys, List.map_cons, List.nodup_cons] at hd
    by_cases h1 : k1 = k
    · subst h1
      simp only [erase, if_true]
      exact get?_eq_none_iff.mpr hd.1
    · simp only [erase, h1, if_false, get?]; exact ih hd.2

theorem nodup_erase {d : Dict κ α} (h : d.keys.Nodup) (k : κ) : (d.erase k).keys.Nodup := by
  induction d with
  | nil => simpa [erase] using h
  | cons kv d ih =>
    obtain ⟨k1, v1⟩ := kv
    simp only [keys, List.map_cons, List.nodup_cons] at h
    by_cases h1 : k1 = k
    · simpa [erase, h1, keys] using h.2
    · simp only [erase, h1, if_false, keys, List.map_cons, List.nodup_cons]
      exact ⟨fun hm => h.1 (mem_keys_erase hm), ih h.2⟩

end Dict
end Verif
