import Verif.Spec.Select
import Verif.Props.Order
import Verif.Props.Limit
import Verif.Props.Where
import Verif.Proofs.Reduce
namespace Verif.Select
open Verif.Val Verif.Expr Verif.Where Verif.Order Verif.Props

/-! ### The stable sort -/

section
variable {α β V : Type}

theorem filter_insertBy_comm (r : α → α → Bool) (htr : ∀ a b c, r a b = true → r b c = true → r a c = true) (p : α → Bool) (a : α)
    (l : List α) (h : l.Pairwise (r · ·)) :
    (insertBy r a l).filter p = if p a then insertBy r a (l.filter p) else l.filter p := by
  induction l with
  | nil => cases hp : p a <;> simp [insertBy, hp]
  | cons b l ih =>
    rw [List.pairwise_cons] at h
    rw [insertBy]
    by_cases hab : r a b = true
    · rw [if_pos hab]
      cases hp : p a with
      | false => simp [List.filter_cons, hp]
      | true =>
        simp only [if_true]
        rw [List.filter_cons, if_pos hp]
        -- every element of the tail is above `a`
        have hall : ∀ x ∈ (b :: l).filter p, r a x = true := by
          intro x hx
          rcases List.mem_cons.1 (List.mem_filter.1 hx).1 with rfl | hx
          · exact hab
          · exact htr _ _ _ hab (h.1 x hx)
        cases hf : (b :: l).filter p with
        | nil => rfl
        | cons c m => rw [insertBy, if_pos (hall c (by rw [hf]; simp))]
    · rw [if_neg hab, List.filter_cons, ih h.2]
      cases hp : p a with
      | false => simp [List.filter_cons]
      | true =>
        simp only [if_true]
        cases hb : p b with
        | false => simp [List.filter_cons, hb]
        | true => simp [List.filter_cons, hb, insertBy, hab]

theorem filter_isort_comm (r : α → α → Bool) (ht : ∀ a b, r a b = true ∨ r b a = true)
    (htr : ∀ a b c, r a b = true → r b c = true → r a c = true) (p : α → Bool) (l : List α) :
    (isort r l).filter p = isort r (l.filter p) := by
  induction l with
  | nil => rfl
  | cons a l ih =>
    rw [isort, filter_insertBy_comm r htr p a _ (sorted_isort r ht htr l), ih, List.filter_cons]
    split <;> rfl

theorem map_insertBy (f : α → β) (r : β → β → Bool) (a : α) (l : List α) :
    (insertBy (fun x y => r (f x) (f y)) a l).map f = insertBy r (f a) (l.map f) := by
  induction l with
  | nil => rfl
  | cons b l ih =>
    rw [insertBy, List.map_cons, insertBy]
    split
    · rfl
    · rw [List.map_cons, ih]

theorem map_isort (f : α → β) (r : β → β → Bool) (l : List α) :
    (isort (fun x y => r (f x) (f y)) l).map f = isort r (l.map f) := by
  induction l with
  | nil => rfl
  | cons a l ih => rw [isort, map_insertBy, ih]; rfl

theorem leBy_comp (le : V → V → Bool) (g : Name → β → V) (f : α → β) (ks : List Key) :
    leBy le (fun n a => g n (f a)) ks = fun a b => leBy le g ks (f a) (f b) := by
  induction ks with
  | nil => rfl
  | cons k ks ih => funext a b; obtain ⟨n, d⟩ := k; simp only [leBy, ih]

theorem leBy_total (le : V → V → Bool) (ht : ∀ x y, le x y = true ∨ le y x = true) (g : Name → α → V) (ks : List Key) (a b : α) :
    leBy le g ks a b = true ∨ leBy le g ks b a = true := by
  rw [leBy_iff ht, leBy_iff ht]; exact Verif.Props.le_total ht _ a b

theorem leBy_trans (le : V → V → Bool) (ht : ∀ x y, le x y = true ∨ le y x = true)
    (htr : ∀ x y z, le x y = true → le y z = true → le x z = true) (g : Name → α → V) (ks : List Key) (a b c : α)
    (h : leBy le g ks a b = true) (h' : leBy le g ks b c = true) : leBy le g ks a c = true := by
  rw [leBy_iff ht] at h h' ⊢; exact Verif.Props.le_trans htr _ a b c h h'

/-- The order in which the rows are read. -/
def load (le : Val → Val → Bool) (orders : List Key) (rows : List Row) : List Row :=
  if orders = [] then rows else isort (leBy le (fun n r => r n) orders) rows

theorem filter_load (le : Val → Val → Bool) (ht : ∀ x y, le x y = true ∨ le y x = true)
    (htr : ∀ x y z, le x y = true → le y z = true → le x z = true) (orders : List Key) (p : Row → Bool) (rows : List Row) :
    (load le orders rows).filter p = load le orders (rows.filter p) := by
  rw [load, load]
  split
  · rfl
  · exact filter_isort_comm _ (leBy_total le ht _ _) (leBy_trans le ht htr _ _) p rows

end

/-! ### Dictionaries -/

section
variable {β : Type}

theorem put_new (k : Str) (v : β) (d : List (Str × β)) (h : k ∉ d.map (·.1)) : put k v d = d ++ [(k, v)] := by
  induction d with
  | nil => rfl
  | cons e d ih =>
    obtain ⟨k', v'⟩ := e
    simp only [List.map_cons, List.mem_cons, not_or] at h
    rw [put, if_neg (Ne.symm h.1), ih h.2]; rfl

theorem get_none_iff (k : Str) (d : List (Str × β)) : get k d = none ↔ k ∉ d.map (·.1) := by
  induction d with
  | nil => simp [get]
  | cons e d ih =>
    obtain ⟨k', v'⟩ := e
    rw [get]
    by_cases h : k' = k
    · simp [h]
    · simp [h, ih, Ne.symm h]

theorem get_append_left (k : Str) (d d' : List (Str × β)) (v : β) (h : get k d = some v) : get k (d ++ d') = some v := by
  induction d with
  | nil => simp [get] at h
  | cons e d ih =>
    obtain ⟨k', v'⟩ := e
    rw [List.cons_append, get]
    rw [get] at h
    split
    · rename_i hk; rw [if_pos hk] at h; exact h
    · rename_i hk; rw [if_neg hk] at h; exact ih h

theorem get_append_right (k : Str) (d d' : List (Str × β)) (h : k ∉ d.map (·.1)) : get k (d ++ d') = get k d' := by
  induction d with
  | nil => rfl
  | cons e d ih =>
    obtain ⟨k', v'⟩ := e
    simp only [List.map_cons, List.mem_cons, not_or] at h
    rw [List.cons_append, get, if_neg (Ne.symm h.1), ih h.2]

theorem get_mem (k : Str) (d : List (Str × β)) (v : β) (h : get k d = some v) : (k, v) ∈ d := by
  induction d with
  | nil => simp [get] at h
  | cons e d ih =>
    obtain ⟨k', v'⟩ := e
    rw [get] at h
    split at h
    · rename_i hk; cases h; simp [hk]
    · exact List.mem_cons_of_mem _ (ih h)

theorem get_of_mem (k : Str) (d : List (Str × β)) (v : β) (hn : (d.map (·.1)).Nodup) (h : (k, v) ∈ d) : get k d = some v := by
  induction d with
  | nil => simp at h
  | cons e d ih =>
    obtain ⟨k', v'⟩ := e
    simp only [List.map_cons, List.nodup_cons] at hn
    rw [get]
    rcases List.mem_cons.1 h with h | h
    · cases h; simp
    · rw [if_neg, ih hn.2 h]
      rintro rfl
      exact hn.1 (List.mem_map.2 ⟨_, h, rfl⟩)

end

theorem colVal_eq_field (n : Str) (o : Out) : SqlSelect.colVal n o = field n o := by
  induction o with
  | nil => rfl
  | cons e o ih =>
    obtain ⟨k, v⟩ := e
    rw [SqlSelect.colVal, field, get]
    split
    · rfl
    · rw [ih]; rfl

/-! ### The schema -/

section
variable {S : Type}

/-- The schema of a list of columns whose names differ: the columns compiled one by one, the key of an aggregate being compiled
after the columns before it. -/
inductive Built (group : List GKey) : Schema S → List (Str × Item S) → Schema S → Prop where
  | nil (s) : Built group s [] s
  | expr (s n e cs out) : Built group (s ++ [(n, .calc (compile e))]) cs out → Built group s ((n, .expr e) :: cs) out
  | agg (s n args final cs out k) : groupKey s group = some k →
      Built group (s ++ [(n, .agg k (args.map fun a => (a.1, compile a.2)) final)]) cs out → Built group s ((n, .agg args final) :: cs) out

theorem built_of_addCols (group : List GKey) (cols : List (Str × Item S)) (s out : Schema S)
    (hn : ((s.map (·.1)) ++ (cols.map (·.1))).Nodup) (h : addCols group s cols = some out) : Built group s cols out := by
  induction cols generalizing s with
  | nil => cases h; exact .nil _
  | cons c cs ih =>
    obtain ⟨n, it⟩ := c
    have hn' : n ∉ s.map (·.1) := by
      intro hm
      rw [List.nodup_append] at hn
      exact hn.2.2 n hm n (by simp) rfl
    have hnext : ∀ v : Col S, (((s ++ [(n, v)]).map (·.1)) ++ (cs.map (·.1))).Nodup := by
      intro v
      simpa [List.append_assoc] using hn
    rw [addCols] at h
    cases it with
    | expr e =>
      simp only [addCol, Option.bind_some] at h
      rw [put_new _ _ _ hn'] at h
      exact .expr _ _ _ _ _ (ih _ (hnext _) h)
    | agg args final =>
      simp only [addCol] at h
      cases hk : groupKey s group with
      | none => simp [hk] at h
      | some k =>
        simp only [hk, Option.map_some, Option.bind_some] at h
        rw [put_new _ _ _ hn'] at h
        exact .agg _ _ _ _ _ _ _ hk (ih _ (hnext _) h)

theorem Built.names {group : List GKey} {s : Schema S} {cols : List (Str × Item S)} {out : Schema S} (h : Built group s cols out) :
    out.map (·.1) = s.map (·.1) ++ cols.map (·.1) := by
  induction h with
  | nil => simp
  | expr s n e cs out _ ih => rw [ih]; simp
  | agg s n args final cs out k _ _ ih => rw [ih]; simp

/-- A column that is not an aggregate. -/
def calcCol : Item S → Col S
  | .expr e => .calc (compile e)
  | .agg _ _ => .calc (.const .null)

theorem Built.exprs {group : List GKey} {s : Schema S} {cols : List (Str × Item S)} {out : Schema S} (h : Built group s cols out)
    (hc : ∀ c ∈ cols, ∃ e, c.2 = .expr e) :
    out = s ++ cols.map fun c => (c.1, calcCol c.2) := by
  induction h with
  | nil => simp
  | expr s n e cs out _ ih => rw [ih fun c hc' => hc c (by simp [hc'])]; simp [calcCol]
  | agg s n args final cs out k _ _ ih =>
    obtain ⟨e, he⟩ := hc _ (List.mem_cons_self ..)
    cases he

theorem aggNames_calc (s : Schema S) (h : ∀ c ∈ s, ∃ t, c.2 = .calc t) : aggNames s = [] := by
  rw [aggNames, List.map_eq_nil_iff, List.filter_eq_nil_iff]
  intro c hc
  obtain ⟨t, ht⟩ := h c hc
  rw [ht]; simp

theorem aggKey_calc (s : Schema S) (h : ∀ c ∈ s, ∃ t, c.2 = .calc t) : aggKey s = none := by
  induction s with
  | nil => rfl
  | cons c s ih =>
    obtain ⟨n, c⟩ := c
    obtain ⟨t, ht⟩ := h (n, c) (by simp)
    simp only at ht
    simp only [aggKey, ih fun c hc => h c (by simp [hc]), ht]

end

end Verif.Select
