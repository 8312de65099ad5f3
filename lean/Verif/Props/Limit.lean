import Verif.Model.Limit
/-! C46: LIMIT and OFFSET.  C47: UNION. -/
namespace Verif.Props
open Verif.Limit

section
variable {α β : Type}

/-- The rows `m + 1` to `m + n`. -/
def page (m n : Nat) (l : List β) : List β := (l.drop m).take n

/-- Every result row comes from one input row: no filter left to the engine, no grouping, no generator. -/
def RowWise (proc : List α → List β) : Prop := ∃ f, ∀ l, proc l = l.map f

/-- The compiler has seen something after which the input must not be cut. -/
def Guarded (q : Shape) : Prop := q.predicate = true ∨ q.intercept = true ∨ q.aggregate = true ∨ q.pipelines = true

theorem guarded_bool (q : Shape) (b : Bool) (h : Guarded q) : (q.predicate || q.intercept || q.aggregate || q.pipelines || b) = true := by
  rcases h with h | h | h | h <;> simp [h]

/-- **C46**: LIMIT n OFFSET m (`n > 0`) gives the rows `m + 1` to `m + n` of the result without LIMIT, in order: whenever the
compiler has seen a residual predicate, HAVING, aggregate or sort, whatever they do; and for queries that work row by row. -/
theorem C46_limit_offset (q : Shape) (proc : List α → List β) (h : Guarded q ∨ RowWise proc) (n m : Nat) (hn : 0 < n)
    (rows : List α) : run (compile q n m) proc rows = page m n (proc rows) := by
  have hc : n ≠ 0 ∨ 0 < m := Or.inl (by omega)
  have e : ∀ l : List β, (l.take (m + n)).drop m = page m n l := by
    intro l; rw [page, List.drop_take, Nat.add_sub_cancel_left]
  rw [compile, if_pos hc]
  by_cases hg : (q.predicate || q.intercept || q.aggregate || q.pipelines || decide (n ≤ 0)) = true
  · rw [if_pos hg, if_pos (by omega)]
    simp only [run, pySlice]
    exact e _
  · rw [if_neg hg]
    rcases h with h | ⟨f, hf⟩
    · exact absurd (guarded_bool q _ h) hg
    · rw [run]
      simp only
      rw [if_neg (show ¬ (m + n = 0) by omega), hf, hf]
      by_cases hm : 0 < m
      · rw [if_pos hm]
        simp only [pySlice]
        rw [← List.map_drop, page, ← List.map_drop, ← List.map_take, List.drop_take, Nat.add_sub_cancel_left]
      · have : m = 0 := by omega
        subst this
        simp only [Nat.lt_irrefl, if_false, page, List.drop_zero, Nat.zero_add, List.map_take]

/-- **C46**, OFFSET m alone drops the first `m` rows, for every query. -/
theorem C46_offset (q : Shape) (proc : List α → List β) (m : Nat) (rows : List α) :
    run (compile q 0 m) proc rows = (proc rows).drop m := by
  rw [compile]
  by_cases hm : 0 < m
  · rw [if_pos (Or.inr hm), if_pos (by simp)]
    simp [run, pySlice]
  · have : m = 0 := by omega
    subst this
    simp [run]

/-- **C114 is violated by LIMIT 0**, which gives every row after the offset instead of none: it is wrong whenever there is one. -/
theorem C114_limit_zero_violated (q : Shape) (proc : List α → List β) (m : Nat) (rows : List α) (h : m < (proc rows).length) :
    run (compile q 0 m) proc rows = (proc rows).drop m ∧ run (compile q 0 m) proc rows ≠ page m 0 (proc rows) := by
  refine ⟨C46_offset q proc m rows, ?_⟩
  rw [C46_offset, page, List.take_zero]
  intro e
  have := congrArg List.length e
  rw [List.length_drop, List.length_nil] at this
  omega

/-- What happens in general to a query the compiler takes to be row by row: the input is cut before the rows are processed. -/
theorem C114_unguarded (q : Shape) (hq : ¬ Guarded q) (proc : List α → List β) (n m : Nat) (hn : 0 < n) (rows : List α) :
    run (compile q n m) proc rows = (proc (rows.take (m + n))).drop m := by
  have hb : (q.predicate || q.intercept || q.aggregate || q.pipelines || decide (n ≤ 0)) = false := by
    simp only [Guarded, not_or, Bool.not_eq_true] at hq
    simp [hq]; omega
  rw [compile, if_pos (Or.inl (by omega)), hb]
  simp only [Bool.false_eq_true, if_false, run]
  rw [if_neg (show ¬ (m + n = 0) by omega)]
  by_cases hm : 0 < m
  · rw [if_pos hm]; rfl
  · have : m = 0 := by omega
    subst this
    simp

end

/-- **C114 is violated by SELECT DISTINCT** (and GROUP BY without aggregates), which are compiled after the LIMIT: from the rows
1, 1, 2, SELECT DISTINCT … LIMIT 2 gives only 1. -/
theorem C114_distinct_violated :
    run (compile ⟨false, false, false, false⟩ 2 0) (List.eraseDups) [1, 1, 2] = [1] ∧
    page 0 2 (List.eraseDups [1, 1, 2]) = [1, 2] := by decide

/-- C46 on ORDER BY a LIMIT 2 OFFSET 1 (a sort pipeline) and on a plain query. -/
example : Guarded ⟨false, false, false, true⟩ ∧ RowWise (fun l : List Nat => l.map (· + 1)) ∧
    run (compile ⟨false, false, false, false⟩ 2 1) (fun l : List Nat => l.map (· + 1)) [10, 20, 30, 40] = [21, 31] :=
  ⟨Or.inr (Or.inr (Or.inr rfl)), ⟨_, fun _ => rfl⟩, by decide⟩

/-! ## C47 -/

section
open Verif.Union
variable {ρ V : Type}

theorem nameLe_refl (a : Name) : nameLe a a = true := by
  induction a with
  | nil => rfl
  | cons x a ih => simp [nameLe, ih]

theorem nameLe_total (a b : Name) : nameLe a b = true ∨ nameLe b a = true := by
  induction a generalizing b with
  | nil => exact Or.inl rfl
  | cons x a ih =>
    cases b with
    | nil => exact Or.inr rfl
    | cons y b =>
      rcases Nat.lt_trichotomy x.toNat y.toNat with h | h | h
      · exact Or.inl (by simp [nameLe, h])
      · simp only [nameLe, h, Nat.lt_irrefl, if_false]; exact ih b
      · exact Or.inr (by simp [nameLe, h])

theorem nameLe_antisymm (a b : Name) (h : nameLe a b = true) (h' : nameLe b a = true) : a = b := by
  induction a generalizing b with
  | nil => cases b with
    | nil => rfl
    | cons y b => simp [nameLe] at h'
  | cons x a ih =>
    cases b with
    | nil => simp [nameLe] at h
    | cons y b =>
      rw [nameLe] at h h'
      have e : x.toNat = y.toNat := by
        by_cases h1 : x.toNat < y.toNat
        · rw [if_neg (by omega), if_pos h1] at h'; simp at h'
        · by_cases h2 : y.toNat < x.toNat
          · rw [if_neg h1, if_pos h2] at h; simp at h
          · omega
      have e' : x = y := Char.toNat_inj.1 e
      subst e'
      simp only [Nat.lt_irrefl, if_false] at h h'
      rw [ih b h h']

theorem nameLe_trans (a b c : Name) (h : nameLe a b = true) (h' : nameLe b c = true) : nameLe a c = true := by
  induction a generalizing b c with
  | nil => rfl
  | cons x a ih =>
    cases b with
    | nil => simp [nameLe] at h
    | cons y b =>
      cases c with
      | nil => simp [nameLe] at h'
      | cons z c =>
        rw [nameLe] at h h' ⊢
        by_cases h1 : x.toNat < y.toNat
        · by_cases h3 : z.toNat < y.toNat
          · rw [if_neg (by omega), if_pos h3] at h'; simp at h'
          · rw [if_pos (by omega)]
        · rw [if_neg h1] at h
          by_cases h2 : y.toNat < x.toNat
          · rw [if_pos h2] at h; simp at h
          · rw [if_neg h2] at h
            have : x.toNat = y.toNat := by omega
            rw [this]
            by_cases h3 : y.toNat < z.toNat
            · rw [if_pos h3]
            · rw [if_neg h3] at h' ⊢
              by_cases h4 : z.toNat < y.toNat
              · rw [if_pos h4] at h'; simp at h'
              · rw [if_neg h4] at h' ⊢
                exact ih b c h h'

theorem insert_perm (n : Name) (l : List Name) : (insertName n l).Perm (n :: l) := by
  induction l with
  | nil => exact List.Perm.refl _
  | cons m l ih =>
    rw [insertName]
    split
    · exact List.Perm.refl _
    · exact (List.Perm.cons m ih).trans (List.Perm.swap n m l)

theorem sort_perm (l : List Name) : (sortNames l).Perm l := by
  induction l with
  | nil => exact List.Perm.refl _
  | cons n l ih => exact (insert_perm n _).trans (List.Perm.cons n ih)

theorem insert_sorted (n : Name) (l : List Name) (h : l.Pairwise (nameLe · ·)) : (insertName n l).Pairwise (nameLe · ·) := by
  induction l with
  | nil => simp [insertName]
  | cons m l ih =>
    rw [List.pairwise_cons] at h
    rw [insertName]
    split
    · rename_i hnm
      rw [List.pairwise_cons]
      refine ⟨fun x hx => ?_, List.pairwise_cons.2 h⟩
      rcases List.mem_cons.1 hx with rfl | hx
      · exact hnm
      · exact nameLe_trans _ _ _ hnm (h.1 x hx)
    · rename_i hnm
      rw [List.pairwise_cons]
      refine ⟨fun x hx => ?_, ih h.2⟩
      rcases List.mem_cons.1 ((insert_perm n l).mem_iff.1 hx) with rfl | hx
      · rcases nameLe_total x m with h' | h'
        · exact absurd h' hnm
        · exact h'
      · exact h.1 x hx

theorem sort_sorted (l : List Name) : (sortNames l).Pairwise (nameLe · ·) := by
  induction l with
  | nil => exact List.Pairwise.nil
  | cons n l ih => exact insert_sorted n _ ih

/-- Sorting does not depend on the order of the names. -/
theorem sort_eq_of_perm {l l' : List Name} (h : l.Perm l') : sortNames l = sortNames l' := by
  refine List.Perm.eq_of_pairwise (fun a b _ _ => nameLe_antisymm a b) (sort_sorted l) (sort_sorted l') ?_
  exact (sort_perm l).trans (h.trans (sort_perm l').symm)

theorem align_self (l : List Name) (d : List (Name × (ρ → V))) : align l l d = d := by
  induction l with
  | nil => rfl
  | cons u l ih => rw [align, if_pos rfl, ih]

theorem add_names (l acc : List Name) (h : ∀ n ∈ l, n ∈ acc) :
    l.foldl (fun acc n => if n ∈ acc then acc else acc ++ [n]) acc = acc := by
  induction l with
  | nil => rfl
  | cons n l ih =>
    rw [List.foldl_cons, if_pos (h n (by simp))]
    exact ih fun m hm => h m (by simp [hm])

theorem add_fresh (l acc : List Name) (h : (acc ++ l).Nodup) :
    l.foldl (fun acc n => if n ∈ acc then acc else acc ++ [n]) acc = acc ++ l := by
  induction l generalizing acc with
  | nil => simp
  | cons n l ih =>
    have hn : n ∉ acc := by
      intro hn
      rw [List.nodup_append] at h
      exact h.2.2 n hn n (by simp) rfl
    rw [List.foldl_cons, if_neg hn, ih _ (by simpa using h)]
    simp

theorem mem_add (l acc : List Name) (n : Name) :
    n ∈ l.foldl (fun acc n => if n ∈ acc then acc else acc ++ [n]) acc ↔ n ∈ acc ∨ n ∈ l := by
  induction l generalizing acc with
  | nil => simp
  | cons m l ih =>
    rw [List.foldl_cons, ih]
    by_cases hm : m ∈ acc
    · rw [if_pos hm]
      constructor
      · rintro (h | h)
        · exact Or.inl h
        · exact Or.inr (by simp [h])
      · rintro (h | h)
        · exact Or.inl h
        · rcases List.mem_cons.1 h with rfl | h
          · exact Or.inl hm
          · exact Or.inr h
    · rw [if_neg hm]
      simp only [List.mem_append, List.mem_cons, List.not_mem_nil, or_false, or_assoc]

theorem find_record (d : List (Name × (ρ → V))) (r : ρ) (n : Name) : find n (record d r) = (find n d).map fun f => f r := by
  induction d with
  | nil => rfl
  | cons x d ih =>
    obtain ⟨k, f⟩ := x
    by_cases h : k = n
    · simp [record, find, h]
    · simp only [record, List.map_cons, find, h, if_false] at ih ⊢
      exact ih

/-- The value of a column of a branch for an input row. -/
def column (null : V) (b : Branch ρ V) (n : Name) (r : ρ) : V := ((find n b.schema).map fun f => f r).getD null

/-- The values of a branch for an input row, in the order of its columns. -/
def values (b : Branch ρ V) (r : ρ) : List V := b.schema.map fun nf => nf.2 r

theorem foldl_outNames (bs : List (Branch ρ V)) (ns : List Name) (h : ∀ b ∈ bs, ∀ n ∈ names b, n ∈ ns) :
    bs.foldl (fun acc b => (names b).foldl (fun acc n => if n ∈ acc then acc else acc ++ [n]) acc) ns = ns := by
  induction bs with
  | nil => rfl
  | cons b bs ih =>
    rw [List.foldl_cons, add_names _ _ (h b (by simp))]
    exact ih fun b' hb => h b' (by simp [hb])

/-- **C47**, for branches that have the same column names (in any order): the columns are those of the first branch, the rows
those of all branches, each value under its own name. -/
theorem C47_by_name_partial (null : V) (b : Branch ρ V) (bs : List (Branch ρ V)) (hn : (names b).Nodup)
    (hsame : ∀ b' ∈ bs, (names b').Perm (names b)) :
    union null (b :: bs) = (names b, (b :: bs).flatMap fun b' => b'.rows.map fun r => (names b).map fun n => column null b' n r) := by
  have hcols : outNames (b :: bs) = names b := by
    rw [outNames, List.foldl_cons, add_fresh _ _ (by simpa using hn), List.nil_append]
    exact foldl_outNames bs _ fun b' hb n hn => (hsame b' hb).mem_iff.1 hn
  have hal : alignAll (b :: bs) = b :: bs := by
    rw [alignAll]
    congr 1
    conv => rhs; rw [← List.map_id bs]
    refine List.map_congr_left fun b' hb => ?_
    rw [sort_eq_of_perm (hsame b' hb), align_self]; rfl
  rw [union]
  simp only [hcols, hal]
  rw [List.map_flatMap]
  congr 2
  funext b'
  rw [List.map_map]
  refine List.map_congr_left fun r _ => ?_
  refine List.map_congr_left fun n _ => ?_
  rw [find_record]; rfl

theorem column_values (null : V) (b : Branch ρ V) (hn : (names b).Nodup) (r : ρ) :
    (names b).map (fun n => column null b n r) = values b r := by
  rw [names, values, List.map_map]
  refine List.map_congr_left fun nf h => ?_
  show ((find nf.1 b.schema).map fun f => f r).getD null = nf.2 r
  have : ∀ d : List (Name × (ρ → V)), (d.map (·.1)).Nodup → nf ∈ d → find nf.1 d = some nf.2 := by
    intro d hd hm
    induction d with
    | nil => cases hm
    | cons x d ih =>
      simp only [List.map_cons, List.nodup_cons] at hd
      rcases List.mem_cons.1 hm with rfl | hm
      · simp [find]
      · have hne : x.1 ≠ nf.1 := fun e => hd.1 (e ▸ List.mem_map.2 ⟨nf, hm, rfl⟩)
        rw [find, if_neg hne, ih hd.2 hm]
  rw [this b.schema hn h]; rfl

/-- **C47**, for branches that have the same column names in the same order: every branch contributes all of its rows, its i-th
value under the i-th column of the first branch. -/
theorem C47_positional_partial (null : V) (b : Branch ρ V) (bs : List (Branch ρ V)) (hn : (names b).Nodup)
    (hsame : ∀ b' ∈ bs, names b' = names b) :
    union null (b :: bs) = (names b, (b :: bs).flatMap fun b' => b'.rows.map (values b')) := by
  rw [C47_by_name_partial null b bs hn fun b' hb => by rw [hsame b' hb]]
  congr 1
  rw [List.flatMap_def, List.flatMap_def]
  congr 1
  refine List.map_congr_left fun b' hb => ?_
  have hb' : names b' = names b := by
    rcases List.mem_cons.1 hb with rfl | h
    · rfl
    · exact hsame b' h
  refine List.map_congr_left fun r _ => ?_
  rw [← hb']
  exact column_values null b' (hb' ▸ hn) r

/-- No branch loses or gains rows, whatever the columns are. -/
theorem C47_row_count (null : V) (bs : List (Branch ρ V)) :
    (union null bs).2.length = (bs.map fun b => b.rows.length).sum := by
  cases bs with
  | nil => rfl
  | cons b bs =>
    simp only [union, alignAll, List.flatMap_cons, List.length_map, List.length_append, List.map_cons, List.sum_cons]
    congr 1
    induction bs with
    | nil => rfl
    | cons b' bs ih => simp only [List.map_cons, List.flatMap_cons, List.length_append, List.length_map, List.sum_cons, ih]

/-- **C47 is violated by branches with other names**: every column name of every branch is a column of the result. -/
theorem C47_extra_columns_violated (null : V) (bs : List (Branch ρ V)) (n : Name) :
    n ∈ (union null bs).1 ↔ ∃ b ∈ bs, n ∈ names b := by
  show n ∈ outNames bs ↔ _
  have : ∀ (bs : List (Branch ρ V)) acc,
      n ∈ bs.foldl (fun acc b => (names b).foldl (fun acc n => if n ∈ acc then acc else acc ++ [n]) acc) acc ↔
      n ∈ acc ∨ ∃ b ∈ bs, n ∈ names b := by
    intro bs
    induction bs with
    | nil => simp
    | cons b bs ih =>
      intro acc
      rw [List.foldl_cons, ih, mem_add]
      simp only [List.mem_cons, exists_eq_or_imp, or_assoc]
  rw [outNames, this]
  simp

end

section
open Verif.Union

/-- **C47 is violated by position**: SELECT 1 AS a, 2 AS b UNION SELECT 3 AS b, 4 AS a puts 4 under `a`. -/
theorem C47_position_violated :
    union (none : Option Nat) [⟨[(['a'], fun _ : Unit => some 1), (['b'], fun _ => some 2)], [()]⟩,
      ⟨[(['b'], fun _ => some 3), (['a'], fun _ => some 4)], [()]⟩] =
    ([['a'], ['b']], [[some 1, some 2], [some 4, some 3]]) := by decide +kernel

/-- … and it can lose a column: SELECT 1 AS b, 2 AS x UNION SELECT 3 AS a, 4 AS b gives the second row 3 under all of `b`, `x`
and `a`; the 4 is gone. -/
theorem C47_overwritten_violated :
    union (none : Option Nat) [⟨[(['b'], fun _ : Unit => some 1), (['x'], fun _ => some 2)], [()]⟩,
      ⟨[(['a'], fun _ => some 3), (['b'], fun _ => some 4)], [()]⟩] =
    ([['b'], ['x'], ['a']], [[some 1, some 2, none], [some 3, some 3, some 3]]) := by decide +kernel

/-- UNION does not remove duplicates: SELECT 1 AS a UNION SELECT 1 AS a has two rows. -/
theorem C47_duplicates_violated :
    (union (none : Option Nat) [⟨[(['a'], fun _ : Unit => some 1)], [()]⟩, ⟨[(['a'], fun _ => some 1)], [()]⟩]).2 =
    [[some 1], [some 1]] := by decide +kernel

/-- C47 on two branches with the columns `a`, `b`, of two rows and one row. -/
example : union (none : Option Nat) [⟨[(['a'], fun r : Nat => some r), (['b'], fun r => some (r + 1))], [1, 5]⟩,
      ⟨[(['a'], fun r => some (10 * r)), (['b'], fun _ => none)], [7]⟩] =
    ([['a'], ['b']], [[some 1, some 2], [some 5, some 6], [some 70, none]]) := by
  rw [C47_positional_partial _ _ _ (by decide) (by simp [names])]
  decide +kernel

end

end Verif.Props
