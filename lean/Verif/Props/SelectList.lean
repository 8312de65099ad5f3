import Verif.Spec.SelectList
/-! C78: the columns of a SELECT. -/
namespace Verif.Props
namespace SL
open Verif.SelectList Verif.SqlSelectList

theorem put_new {k : Name} {v : Cell} {d : List (Name × Cell)} (h : k ∉ d.map (·.1)) : put k v d = d ++ [(k, v)] := by
  induction d with
  | nil => rfl
  | cons p d ih =>
    obtain ⟨k', v'⟩ := p
    simp only [List.map_cons, List.mem_cons, not_or] at h
    rw [put, if_neg fun e => h.1 e.symm, ih h.2]
    rfl

theorem has_iff {k : Name} {d : List (Name × Cell)} : has k d = true ↔ k ∈ d.map (·.1) := by simp [has]

theorem addStar_new (t : Name) (ns : List Name) (d : List (Name × Cell)) (h : (d.map (·.1) ++ ns).Nodup) :
    addStar t ns d = d ++ ns.map fun c => (c, .col t c) := by
  induction ns generalizing d with
  | nil => simp [addStar]
  | cons n ns ih =>
    have hn : n ∉ d.map (·.1) := by
      intro hc
      exact (List.nodup_append.1 h).2.2 n hc n (by simp) rfl
    rw [addStar, if_neg (by rw [has_iff]; exact hn), put_new hn, ih _ (by simpa using h)]
    simp

/-- The scope of a statement: the FROM table with its columns, the joined tables with theirs. -/
def scope (primary : Tab) (own : List Name) (joins : List (Tab × List Name)) : Scope :=
  (primary.key, own) :: joins.map fun j => (j.1.key, j.2)

/-- The items C78 is proved for: `*` over a subquery alone, `t.*` of subqueries with known columns, references to the tables by
their names, references without table to columns of the FROM table only. -/
def Fits (primary : Tab) (own : List Name) (joins : List (Tab × List Name)) : Item → Prop
  | .star => joins = [] ∧ primary.sub = some (some own) ∧ primary.alias ≠ none
  | .tableStar t => (primary.alias = some t ∧ primary.sub = some (some own)) ∨
      (∃ j ∈ joins, j.1.key = t ∧ j.1.sub = some (some j.2) ∧ primary.alias ≠ some t)
  | .col r a => (a = none → '.' ∉ r.col) ∧ match r.key with
    | none => r.col ∈ own ∧ ∀ j ∈ joins, r.col ∉ j.2
    | some t => t = primary.key ∨ t ∈ joins.map (·.1.key)
  | .other _ _ _ => True

theorem filter_key {sc : Scope} (hn : (sc.map (·.1)).Nodup) {x : Name × List Name} (hx : x ∈ sc) :
    (sc.filter fun y => decide (y.1 = x.1)) = [x] := by
  induction sc with
  | nil => cases hx
  | cons y sc ih =>
    simp only [List.map_cons, List.nodup_cons] at hn
    rcases List.mem_cons.1 hx with rfl | h
    · have : (sc.filter fun y => decide (y.1 = x.1)) = [] := by
        rw [List.filter_eq_nil_iff]
        intro z hz hd
        rw [decide_eq_true_iff] at hd
        exact hn.1 (List.mem_map.2 ⟨z, hz, hd⟩)
      simp [this]
    · have hne : y.1 ≠ x.1 := fun e => hn.1 (List.mem_map.2 ⟨x, h, e.symm⟩)
      rw [List.filter_cons_of_neg (by simpa using hne)]
      exact ih hn.2 h

theorem find_key {joins : List (Tab × List Name)} (hn : (joins.map (·.1.key)).Nodup) {j : Tab × List Name} (hj : j ∈ joins) :
    (joins.map (·.1)).find? (fun x => decide (x.key = j.1.key)) = some j.1 := by
  induction joins with
  | nil => cases hj
  | cons y joins ih =>
    simp only [List.map_cons, List.nodup_cons] at hn
    rcases List.mem_cons.1 hj with rfl | h
    · simp
    · have hne : y.1.key ≠ j.1.key := fun e => hn.1 (List.mem_map.2 ⟨j, h, e.symm⟩)
      rw [List.map_cons, List.find?_cons_of_neg (by simpa using hne)]
      exact ih hn.2 h

theorem noDots (n : Name) (h : '.' ∉ n) : (n.map fun c => if c = '.' then '_' else c) = n := by
  induction n with
  | nil => rfl
  | cons c n ih =>
    simp only [List.mem_cons, not_or] at h
    simp only [List.map_cons]
    rw [ih h.2, if_neg fun e => h.1 e.symm]

theorem filter_own {own : List Name} {joins : List (Tab × List Name)} {c k : Name} (h : c ∈ own) (hj : ∀ j ∈ joins, c ∉ j.2) :
    (((k, own) :: joins.map fun j => (j.1.key, j.2) : Scope).filter fun x => x.2.contains c) = [(k, own)] := by
  rw [List.filter_cons_of_pos (by simpa using h), List.filter_eq_nil_iff.2]
  intro x hx
  obtain ⟨j, hj', rfl⟩ := List.mem_map.1 hx
  simpa using hj j hj'

theorem step_fits (primary : Tab) (own : List Name) (joins : List (Tab × List Name))
    (hn : ((scope primary own joins).map (·.1)).Nodup) (i : Item) (h : Fits primary own joins i) (d : List (Name × Cell))
    (hd : (d.map (·.1) ++ (columns (scope primary own joins) i).map (·.1)).Nodup) :
    step primary (joins.map (·.1)) (.dict d) i = some (.dict (d ++ columns (scope primary own joins) i)) := by
  have hkeys : ((scope primary own joins).map (·.1)) = primary.key :: joins.map (·.1.key) := by
    simp [scope]
  cases i with
  | star =>
    obtain ⟨rfl, hs, ha⟩ := h
    have hc : columns (scope primary own []) .star = own.map fun c => (c, .col primary.key c) := by
      simp [columns, scope, allColumns]
    rw [hc] at hd ⊢
    have hk : primary.alias.getD primary.key = primary.key := by
      unfold Tab.key
      cases hal : primary.alias with
      | none => exact absurd hal ha
      | some a => rfl
    simp only [step, starOf, hs, hk]
    rw [addStar_new _ _ _ (by simpa [Function.comp_def] using hd)]
  | tableStar t =>
    rcases h with ⟨ha, hs⟩ | ⟨j, hj, rfl, hs, ha⟩
    · have hk : primary.key = t := by simp [Tab.key, ha]
      have hc : columns (scope primary own joins) (.tableStar t) = own.map fun c => (c, .col t c) := by
        have := filter_key hn (x := (primary.key, own)) (by simp [scope])
        simp only [columns]
        simp only [hk] at this
        rw [this]
        simp [allColumns]
      rw [hc] at hd ⊢
      simp only [step, starOf, ha, hs, if_true]
      rw [addStar_new _ _ _ (by simpa [Function.comp_def] using hd)]
    · have hc : columns (scope primary own joins) (.tableStar j.1.key) = j.2.map fun c => (c, .col j.1.key c) := by
        have := filter_key hn (x := (j.1.key, j.2)) (by simp only [scope, List.mem_cons, List.mem_map]; exact Or.inr ⟨j, hj, rfl⟩)
        simp only [columns]
        rw [this]
        simp [allColumns]
      rw [hc] at hd ⊢
      rw [hkeys, List.nodup_cons] at hn
      simp only [step, starOf]
      rw [if_neg fun e => ha e.symm, find_key hn.2 hj]
      simp only [hs]
      rw [addStar_new _ _ _ (by simpa [Function.comp_def] using hd)]
  | col r a =>
    obtain ⟨hdot, hr⟩ := h
    cases hk : r.key with
    | none =>
      rw [hk] at hr
      have hc : columns (scope primary own joins) (.col r a) = [(a.getD r.col, .col primary.key r.col)] := by
        simp only [columns, hk]
        rw [scope, filter_own hr.1 hr.2]
        rfl
      rw [hc] at hd ⊢
      have hname : colName d r a = a.getD r.col := by
        cases a with
        | some a => rfl
        | none => simp only [colName, hk, noDots _ (hdot rfl)]; rfl
      have hfresh : a.getD r.col ∉ d.map (·.1) := fun hm => (List.nodup_append.1 hd).2.2 _ hm _ (by simp) rfl
      simp only [step, refTable, hk, Option.map_some, hname, put_new hfresh]
    | some t =>
      rw [hk] at hr
      have hc : columns (scope primary own joins) (.col r a) = [(a.getD r.col, .col t r.col)] := by simp only [columns, hk]
      rw [hc] at hd ⊢
      have hfresh : a.getD r.col ∉ d.map (·.1) := fun hm => (List.nodup_append.1 hd).2.2 _ hm _ (by simp) rfl
      have hname : colName d r a = a.getD r.col := by
        cases a with
        | some a => rfl
        | none =>
          simp only [colName, hk, noDots _ (hdot rfl)]
          rw [if_neg]
          · rfl
          · rw [has_iff]; exact hfresh
      have ht : refTable primary (joins.map (·.1)) r = some t := by
        simp only [refTable, hk]
        by_cases h1 : t = primary.key
        · rw [if_pos h1]
        · rw [if_neg h1, if_pos]
          rcases hr with hr | hr
          · exact absurd hr h1
          · simpa [Function.comp_def] using hr
      simp only [step, ht, Option.map_some, hname, put_new hfresh]
  | other id text a =>
    have hfresh : a.getD text ∉ d.map (·.1) := fun hm => (List.nodup_append.1 hd).2.2 _ hm _ (by simp [columns]) rfl
    simp only [step, columns, put_new hfresh]

theorem list_fits (primary : Tab) (own : List Name) (joins : List (Tab × List Name))
    (hn : ((scope primary own joins).map (·.1)).Nodup) (is : List Item) (h : ∀ i ∈ is, Fits primary own joins i)
    (d : List (Name × Cell)) (hd : (d.map (·.1) ++ (is.flatMap (columns (scope primary own joins))).map (·.1)).Nodup) :
    compileList primary (joins.map (·.1)) (.dict d) is = some (.dict (d ++ is.flatMap (columns (scope primary own joins)))) := by
  induction is generalizing d with
  | nil => simp [compileList]
  | cons i is ih =>
    rw [List.flatMap_cons, List.map_append, ← List.append_assoc] at hd
    rw [compileList, step_fits primary own joins hn i (h i (by simp)) d (List.nodup_append.1 hd).1, Option.bind_some,
      ih (fun i hi => h i (by simp [hi])) _ (by simpa using hd)]
    simp

end SL

open Verif.SelectList Verif.SqlSelectList SL

variable {V : Type}

/-- **C78**: a select list of such items over tables with different names, whose columns have different names, is accepted, and
every row of the result has SQL's columns, in order, with SQL's values. -/
theorem C78_columns_partial (env : Name → Name → V) (comp : Nat → V) (primary : Tab) (own : List Name) (joins : List (Tab × List Name))
    (hn : ((scope primary own joins).map (·.1)).Nodup) (is : List Item) (h : ∀ i ∈ is, Fits primary own joins i)
    (hd : ((is.flatMap (columns (scope primary own joins))).map (·.1)).Nodup) :
    select env comp primary own (joins.map (·.1)) is = some (row env comp (scope primary own joins) is) := by
  rw [select, list_fits primary own joins hn is h [] (by simpa using hd)]
  rfl

/-- **C78**: `SELECT * FROM t` alone has the columns of the table. -/
theorem C78_star (env : Name → Name → V) (comp : Nat → V) (primary : Tab) (own : List Name) (hs : ∀ ns, primary.sub ≠ some (some ns)) :
    select env comp primary own [] [.star] = some (row env comp (scope primary own []) [.star]) := by
  have : starOf primary [] none = none := by
    match hsub : primary.sub with
    | none => simp only [starOf, hsub]
    | some none => simp only [starOf, hsub]
    | some (some ns) => exact absurd hsub (hs ns)
  simp only [select, compileList, step, this, Option.bind_some, Option.map_some, rowOf]
  simp [row, columns, scope, allColumns, Function.comp_def]

/-- The tables of the example: `FROM t a JOIN (SELECT id, name FROM u) b`. -/
def SL.aTab : Tab := ⟨"--".toList, ['t'], some ['a'], none⟩
def SL.bTab : Tab := ⟨"--".toList, "__subquery_1_b".toList, some ['b'], some (some ["id".toList, "name".toList])⟩

/-- C78 covers `SELECT x, a.y AS z, 1 + 1, b.* FROM t a JOIN (SELECT id, name FROM u) b …`. -/
example : let is : List Item := [.col ⟨none, none, ['x']⟩ none, .col ⟨none, some ['a'], ['y']⟩ (some ['z']), .other 0 "1 + 1".toList none,
      .tableStar ['b']]
    ((scope aTab [['x'], ['y']] [(bTab, ["id".toList, "name".toList])]).map (·.1)).Nodup ∧
    (∀ i ∈ is, Fits aTab [['x'], ['y']] [(bTab, ["id".toList, "name".toList])] i) ∧
    ((is.flatMap (columns (scope aTab [['x'], ['y']] [(bTab, ["id".toList, "name".toList])]))).map (·.1)).Nodup := by
  refine ⟨by decide +kernel, ?_, by decide +kernel⟩
  intro i hi
  simp only [List.mem_cons, List.mem_nil_iff, or_false] at hi
  rcases hi with rfl | rfl | rfl | rfl
  · exact ⟨by decide, by simp [Ref.key]⟩
  · refine ⟨by decide, ?_⟩
    left; rfl
  · trivial
  · right
    refine ⟨_, List.mem_singleton.2 rfl, rfl, rfl, by decide⟩

/-! ### Where C78 is false -/

theorem SL.compileList_append (primary : Tab) (joins : List Tab) (s : Sch) (is is' : List Item) :
    compileList primary joins s (is ++ is') = (compileList primary joins s is).bind fun s => compileList primary joins s is' := by
  induction is generalizing s with
  | nil => rfl
  | cons i is ih =>
    simp only [List.cons_append, compileList]
    cases step primary joins s i with
    | none => rfl
    | some s => simp only [Option.bind_some]; exact ih s

/-- **C78 is false for `*` over a table after other columns**: they are dropped without an error (`SELECT a + 1 AS x, * FROM t`). -/
theorem C78_star_drops_violated (env : Name → Name → V) (comp : Nat → V) (primary : Tab) (own : List Name) (joins : List Tab)
    (hs : primary.sub = none) (is : List Item) (r : List (Name × V)) (h : select env comp primary own joins is = some r) :
    select env comp primary own joins (is ++ [.star]) = some (own.map fun c => (c, env primary.key c)) := by
  unfold select at h ⊢
  rw [compileList_append]
  cases hc : compileList primary joins (.dict []) is with
  | none => rw [hc] at h; cases h
  | some s => simp [compileList, step, starOf, hs, rowOf]

/-- **C78 is false for `*` over a table before other columns**: the statement is refused (`SELECT *, a + 1 AS x FROM t`). -/
theorem C78_star_first_violated (env : Name → Name → V) (comp : Nat → V) (primary : Tab) (own : List Name) (joins : List Tab)
    (hs : primary.sub = none) (id : Nat) (text : Name) (a : Option Name) (is : List Item) :
    select env comp primary own joins (.star :: .other id text a :: is) = none := by
  simp [select, compileList, step, starOf, hs]

/-- **C78 is false for `*` beside joins**: the columns of the joined tables are missing, whatever they are; SQL has them all. -/
theorem C78_star_joins_violated (env : Name → Name → V) (comp : Nat → V) (primary : Tab) (own : List Name) (joins : List (Tab × List Name))
    (hs : primary.sub = none) :
    select env comp primary own (joins.map (·.1)) [.star] = some (own.map fun c => (c, env primary.key c)) ∧
    row env comp (scope primary own joins) [.star] = (own.map fun c => (c, env primary.key c)) ++
      joins.flatMap fun j => j.2.map fun c => (c, env j.1.key c) := by
  refine ⟨by simp [select, compileList, step, starOf, hs, rowOf], ?_⟩
  simp [row, columns, scope, allColumns, Function.comp_def, List.flatMap_map, List.map_flatMap]

/-- The same for a subquery in FROM. -/
theorem C78_star_joins_subquery_violated (env : Name → Name → V) (comp : Nat → V) (primary : Tab) (own : List Name) (joins : List Tab)
    (a : Name) (ha : primary.alias = some a) (hs : primary.sub = some (some own)) (hn : own.Nodup) :
    select env comp primary own joins [.star] = some (own.map fun c => (c, env a c)) := by
  have h := addStar_new a own [] (by simpa using hn)
  simp only [List.nil_append] at h
  simp [select, compileList, step, starOf, hs, ha, h, rowOf, Function.comp_def]

/-- **C78 is false for `t.*` of a table**: it is refused. -/
theorem C78_table_star_violated (env : Name → Name → V) (comp : Nat → V) (primary : Tab) (own : List Name) (joins : List Tab) (t : Name)
    (hs : primary.sub = none) (hj : ∀ j ∈ joins, j.sub = none) (is : List Item) :
    select env comp primary own joins (.tableStar t :: is) = none := by
  have : starOf primary joins (some t) = none := by
    simp only [starOf, hs]
    split
    · rfl
    · cases hf : joins.find? fun j => decide (j.key = t) with
      | none => rfl
      | some j => simp only [hj j (List.mem_of_find?_eq_some hf)]
  simp [select, compileList, step, this]

/-- **C78 is false for a table without an alias**: its own name does not mean it (`SELECT t.a FROM t` is refused). -/
theorem C78_own_name_violated (env : Name → Name → V) (comp : Nat → V) (db t c : Name) (own : List Name) (a : Option Name) (is : List Item)
    (ht : '.' ∉ t) :
    select env comp ⟨db, t, none, none⟩ own [] (.col ⟨none, some t, c⟩ a :: is) = none := by
  have hne : t ≠ db ++ '.' :: t := by
    intro h
    apply ht
    rw [h]; simp
  simp [select, compileList, step, refTable, Ref.key, Tab.key, hne]

/-- **C78 is false for a column of a joined table without its table**: it is looked up in the FROM table. -/
theorem C78_unqualified_violated (env : Name → Name → V) (comp : Nat → V) (primary : Tab) (own : List Name) (j : Tab) (c : Name)
    (hdot : '.' ∉ c) (hc : c ∉ own) :
    select env comp primary own [j] [.col ⟨none, none, c⟩ none] = some [(c, env primary.key c)] ∧
    row env comp (scope primary own [(j, [c])]) [.col ⟨none, none, c⟩ none] = [(c, env j.key c)] := by
  refine ⟨?_, ?_⟩
  · simp only [select, compileList, step, refTable, Ref.key, Option.map_some, Option.bind_some, colName, noDots c hdot, put]
    rfl
  · simp [row, columns, scope, Ref.key, hc]

theorem SL.put_names (k : Name) (v : Cell) (d : List (Name × Cell)) : (put k v d).map (·.1) = if k ∈ d.map (·.1) then d.map (·.1) else d.map (·.1) ++ [k] := by
  induction d with
  | nil => simp [put]
  | cons p d ih =>
    obtain ⟨k', v'⟩ := p
    by_cases h : k' = k
    · simp [put, h]
    · have hk : k ≠ k' := fun e => h e.symm
      simp only [put, if_neg h, List.map_cons, ih, List.mem_cons, hk, false_or]
      split <;> simp

/-- **C78 is false for equal names**: a result never has two columns of the same name; of two items with the same alias the second
takes the place of the first. -/
theorem C78_same_names_violated (env : Name → Name → V) (comp : Nat → V) (primary : Tab) (own : List Name) (joins : List Tab)
    (i j : Nat) (n text text' : Name) :
    select env comp primary own joins [.other i text (some n), .other j text' (some n)] = some [(n, comp j)] ∧
    row env comp (scope primary own []) [.other i text (some n), .other j text' (some n)] = [(n, comp i), (n, comp j)] := by
  refine ⟨?_, rfl⟩
  simp [select, compileList, step, put, rowOf]

/-- No result has two columns of the same name (unless a table of the data has). -/
theorem C78_names_distinct (env : Name → Name → V) (comp : Nat → V) (primary : Tab) (own : List Name) (hown : own.Nodup)
    (joins : List Tab) (is : List Item) (r : List (Name × V)) (h : select env comp primary own joins is = some r) :
    (r.map (·.1)).Nodup := by
  have hput : ∀ (k : Name) (v : Cell) (d : List (Name × Cell)), (d.map (·.1)).Nodup → ((put k v d).map (·.1)).Nodup := by
    intro k v d hd
    rw [put_names]
    split
    · exact hd
    · rename_i hk
      rw [List.nodup_append]
      refine ⟨hd, by simp, ?_⟩
      intro a ha b hb
      cases List.mem_singleton.1 hb
      rintro rfl
      exact hk ha
  have hstar : ∀ (t : Name) (ns : List Name) (d : List (Name × Cell)), (d.map (·.1)).Nodup → ((addStar t ns d).map (·.1)).Nodup := by
    intro t ns
    induction ns with
    | nil => intro d hd; exact hd
    | cons n ns ih =>
      intro d hd
      rw [addStar]
      split
      · exact ih d hd
      · exact ih _ (hput _ _ _ hd)
  let ok : Sch → Prop := fun s => match s with
    | .all => True
    | .dict d => (d.map (·.1)).Nodup
  have hstep : ∀ s i s', ok s → step primary joins s i = some s' → ok s' := by
    intro s i s' hs hst
    cases i with
    | star =>
      simp only [step] at hst
      split at hst
      · cases hst; trivial
      · split at hst
        · cases hst; exact hstar _ _ _ hs
        · split at hst
          · cases hst; trivial
          · cases hst
    | tableStar t =>
      simp only [step] at hst
      split at hst
      · cases hst
      · split at hst
        · cases hst; exact hstar _ _ _ hs
        · split at hst
          · cases hst; trivial
          · cases hst
    | col r a =>
      cases s with
      | all => cases hst
      | dict d =>
        simp only [step] at hst
        cases hr : refTable primary joins r with
        | none => rw [hr] at hst; cases hst
        | some t => rw [hr] at hst; cases hst; exact hput _ _ _ hs
    | other id text a =>
      cases s with
      | all => cases hst
      | dict d => cases hst; exact hput _ _ _ hs
  have hlist : ∀ is s s', ok s → compileList primary joins s is = some s' → ok s' := by
    intro is
    induction is with
    | nil => intro s s' hs hc; cases hc; exact hs
    | cons i is ih =>
      intro s s' hs hc
      simp only [compileList] at hc
      cases hst : step primary joins s i with
      | none => rw [hst] at hc; cases hc
      | some s1 => rw [hst] at hc; exact ih s1 s' (hstep s i s1 hs hst) hc
  unfold select at h
  cases hc : compileList primary joins (.dict []) is with
  | none => rw [hc] at h; cases h
  | some s =>
    rw [hc] at h
    cases h
    have := hlist is (.dict []) s (by simp [ok]) hc
    cases s with
    | all => simpa [rowOf, Function.comp_def] using hown
    | dict d => simpa [rowOf, Function.comp_def, ok] using this

end Verif.Props
