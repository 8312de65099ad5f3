import Verif.Spec.Config
/-! Dictionaries, named lists and merging. -/
namespace Verif.ConfigProofs
open Verif.Val Verif.Json Verif.Config Verif.ConfigSpec

section
variable {α : Type}

theorem look_eq (k : Str) (d : List (Str × α)) : valueOf k d = look k d := by
  induction d with
  | nil => rfl
  | cons x d ih =>
    obtain ⟨k', v⟩ := x
    by_cases h : k' = k
    · simp [valueOf, look, h]
    · rw [look, if_neg h, ← ih]
      simp [valueOf, List.find?_cons, h]

theorem look_ins (k k' : Str) (v : α) (d : List (Str × α)) : look k' (ins k v d) = if k = k' then some v else look k' d := by
  induction d with
  | nil => by_cases h : k = k' <;> simp [ins, look, h]
  | cons x d ih =>
    obtain ⟨k1, v1⟩ := x
    by_cases h1 : k1 = k
    · subst h1
      by_cases h : k1 = k' <;> simp [ins, look, h]
    · by_cases h : k1 = k'
      · subst h; simp [ins, h1, look, Ne.symm h1]
      · simp only [ins, h1, if_false, look, h, ih]

theorem look_del (k k' : Str) (d : List (Str × α)) : look k' (del k d) = if k = k' then none else look k' d := by
  induction d with
  | nil => simp [del, look]
  | cons x d ih =>
    obtain ⟨k1, v1⟩ := x
    rw [del] at ih ⊢
    by_cases h1 : k1 = k
    · subst h1
      simp only [List.filter_cons, ne_eq, not_true, decide_false, Bool.false_eq_true, if_false, ih, look]
      by_cases h : k1 = k' <;> simp [h]
    · simp only [List.filter_cons, ne_eq, h1, not_false_eq_true, decide_true, if_true, look, ih]
      by_cases h : k1 = k'
      · subst h; simp [Ne.symm h1]
      · simp [h]

theorem ins_keys (k : Str) (v : α) (d : List (Str × α)) :
    (ins k v d).map (·.1) = if k ∈ d.map (·.1) then d.map (·.1) else d.map (·.1) ++ [k] := by
  induction d with
  | nil => simp [ins]
  | cons x d ih =>
    obtain ⟨k1, v1⟩ := x
    by_cases h : k1 = k
    · simp [ins, h]
    · rw [ins, if_neg h, List.map_cons, ih]
      by_cases h2 : k ∈ d.map (·.1)
      · simp only [h2, if_true, List.map_cons, List.mem_cons, or_true]
      · simp only [h2, if_false, List.map_cons, List.mem_cons, Ne.symm h, or_false, List.cons_append]

theorem ins_nodup {k : Str} {v : α} {d : List (Str × α)} (h : (d.map (·.1)).Nodup) : ((ins k v d).map (·.1)).Nodup := by
  rw [ins_keys]
  split
  · exact h
  · rename_i hk
    rw [List.nodup_append]
    exact ⟨h, by simp, fun a ha b hb => by simp only [List.mem_singleton] at hb; rintro rfl; exact hk (hb ▸ ha)⟩

theorem update_cons (d : List (Str × α)) (k : Str) (v : α) (e : List (Str × α)) :
    update d ((k, v) :: e) = update (ins k v d) e := rfl

theorem update_nodup {d e : List (Str × α)} (h : (d.map (·.1)).Nodup) : ((update d e).map (·.1)).Nodup := by
  induction e generalizing d with
  | nil => exact h
  | cons x e ih => exact ih (ins_nodup h)

theorem look_none {k : Str} {d : List (Str × α)} : look k d = none ↔ k ∉ d.map (·.1) := by
  induction d with
  | nil => simp [look]
  | cons x d ih =>
    obtain ⟨k1, v1⟩ := x
    rw [look]
    by_cases h : k1 = k
    · simp [h]
    · rw [if_neg h, ih]; simp [Ne.symm h]

theorem look_update (k : Str) (d e : List (Str × α)) (he : (e.map (·.1)).Nodup) :
    look k (update d e) = orElse (look k e) (look k d) := by
  induction e generalizing d with
  | nil => rfl
  | cons x e ih =>
    obtain ⟨k1, v1⟩ := x
    simp only [List.map_cons, List.nodup_cons] at he
    rw [update_cons, ih _ he.2, look_ins, look]
    by_cases h : k1 = k
    · subst h
      rw [if_pos rfl, if_pos rfl, look_none.2 he.1]; rfl
    · rw [if_neg h, if_neg h]

theorem ins_same {k : Str} {v : α} {d : List (Str × α)} (h : look k d = some v) : ins k v d = d := by
  induction d with
  | nil => simp [look] at h
  | cons x d ih =>
    obtain ⟨k1, v1⟩ := x
    rw [look] at h
    by_cases h1 : k1 = k
    · rw [if_pos h1] at h; cases h; rw [ins, if_pos h1]
    · rw [if_neg h1] at h; rw [ins, if_neg h1, ih h]

theorem update_same {d e : List (Str × α)} (h : ∀ k v, look k e = some v → look k d = some v) (he : (e.map (·.1)).Nodup) :
    update d e = d := by
  induction e with
  | nil => rfl
  | cons x e ih =>
    obtain ⟨k1, v1⟩ := x
    simp only [List.map_cons, List.nodup_cons] at he
    rw [update_cons, ins_same (h k1 v1 (by simp [look]))]
    refine ih (fun k v hv => h k v ?_) he.2
    rw [look, if_neg, hv]
    rintro rfl
    rw [look_none.2 he.1] at hv
    cases hv

/-- Updating twice is updating once. -/
theorem update_idem (d e : List (Str × α)) (he : (e.map (·.1)).Nodup) : update (update d e) e = update d e :=
  update_same (fun k v h => by rw [look_update k d e he, h]; rfl) he

end

/-! ### Named lists -/

def findDb (n : Str) (l : List Db) : Option Db := l.find? fun d => d.name = n
def names (l : List Db) : List Str := l.map (·.name)

theorem any_name {n : Str} {l : List Db} : (l.any fun x => x.name = n) = true ↔ n ∈ names l := by
  simp [names, List.any_eq_true]

theorem findDb_none {n : Str} {l : List Db} : findDb n l = none ↔ n ∉ names l := by
  simp [findDb, names, List.find?_eq_none]

theorem findDb_cons (n : Str) (d : Db) (l : List Db) : findDb n (d :: l) = if d.name = n then some d else findDb n l := by
  by_cases h : d.name = n <;> simp [findDb, List.find?_cons, h]

def upd (e d : Db) : Db := { e with props := update e.props d.props }

theorem updateLast_names (d : Db) (l : List Db) : names (updateLast d l) = names l := by
  induction l with
  | nil => rfl
  | cons e l ih =>
    rw [updateLast]
    split
    · simpa [names] using ih
    · split <;> simp [names]

theorem updateLast_find (d : Db) (l : List Db) (hl : (names l).Nodup) (n : Str) :
    findDb n (updateLast d l) = if d.name = n then (findDb n l).map (fun e => upd e d) else findDb n l := by
  induction l with
  | nil => simp [updateLast, findDb]
  | cons e l ih =>
    simp only [names, List.map_cons, List.nodup_cons] at hl
    rw [updateLast]
    by_cases ha : d.name ∈ names l
    · rw [if_pos (any_name.2 ha), findDb_cons, findDb_cons, ih hl.2]
      by_cases h : e.name = n
      · have : d.name ≠ n := by rintro rfl; exact hl.1 (h ▸ ha)
        simp [h, this]
      · simp [h]
    · rw [if_neg (by rw [any_name]; exact ha)]
      by_cases he : e.name = d.name
      · rw [if_pos he, findDb_cons, findDb_cons]
        by_cases h : d.name = n
        · have h' : e.name = n := he.trans h
          show (if e.name = n then _ else _) = _
          rw [if_pos h', if_pos h', if_pos h]; rfl
        · have h' : ¬ e.name = n := fun x => h (he ▸ x)
          show (if e.name = n then _ else _) = _
          rw [if_neg h', if_neg h', if_neg h]
      · rw [if_neg he, findDb_cons]
        by_cases h : d.name = n
        · subst h
          rw [if_pos rfl, if_neg he, findDb_none.2 ha]; rfl
        · rw [if_neg h]

/-- One step of the merge. -/
def mstep (e : List Db) (acc : List Db × List Db) (d : Db) : List Db × List Db :=
  if e.any (fun x => x.name = d.name) then (updateLast d acc.1, acc.2) else (acc.1, acc.2 ++ [d])

theorem mergeNamed_eq (e l : List Db) : mergeNamed e l = (l.foldl (mstep e) (e, [])).1 ++ (l.foldl (mstep e) (e, [])).2 := rfl

theorem fold_names (e l a b : List Db) : names (l.foldl (mstep e) (a, b)).1 = names a := by
  induction l generalizing a b with
  | nil => rfl
  | cons d l ih =>
    rw [List.foldl_cons, mstep]
    split
    · rw [ih, updateLast_names]
    · rw [ih]

theorem fold_second (e l a b : List Db) :
    (l.foldl (mstep e) (a, b)).2 = b ++ l.filter fun d => !(e.any fun x => x.name = d.name) := by
  induction l generalizing a b with
  | nil => simp
  | cons d l ih =>
    rw [List.foldl_cons, mstep]
    split
    · rename_i h
      rw [ih, List.filter_cons, h]; rfl
    · rename_i h
      rw [ih, List.filter_cons]
      have : (e.any fun x => decide (x.name = d.name)) = false := by simpa using h
      rw [this]; simp

theorem fold_find (e l a b : List Db) (hn : names a = names e) (he : (names e).Nodup) (hl : (names l).Nodup) (n : Str) :
    findDb n (l.foldl (mstep e) (a, b)).1 =
    match findDb n a, findDb n l with
    | some x, some d => some (upd x d)
    | some x, none => some x
    | none, _ => none := by
  induction l generalizing a b with
  | nil =>
    rw [List.foldl_nil]
    have : findDb n [] = none := rfl
    rw [this]
    cases findDb n a <;> rfl
  | cons d l ih =>
    simp only [names, List.map_cons, List.nodup_cons] at hl
    rw [List.foldl_cons, mstep, findDb_cons]
    by_cases hmem : d.name ∈ names e
    · rw [if_pos (any_name.2 hmem), ih _ _ (by rw [updateLast_names, hn]) hl.2, updateLast_find _ _ (hn ▸ he)]
      by_cases h : d.name = n
      · subst h
        have : findDb d.name l = none := findDb_none.2 hl.1
        rw [if_pos rfl, if_pos rfl, this]
        cases findDb d.name a <;> rfl
      · rw [if_neg h, if_neg h]
    · rw [if_neg (by rw [any_name]; exact hmem), ih _ _ hn hl.2]
      by_cases h : d.name = n
      · subst h
        have : findDb d.name a = none := findDb_none.2 (hn ▸ hmem)
        rw [this]
      · rw [if_neg h]

theorem find_append (n : Str) (a b : List Db) : findDb n (a ++ b) = orElse (findDb n a) (findDb n b) := by
  rw [findDb, List.find?_append]
  show Option.or (findDb n a) (findDb n b) = _
  cases findDb n a <;> rfl

theorem find_filter (n : Str) (l : List Db) (p : Db → Bool) (h : ∀ d, d.name = n → p d = true) :
    findDb n (l.filter p) = findDb n l := by
  induction l with
  | nil => rfl
  | cons d l ih =>
    rw [List.filter_cons, findDb_cons]
    by_cases hd : d.name = n
    · rw [if_pos (h d hd), findDb_cons, if_pos hd, if_pos hd]
    · rw [if_neg hd]
      split
      · rw [findDb_cons, if_neg hd, ih]
      · exact ih

/-- Merging named lists, entry by entry. -/
theorem mergeNamed_find (e l : List Db) (he : (names e).Nodup) (hl : (names l).Nodup) (n : Str) :
    findDb n (mergeNamed e l) =
    match findDb n e, findDb n l with
    | some x, some d => some (upd x d)
    | some x, none => some x
    | none, o => o := by
  rw [mergeNamed_eq, find_append, fold_find e l e [] rfl he hl]
  cases h : findDb n e with
  | some x => cases findDb n l <;> rfl
  | none =>
    simp only [orElse]
    rw [fold_second, List.nil_append, find_filter]
    intro d hd
    subst hd
    rw [Bool.not_eq_true', Bool.eq_false_iff, Ne, any_name]
    exact findDb_none.1 h

theorem updateLast_props (d : Db) (hd : (d.props.map (·.1)).Nodup) (l : List Db) (hl : ∀ x ∈ l, (x.props.map (·.1)).Nodup) :
    ∀ x ∈ updateLast d l, (x.props.map (·.1)).Nodup := by
  induction l with
  | nil => simp [updateLast]
  | cons e l ih =>
    have hl' := fun x hx => hl x (List.mem_cons_of_mem _ hx)
    rw [updateLast]
    split
    · intro x hx
      rcases List.mem_cons.1 hx with rfl | hx
      · exact hl _ (by simp)
      · exact ih hl' x hx
    · split
      · intro x hx
        rcases List.mem_cons.1 hx with rfl | hx
        · exact update_nodup (hl e (by simp))
        · exact hl' x hx
      · exact hl

theorem fold_props (e l a b : List Db) (hl : ∀ x ∈ l, (x.props.map (·.1)).Nodup) (ha : ∀ x ∈ a, (x.props.map (·.1)).Nodup) :
    ∀ x ∈ (l.foldl (mstep e) (a, b)).1, (x.props.map (·.1)).Nodup := by
  induction l generalizing a b with
  | nil => exact ha
  | cons d l ih =>
    have hl' := fun x hx => hl x (List.mem_cons_of_mem _ hx)
    rw [List.foldl_cons, mstep]
    split
    · exact ih _ _ hl' (updateLast_props d (hl d (by simp)) a ha)
    · exact ih _ _ hl' ha

theorem mergeNamed_wf (e l : List Db) (he : (names e).Nodup) (hl : (names l).Nodup)
    (pe : ∀ x ∈ e, (x.props.map (·.1)).Nodup) (pl : ∀ x ∈ l, (x.props.map (·.1)).Nodup) :
    (names (mergeNamed e l)).Nodup ∧ ∀ x ∈ mergeNamed e l, (x.props.map (·.1)).Nodup := by
  rw [mergeNamed_eq, fold_second, List.nil_append]
  constructor
  · rw [names, List.map_append, List.nodup_append]
    refine ⟨?_, ?_, ?_⟩
    · have := fold_names e l e []
      rw [names] at this
      rw [this]; exact he
    · exact List.Nodup.sublist (List.filter_sublist.map _) hl
    · intro a ha b hb
      have := fold_names e l e []
      rw [names] at this
      rw [this] at ha
      rintro rfl
      obtain ⟨d, hd, rfl⟩ := List.mem_map.1 hb
      rw [List.mem_filter, Bool.not_eq_true', Bool.eq_false_iff, Ne, any_name] at hd
      exact hd.2 ha
  · intro x hx
    rcases List.mem_append.1 hx with h | h
    · exact fold_props e l e [] pl pe x h
    · exact pl x (List.mem_filter.1 h).1

/-! ### merge_config, key by key -/

/-- What becomes of a section. -/
def mergeSect (k : Str) (o : Option Sect) (v : Sect) : Option Sect :=
  if k ∈ dictKeys then
    match v, o with
    | .dict d, none => some (.dict d)
    | .dict d, some (.dict e) => some (.dict (update e d))
    | _, _ => o
  else if k ∈ namedKeys then
    match v, o with
    | .named d, none => some (.named d)
    | .named d, some (.named e) => some (.named (mergeNamed e d))
    | _, _ => o
  else if k = pipelinesKey then
    some (.list ((match o with | some s => pipelinesOf s | none => []) ++ pipelinesOf v))
  else if k ∈ listKeys then
    match o with
    | some (.list (x :: l)) => some (.list ((x :: l) ++ listOf v))
    | _ => some (.list (listOf v))
  else some v

theorem merge1_same (c : Cfg) (k : Str) (v : Sect) : look k (merge1 c k v) = mergeSect k (look k c) v := by
  unfold merge1 mergeSect
  repeat' split
  all_goals (try simp_all [look_ins])

theorem merge1_other (c : Cfg) (k k' : Str) (v : Sect) (h : k ≠ k') : look k' (merge1 c k v) = look k' c := by
  unfold merge1
  repeat' split
  all_goals first | rfl | rw [look_ins, if_neg h]

theorem merge_cons (c : Cfg) (k : Str) (v : Sect) (d : Cfg) : merge c ((k, v) :: d) = merge (merge1 c k v) d := rfl

theorem look_merge (c d : Cfg) (hd : (d.map (·.1)).Nodup) (k : Str) :
    look k (merge c d) = match look k d with
      | none => look k c
      | some v => mergeSect k (look k c) v := by
  induction d generalizing c with
  | nil => rfl
  | cons x d ih =>
    obtain ⟨k1, v1⟩ := x
    simp only [List.map_cons, List.nodup_cons] at hd
    rw [merge_cons, ih _ hd.2, look]
    by_cases h : k1 = k
    · subst h
      rw [if_pos rfl, look_none.2 hd.1]
      exact merge1_same c k1 v1
    · rw [if_neg h, merge1_other c k1 k v1 h]

theorem merge1_nodup {c : Cfg} (k : Str) (v : Sect) (h : (c.map (·.1)).Nodup) : ((merge1 c k v).map (·.1)).Nodup := by
  unfold merge1
  repeat' split
  all_goals first | exact h | exact ins_nodup h

theorem merge_nodup {c d : Cfg} (h : (c.map (·.1)).Nodup) : ((merge c d).map (·.1)).Nodup := by
  induction d generalizing c with
  | nil => exact h
  | cons x d ih => exact ih (merge1_nodup _ _ h)

theorem merge_wf {c d : Cfg} (hc : Wf c) (hd : Wf d) : Wf (merge c d) := by
  refine ⟨merge_nodup hc.nodup, fun k hk v hv => ?_, fun k hk v hv => ?_⟩
  · rw [look_eq, look_merge c d hd.nodup] at hv
    cases h : look k d with
    | none => rw [h] at hv; exact hc.dicts k hk v (by rw [look_eq]; exact hv)
    | some w =>
      rw [h] at hv
      obtain ⟨dd, rfl, hdd⟩ := hd.dicts k hk w (by rw [look_eq]; exact h)
      simp only [mergeSect, hk, if_true] at hv
      cases h' : look k c with
      | none =>
        rw [h'] at hv; simp only [Option.some.injEq] at hv
        exact ⟨dd, hv.symm, hdd⟩
      | some w' =>
        obtain ⟨ee, rfl, hee⟩ := hc.dicts k hk w' (by rw [look_eq]; exact h')
        rw [h'] at hv; simp only [Option.some.injEq] at hv
        exact ⟨_, hv.symm, update_nodup hee⟩
  · have hnd : k ∉ dictKeys := by
      intro h
      simp only [dictKeys, namedKeys, List.mem_cons, List.not_mem_nil, or_false] at h hk
      rcases hk with rfl | rfl <;> revert h <;> decide
    rw [look_eq, look_merge c d hd.nodup] at hv
    cases h : look k d with
    | none => rw [h] at hv; exact hc.named k hk v (by rw [look_eq]; exact hv)
    | some w =>
      rw [h] at hv
      obtain ⟨dd, rfl, hdd, hpd⟩ := hd.named k hk w (by rw [look_eq]; exact h)
      simp only [mergeSect, hnd, hk, if_true, if_false] at hv
      cases h' : look k c with
      | none =>
        rw [h'] at hv; simp only [Option.some.injEq] at hv
        exact ⟨dd, hv.symm, hdd, hpd⟩
      | some w' =>
        obtain ⟨ee, rfl, hee, hpe⟩ := hc.named k hk w' (by rw [look_eq]; exact h')
        rw [h'] at hv; simp only [Option.some.injEq] at hv
        exact ⟨_, hv.symm, mergeNamed_wf ee dd hee hdd hpe hpd⟩

theorem plain_merge {k : Str} (hk : PlainKey k) (c d : Cfg) (hd : (d.map (·.1)).Nodup) :
    look k (merge c d) = orElse (look k d) (look k c) := by
  rw [look_merge c d hd]
  obtain ⟨h1, h2, h3, h4⟩ := hk
  cases look k d with
  | none => rfl
  | some v => simp [mergeSect, h1, h2, h3, h4, orElse]

theorem entry_merge {k : Str} (hk : k ∈ dictKeys) (x : Str) (c d : Cfg) (hc : Wf c) (hd : Wf d) :
    entryOf (merge c d) k x = orElse (entryOf d k x) (entryOf c k x) := by
  simp only [entryOf, look_eq, look_merge c d hd.nodup]
  cases h : look k d with
  | none => rfl
  | some w =>
    obtain ⟨dd, rfl, hdd⟩ := hd.dicts k hk w (by rw [look_eq]; exact h)
    simp only [mergeSect, hk, if_true]
    cases h' : look k c with
    | none => simp only; cases look x dd <;> rfl
    | some w' =>
      obtain ⟨ee, rfl, hee⟩ := hc.dicts k hk w' (by rw [look_eq]; exact h')
      simp only
      rw [look_update x ee dd hdd]

/-- The property lookup through `findDb`. -/
theorem propOf_eq (c : Cfg) (sect db p : Str) :
    propOf c sect db p = match look sect c with
      | some (.named l) => ((findDb db l).map fun d => look p d.props).getD none
      | _ => none := by
  simp only [propOf, look_eq, findDb]
  rfl

theorem not_dict_of_named {k : Str} (hk : k ∈ namedKeys) : k ∉ dictKeys := by
  intro h
  simp only [dictKeys, namedKeys, List.mem_cons, List.not_mem_nil, or_false] at h hk
  rcases hk with rfl | rfl <;> revert h <;> decide

theorem find_props {l : List Db} {n : Str} {d : Db} (h : findDb n l = some d) : d ∈ l ∧ d.name = n := by
  rw [findDb] at h
  refine ⟨List.mem_of_find?_eq_some h, ?_⟩
  have := List.find?_some h
  simpa using this

theorem prop_merge {k : Str} (hk : k ∈ namedKeys) (db p : Str) (c d : Cfg) (hc : Wf c) (hd : Wf d) :
    propOf (merge c d) k db p = orElse (propOf d k db p) (propOf c k db p) := by
  have hnd := not_dict_of_named hk
  simp only [propOf_eq, look_merge c d hd.nodup]
  cases h : look k d with
  | none => rfl
  | some w =>
    obtain ⟨dd, rfl, hdd, hpd⟩ := hd.named k hk w (by rw [look_eq]; exact h)
    simp only [mergeSect, hnd, hk, if_true, if_false]
    cases h' : look k c with
    | none =>
      simp only
      cases findDb db dd with
      | none => rfl
      | some a => simp only [Option.map_some, Option.getD_some]; cases look p a.props <;> rfl
    | some w' =>
      obtain ⟨ee, rfl, hee, hpe⟩ := hc.named k hk w' (by rw [look_eq]; exact h')
      simp only
      rw [mergeNamed_find ee dd hee hdd]
      cases he : findDb db ee with
      | none =>
        cases hf : findDb db dd with
        | none => rfl
        | some a => simp only [Option.map_some, Option.getD_some, Option.map_none, Option.getD_none]; cases look p a.props <;> rfl
      | some b =>
        cases hf : findDb db dd with
        | none => rfl
        | some a =>
          simp only [Option.map_some, Option.getD_some, upd]
          exact look_update p b.props a.props (hpd a (find_props hf).1)

end Verif.ConfigProofs
