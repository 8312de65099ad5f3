import Verif.Spec.Correlated
import Verif.Proofs.Join
import Mathlib.Data.List.Nodup
import Mathlib.Data.List.Dedup
/-! C71: correlated subqueries, evaluated for many outer rows at once, against SQL's evaluation for each outer row. -/
namespace Verif.Props
namespace Correlated
open Verif.Join (Name Ref X)
open Verif.Correlated Verif.SqlCorrelated

variable {V : Type}

/-! ### The split, conjunct by conjunct -/

/-- The key of a conjunct. -/
def kp (cur parents : List Name) : Cond V → Option (Ref × Ref)
  | .eq x y => keyPair cur parents x y
  | _ => none

def leafOf : Cond V → Option (Leaf V)
  | .eq x y => some (.eq x y)
  | .other x => some (.other x)
  | .and _ _ => none

def hasParent (cur parents : List Name) (c : Leaf V) : Bool :=
  (leafFields c).any fun r => !(isCurrent cur r) && isParent parents r

def keptOf (cur parents : List Name) (c : Cond V) : Option (Leaf V) :=
  match kp cur parents c, leafOf c with
  | none, some l => if hasParent cur parents l then none else some l
  | _, _ => none

def interOf (cur parents : List Name) (c : Cond V) : Option (Leaf V) :=
  match kp cur parents c, leafOf c with
  | none, some l => if hasParent cur parents l then some l else none
  | _, _ => none

def step (cur parents : List Name) (s : Split V) (c : Cond V) : Option (Split V) :=
  split cur parents s c

def steps (cur parents : List Name) : Split V → List (Cond V) → Option (Split V)
  | s, [] => some s
  | s, c :: l => match split cur parents s c with
    | some s' => steps cur parents s' l
    | none => none

theorem steps_append (cur parents : List Name) (s : Split V) (l l' : List (Cond V)) :
    steps cur parents s (l ++ l') = (match steps cur parents s l with | some s' => steps cur parents s' l' | none => none) := by
  induction l generalizing s with
  | nil => rfl
  | cons c l ih =>
    simp only [List.cons_append, steps]
    cases split cur parents s c with
    | none => rfl
    | some s' => exact ih s'

theorem split_steps (cur parents : List Name) (s : Split V) (c : Cond V) :
    split cur parents s c = steps cur parents s (conjuncts c) := by
  induction c generalizing s with
  | and a b iha ihb =>
    rw [conjuncts, steps_append, split, ← iha]
    cases split cur parents s a with
    | none => rfl
    | some s' => exact ihb s'
  | eq x y =>
    simp only [conjuncts, steps]
    cases split cur parents s (.eq x y) <;> rfl
  | other x =>
    simp only [conjuncts, steps]
    cases split cur parents s (.other x) <;> rfl

/-- The conjuncts are not ANDs. -/
theorem conjuncts_leaf (c a : Cond V) (h : a ∈ conjuncts c) : ∃ l, leafOf a = some l := by
  induction c with
  | and x y ihx ihy =>
    rw [conjuncts, List.mem_append] at h
    exact h.elim ihx ihy
  | eq x y => simp [conjuncts] at h; subst h; exact ⟨_, rfl⟩
  | other x => simp [conjuncts] at h; subst h; exact ⟨_, rfl⟩

theorem split_dup (cur parents : List Name) (s : Split V) (a : Cond V) (k : Ref × Ref) (hk : kp cur parents a = some k)
    (hm : k ∈ s.keys) : split cur parents s a = none := by
  cases a with
  | and x y => simp [kp] at hk
  | other x => simp [kp] at hk
  | eq x y =>
    simp only [kp] at hk
    simp only [split, hk, if_pos hm]

theorem split_leaf (cur parents : List Name) (s : Split V) (a : Cond V) (h : ∃ l, leafOf a = some l)
    (hd : ∀ k, kp cur parents a = some k → k ∉ s.keys) :
    split cur parents s a = some ⟨s.keys ++ (kp cur parents a).toList, s.kept ++ (keptOf cur parents a).toList,
        s.inter ++ (interOf cur parents a).toList⟩ := by
  obtain ⟨l, hl⟩ := h
  cases a with
  | and x y => simp [leafOf] at hl
  | eq x y =>
    simp only [kp] at hd
    simp only [split, kp, keptOf, interOf, leafOf]
    cases hk : keyPair cur parents x y with
    | some k => simp [hd k hk]
    | none =>
      cases hp : hasParent cur parents (Leaf.eq x y) with
      | true => simp only [splitLeaf]; have hp' := hp; rw [hasParent] at hp'; rw [hp']; simp [hp]
      | false => simp only [splitLeaf]; have hp' := hp; rw [hasParent] at hp'; rw [hp']; simp [hp]
  | other x =>
    simp only [split, kp, keptOf, interOf, leafOf]
    cases hp : hasParent cur parents (Leaf.other x) with
    | true => simp only [splitLeaf]; have hp' := hp; rw [hasParent] at hp'; rw [hp']; simp [hp]
    | false => simp only [splitLeaf]; have hp' := hp; rw [hasParent] at hp'; rw [hp']; simp [hp]

theorem filterMap_cons_toList {α β : Type} (f : α → Option β) (a : α) (l : List α) :
    (a :: l).filterMap f = (f a).toList ++ l.filterMap f := by
  rw [List.filterMap_cons]
  cases f a <;> rfl

theorem steps_spec (cur parents : List Name) (l : List (Cond V)) (hl : ∀ a ∈ l, ∃ x, leafOf a = some x) (s : Split V)
    (hs : s.keys.Nodup) :
    steps cur parents s l =
      if (s.keys ++ l.filterMap (kp cur parents)).Nodup then
        some ⟨s.keys ++ l.filterMap (kp cur parents), s.kept ++ l.filterMap (keptOf cur parents),
          s.inter ++ l.filterMap (interOf cur parents)⟩
      else none := by
  induction l generalizing s with
  | nil => simp [steps, hs]
  | cons a l ih =>
    rw [steps]
    simp only [filterMap_cons_toList]
    by_cases hd : ∃ k, kp cur parents a = some k ∧ k ∈ s.keys
    · obtain ⟨k, hk, hm⟩ := hd
      rw [split_dup cur parents s a k hk hm, hk, if_neg]
      intro hn
      rw [List.nodup_append] at hn
      exact hn.2.2 k hm k (by simp) rfl
    · rw [split_leaf cur parents s a (hl a (by simp)) fun k hk hm => hd ⟨k, hk, hm⟩]
      have hs' : (s.keys ++ (kp cur parents a).toList).Nodup := by
        cases hk : kp cur parents a with
        | none => simpa using hs
        | some k =>
          rw [List.nodup_append]
          refine ⟨hs, by simp, ?_⟩
          intro x hx y hy e
          simp at hy
          exact hd ⟨k, hk, by rw [← hy, ← e]; exact hx⟩
      simp only
      rw [ih (fun b hb => hl b (List.mem_cons_of_mem _ hb)) _ hs']
      simp only [List.append_assoc]

theorem splitWhere_spec (cur parents : List Name) (c : Cond V) :
    splitWhere cur parents c =
      if ((conjuncts c).filterMap (kp cur parents)).Nodup then
        some ⟨(conjuncts c).filterMap (kp cur parents), (conjuncts c).filterMap (keptOf cur parents),
          (conjuncts c).filterMap (interOf cur parents)⟩
      else none := by
  rw [splitWhere, split_steps, steps_spec cur parents _ (conjuncts_leaf c) _ (by simp)]
  simp

/-! ### Keys are the equalities between the two queries -/

theorem isCurrent_iff (cur : List Name) (r : Ref) : isCurrent cur r = true ↔ ∀ t, r.table = some t → t ∈ cur := by
  unfold isCurrent
  cases r.table <;> simp

theorem isParent_iff (parents : List Name) (r : Ref) : isParent parents r = true ↔ ∃ t, r.table = some t ∧ t ∈ parents := by
  unfold isParent
  cases r.table <;> simp

theorem parent_not_current {cur parents : List Name} (hn : NoShadow cur parents) {r : Ref} (h : isParent parents r = true) :
    isCurrent cur r = false := by
  obtain ⟨t, h1, h2⟩ := (isParent_iff _ _).mp h
  cases hc : isCurrent cur r with
  | false => rfl
  | true => exact absurd h2 (hn t ((isCurrent_iff _ _).mp hc t h1))

theorem kp_correlates {cur parents : List Name} {a : Cond V} {k : Ref × Ref} (h : kp cur parents a = some k) :
    Correlates cur parents k.1 k.2 a := by
  cases a with
  | and => simp [kp] at h
  | other => simp [kp] at h
  | eq x y =>
    simp only [kp, keyPair] at h
    cases x <;> cases y <;> simp only [reduceCtorEq] at h
    rename_i l r
    split at h
    · rename_i hc
      rw [Bool.and_eq_true] at hc
      cases h
      exact ⟨Or.inl rfl, (isCurrent_iff _ _).mp hc.1, (isParent_iff _ _).mp hc.2⟩
    · split at h
      · rename_i hc
        rw [Bool.and_eq_true] at hc
        cases h
        exact ⟨Or.inr rfl, (isCurrent_iff _ _).mp hc.1, (isParent_iff _ _).mp hc.2⟩
      · cases h

theorem correlates_kp {cur parents : List Name} (hn : NoShadow cur parents) {a : Cond V} {k : Ref × Ref}
    (h : Correlates cur parents k.1 k.2 a) : kp cur parents a = some k := by
  obtain ⟨h1, h2, h3⟩ := h
  have hc := (isCurrent_iff _ _).mpr h2
  have hp := (isParent_iff _ _).mpr h3
  have hpc := parent_not_current hn hp
  rcases h1 with rfl | rfl
  · simp [kp, keyPair, hc, hp]
  · simp [kp, keyPair, hc, hp, hpc]

theorem noRepeat_iff {cur parents : List Name} (hn : NoShadow cur parents) (c : Cond V) :
    ((conjuncts c).filterMap (kp cur parents)).Nodup ↔ NoRepeat cur parents c := by
  rw [List.Nodup, List.pairwise_filterMap, NoRepeat]
  constructor
  · intro h
    refine h.imp ?_
    intro a b hab own outer h1 h2
    exact hab (own, outer) (correlates_kp (k := (own, outer)) hn h1) (own, outer) (correlates_kp (k := (own, outer)) hn h2) rfl
  · intro h
    refine h.imp ?_
    intro a b hab k hk k' hk' e
    subst e
    exact hab k.1 k.2 (kp_correlates hk) (kp_correlates hk')

/-! ### Conditions on rows -/

theorem resolve_current {cur : List Name} {row outer : Env V} {r : Ref} (h : isCurrent cur r = true) :
    resolve cur row outer r = row r := by
  unfold resolve
  have := (isCurrent_iff _ _).mp h
  cases ht : r.table with
  | none => rfl
  | some t => simp [this t ht]

theorem resolve_not {cur : List Name} {row outer : Env V} {r : Ref} (h : isCurrent cur r = false) :
    resolve cur row outer r = outer r := by
  unfold resolve
  unfold isCurrent at h
  cases ht : r.table with
  | none => simp [ht] at h
  | some t => simp [ht] at h; simp [h]

theorem fields_refs (x : X V) : Join.fields x = refs x := by
  induction x with
  | col => rfl
  | const => rfl
  | un f x ih => simpa [Join.fields, refs] using ih
  | bin f x y ih1 ih2 => simp [Join.fields, refs, ih1, ih2]
  | between f x lo hi ih1 ih2 ih3 => simp [Join.fields, refs, ih1, ih2, ih3]
  | app f rs => rfl

theorem value_congr {e e' : Env V} (x : X V) (h : ∀ r ∈ refs x, e r = e' r) : value e x = value e' x := by
  induction x with
  | col r => exact h r (by simp [refs])
  | const => rfl
  | un f x ih => simp only [value]; rw [ih h]
  | bin f x y ih1 ih2 =>
    simp only [value]
    rw [ih1 fun r hr => h r (by simp [refs, hr]), ih2 fun r hr => h r (by simp [refs, hr])]
  | between f x lo hi ih1 ih2 ih3 =>
    simp only [value]
    rw [ih1 fun r hr => h r (by simp [refs, hr]), ih2 fun r hr => h r (by simp [refs, hr]),
      ih3 fun r hr => h r (by simp [refs, hr])]
  | app f rs => exact congrArg f (List.map_congr_left fun r hr => h r hr)

theorem evalX_value (row : Env V) (x : X V) : evalX row x = value row x := by
  induction x with
  | col r => rfl
  | const => rfl
  | un f x ih => simp only [value, evalX, ih]
  | bin f x y ih1 ih2 => simp only [value, evalX, ih1, ih2]
  | between f x lo hi ih1 ih2 ih3 => simp only [value, evalX, ih1, ih2, ih3]
  | app f rs => rfl

theorem evalX_resolve {cur : List Name} {row outer : Env V} (x : X V) (h : ∀ r ∈ refs x, isCurrent cur r = true) :
    evalX row x = value (resolve cur row outer) x := by
  rw [evalX_value]
  exact value_congr x fun r hr => (resolve_current (h r hr)).symm

theorem sel_value (null : V) {cols : List Ref} {row : Env V} {r : Ref} (hm : r ∈ cols) : (cols.map row).getD (cols.idxOf r) null = row r := by
  rw [List.getD_eq_getElem?_getD, List.getElem?_map, List.getElem?_eq_getElem (List.idxOf_lt_length_of_mem hm)]
  simp [List.getElem_idxOf]

/-- An expression of the subquery's columns only. -/
theorem evalZ_own (null : V) {cur : List Name} {cols : List Ref} {row outer other : Env V} (x : X V) (h : ∀ r ∈ refs x, r ∈ cols)
    (hc : ∀ r ∈ refs x, isCurrent cur r = true) : evalZ null (cols.map row) other (toZ cur cols x) = value (resolve cur row outer) x := by
  induction x generalizing other with
  | col r =>
    have hc := hc r (by simp [refs])
    rw [toZ, value, if_pos hc, evalZ, resolve_current hc]
    exact sel_value null (h r (by simp [refs]))
  | const => rfl
  | un f x ih => simp only [value, evalZ, toZ]; rw [ih h hc]
  | bin f x y ih1 ih2 =>
    simp only [value, evalZ, toZ]
    rw [ih1 (fun r hr => h r (by simp [refs, hr])) (fun r hr => hc r (by simp [refs, hr])),
      ih2 (fun r hr => h r (by simp [refs, hr])) (fun r hr => hc r (by simp [refs, hr]))]
  | between f x lo hi ih1 ih2 ih3 =>
    simp only [value, evalZ, toZ]
    rw [ih1 (fun r hr => h r (by simp [refs, hr])) (fun r hr => hc r (by simp [refs, hr])),
      ih2 (fun r hr => h r (by simp [refs, hr])) (fun r hr => hc r (by simp [refs, hr])),
      ih3 (fun r hr => h r (by simp [refs, hr])) (fun r hr => hc r (by simp [refs, hr]))]
  | app f rs =>
    simp only [value, evalZ, toZ, List.map_map]
    refine congrArg f (List.map_congr_left fun r hr => ?_)
    have hc := hc r hr
    simp only [Function.comp, hc, if_true]
    rw [sel_value null (h r hr), resolve_current hc]

theorem evalZ_resolve (null : V) {cur : List Name} {cols : List Ref} {row outer : Env V} (x : X V)
    (h : ∀ r ∈ refs x, isCurrent cur r = true → r ∈ cols) (hb : BetweenOwn cur x) :
    evalZ null (cols.map row) outer (toZ cur cols x) = value (resolve cur row outer) x := by
  induction x with
  | col r =>
    rw [toZ, value]
    cases hc : isCurrent cur r with
    | true =>
      have hm := h r (by simp [refs]) hc
      rw [if_pos rfl, evalZ, resolve_current hc]
      rw [List.getD_eq_getElem?_getD, List.getElem?_map, List.getElem?_eq_getElem (List.idxOf_lt_length_of_mem hm)]
      simp [List.getElem_idxOf]
    | false => rw [if_neg (by simp), evalZ, resolve_not hc]
  | const => rfl
  | un f x ih => simp only [value, evalZ, toZ]; rw [ih h hb]
  | bin f x y ih1 ih2 =>
    simp only [value, evalZ, toZ]
    rw [ih1 (fun r hr => h r (by simp [refs, hr])) hb.1, ih2 (fun r hr => h r (by simp [refs, hr])) hb.2]
  | between f x lo hi ih1 ih2 ih3 =>
    have hc : ∀ r ∈ refs x ++ refs lo ++ refs hi, isCurrent cur r = true := fun r hr => (isCurrent_iff cur r).mpr (hb r hr)
    simp only [value, evalZ, toZ]
    rw [evalZ_own null x (fun r hr => h r (by simp [refs, hr]) (hc r (by simp [hr]))) fun r hr => hc r (by simp [hr]),
      evalZ_own null lo (fun r hr => h r (by simp [refs, hr]) (hc r (by simp [hr]))) fun r hr => hc r (by simp [hr]),
      evalZ_own null hi (fun r hr => h r (by simp [refs, hr]) (hc r (by simp [hr]))) fun r hr => hc r (by simp [hr])]
  | app f rs =>
    simp only [value, evalZ, toZ, List.map_map]
    refine congrArg f (List.map_congr_left fun r hr => ?_)
    simp only [Function.comp]
    cases hc : isCurrent cur r with
    | true => simp only [if_true]; rw [sel_value null (h r hr hc), resolve_current hc]
    | false => simp only [Bool.false_eq_true, if_false]; rw [resolve_not hc]

/-- SQL's truth of a condition that is not an AND. -/
def leafHolds (o : Ops V) (env : Env V) : Leaf V → Bool
  | .eq x y => o.eq (value env x) (value env y)
  | .other x => o.truthy (value env x)

theorem holds_conjuncts (o : Ops V) (env : Env V) (c : Cond V) :
    holds o.eq o.truthy env c = (conjuncts c).all (holds o.eq o.truthy env) := by
  induction c with
  | and a b iha ihb => rw [conjuncts, List.all_append, holds, iha, ihb]
  | eq => simp [conjuncts]
  | other => simp [conjuncts]

theorem holds_leaf (o : Ops V) (env : Env V) {a : Cond V} {l : Leaf V} (h : leafOf a = some l) :
    holds o.eq o.truthy env a = leafHolds o env l := by
  cases a <;> simp [leafOf] at h <;> subst h <;> rfl

theorem leaf_refs {a : Cond V} {l : Leaf V} (h : leafOf a = some l) : leafFields l = condRefs a := by
  cases a <;> simp [leafOf] at h <;> subst h <;> simp [leafFields, condRefs, fields_refs]

theorem condRefs_conjuncts {c a : Cond V} (h : a ∈ conjuncts c) {r : Ref} (hr : r ∈ condRefs a) : r ∈ condRefs c := by
  induction c with
  | and x y ihx ihy =>
    rw [conjuncts, List.mem_append] at h
    rw [condRefs, List.mem_append]
    exact h.imp ihx ihy
  | eq x y => simp [conjuncts] at h; subst h; exact hr
  | other x => simp [conjuncts] at h; subst h; exact hr

/-- The split of a list of conjuncts. -/
def splitOf (cur parents : List Name) (l : List (Cond V)) : Split V :=
  ⟨l.filterMap (kp cur parents), l.filterMap (keptOf cur parents), l.filterMap (interOf cur parents)⟩

theorem keptOf_some {cur parents : List Name} {a : Cond V} {l : Leaf V} (h : keptOf cur parents a = some l) :
    kp cur parents a = none ∧ leafOf a = some l ∧ hasParent cur parents l = false := by
  unfold keptOf at h
  cases hk : kp cur parents a <;> cases hl : leafOf a <;> simp only [hk, hl, reduceCtorEq] at h
  rename_i l'
  cases hp : hasParent cur parents l' <;> rw [hp] at h <;> simp at h
  subst h
  exact ⟨rfl, rfl, hp⟩

theorem interOf_some {cur parents : List Name} {a : Cond V} {l : Leaf V} (h : interOf cur parents a = some l) :
    kp cur parents a = none ∧ leafOf a = some l ∧ hasParent cur parents l = true := by
  unfold interOf at h
  cases hk : kp cur parents a <;> cases hl : leafOf a <;> simp only [hk, hl, reduceCtorEq] at h
  rename_i l'
  cases hp : hasParent cur parents l' <;> rw [hp] at h <;> simp at h
  subst h
  exact ⟨rfl, rfl, hp⟩

theorem kept_current {cur parents : List Name} {l : Leaf V} (hp : hasParent cur parents l = false)
    (hs : Scoped cur parents (leafFields l)) : ∀ r ∈ leafFields l, isCurrent cur r = true := by
  intro r hr
  rw [isCurrent_iff]
  intro t ht
  rcases hs r hr t ht with h | h
  · exact h
  · unfold hasParent at hp
    rw [List.any_eq_false] at hp
    have := hp r hr
    have hpar : isParent parents r = true := (isParent_iff _ _).mpr ⟨t, ht, h⟩
    rw [hpar, Bool.and_true] at this
    have hc : isCurrent cur r = true := by simpa using this
    exact (isCurrent_iff _ _).mp hc t ht

theorem keptHolds_leaf (o : Ops V) {cur : List Name} {row outer : Env V} {l : Leaf V}
    (h : ∀ r ∈ leafFields l, isCurrent cur r = true) : keptHolds o row l = leafHolds o (resolve cur row outer) l := by
  cases l with
  | eq x y =>
    simp only [leafFields, fields_refs, List.mem_append] at h
    rw [keptHolds, leafHolds, evalX_resolve x fun r hr => h r (.inl hr), evalX_resolve y fun r hr => h r (.inr hr)]
  | other x =>
    simp only [leafFields, fields_refs] at h
    rw [keptHolds, leafHolds, evalX_resolve x h]

/-- BETWEEN in a condition that is not an AND. -/
def LeafBetweenOwn (cur : List Name) : Leaf V → Prop
  | .eq x y => BetweenOwn cur x ∧ BetweenOwn cur y
  | .other x => BetweenOwn cur x

theorem interHolds_leaf (o : Ops V) {cur parents : List Name} {cols : List Ref} {row outer : Env V} {l : Leaf V}
    (h : ∀ r ∈ leafFields l, isCurrent cur r = true → r ∈ cols) (hj : ∀ r ∈ leafFields l, ∀ t, r.table = some t → t ∈ cur ∨ parents.head? = some t)
    (hb : LeafBetweenOwn cur l) (hl : ∀ r, l ≠ .other (.col r)) :
    interHolds o cur parents cols (cols.map row) outer l = leafHolds o (resolve cur row outer) l := by
  have hno : (leafFields l).any (isJoined cur parents) = false := by
    rw [List.any_eq_false]
    intro r hr hjr
    simp only [isJoined, Bool.and_eq_true, Bool.not_eq_true', decide_eq_true_eq] at hjr
    cases ht : r.table with
    | none => rw [(isCurrent_iff cur r).mpr fun t h => by rw [ht] at h; cases h] at hjr; exact absurd hjr.1 (by simp)
    | some t =>
      rcases hj r hr t ht with h | h
      · rw [(isCurrent_iff cur r).mpr fun t' h' => by rw [ht] at h'; cases h'; exact h] at hjr; exact absurd hjr.1 (by simp)
      · exact hjr.2 (ht.trans h.symm)
  unfold interHolds
  rw [hno]
  have key : interOn o cur cols (cols.map row) outer l = leafHolds o (resolve cur row outer) l := by
    cases l with
    | eq x y =>
      simp only [leafFields, fields_refs, List.mem_append] at h
      rw [interOn, leafHolds, evalZ_resolve _ x (fun r hr => h r (.inl hr)) hb.1, evalZ_resolve _ y (fun r hr => h r (.inr hr)) hb.2]
    | other x =>
      simp only [leafFields, fields_refs] at h
      rw [interOn, leafHolds, evalZ_resolve _ x h hb]
  cases l with
  | eq x y => exact key
  | other x =>
    cases x with
    | col r => exact absurd rfl (hl r)
    | _ => exact key

theorem mem_selectCols {cur : List Name} {inter : List (Leaf V)} {l : Leaf V} (hl : l ∈ inter) {r : Ref}
    (hr : r ∈ leafFields l) (hc : isCurrent cur r = true) : r ∈ selectCols cur inter := by
  unfold selectCols
  rw [List.mem_eraseDups, List.mem_filter, List.mem_flatMap]
  exact ⟨⟨l, hl, hr⟩, hc⟩

/-- What the surroundings have to satisfy: the loader compares keys like `=`, and `=` does not depend on the sides. -/
structure Lawful (o : Ops V) : Prop where
  same : ∀ a b, o.same a b = o.eq a b
  symm : ∀ a b, o.eq a b = o.eq b a

theorem key_holds (o : Ops V) (ho : Lawful o) {cur parents : List Name} (hn : NoShadow cur parents) {a : Cond V} {k : Ref × Ref}
    (h : kp cur parents a = some k) (row outer : Env V) :
    o.same (row k.1) (outer k.2) = holds o.eq o.truthy (resolve cur row outer) a := by
  obtain ⟨h1, h2, h3⟩ := kp_correlates h
  have hc := (isCurrent_iff _ _).mpr h2
  have hpc := parent_not_current hn ((isParent_iff _ _).mpr h3)
  rcases h1 with rfl | rfl
  · simp only [holds, value, resolve_current hc, resolve_not hpc, ho.same]
  · simp only [holds, value, resolve_current hc, resolve_not hpc, ho.same]
    exact ho.symm _ _

theorem conjunct_cases {cur parents : List Name} {a : Cond V} (h : ∃ l, leafOf a = some l) :
    (∃ k, kp cur parents a = some k) ∨ (∃ l, keptOf cur parents a = some l) ∨ ∃ l, interOf cur parents a = some l := by
  obtain ⟨l, hl⟩ := h
  cases hk : kp cur parents a with
  | some k => exact .inl ⟨k, rfl⟩
  | none =>
    right
    cases hp : hasParent cur parents l with
    | false => left; exact ⟨l, by simp [keptOf, hk, hl, hp]⟩
    | true => right; exact ⟨l, by simp [interOf, hk, hl, hp]⟩

/-- A row of the subquery and an outer row satisfy the WHERE exactly when the keys are equal and the conditions that stayed and
the interceptors hold. -/
theorem holds_split (o : Ops V) (ho : Lawful o) {cur parents : List Name} (hn : NoShadow cur parents) (c : Cond V)
    (hs : Scoped cur parents (condRefs c)) (hpl : Placed cur parents c) (row outer : Env V) :
    let s := splitOf cur parents (conjuncts c)
    (s.keys.all (fun k => o.same (row k.1) (outer k.2)) && s.kept.all (keptHolds o row) &&
      s.inter.all (interHolds o cur parents (selectCols cur s.inter) ((selectCols cur s.inter).map row) outer)) =
      holds o.eq o.truthy (resolve cur row outer) c := by
  intro s
  rw [holds_conjuncts, Bool.eq_iff_iff]
  simp only [Bool.and_eq_true, List.all_eq_true]
  have hkept : ∀ a ∈ conjuncts c, ∀ l, keptOf cur parents a = some l →
      keptHolds o row l = holds o.eq o.truthy (resolve cur row outer) a := by
    intro a ha l hl
    obtain ⟨_, h1, h2⟩ := keptOf_some hl
    rw [holds_leaf o _ h1]
    refine keptHolds_leaf o (kept_current h2 ?_)
    rw [leaf_refs h1]
    exact fun r hr => hs r (condRefs_conjuncts ha hr)
  have hinter : ∀ a ∈ conjuncts c, ∀ l, interOf cur parents a = some l →
      interHolds o cur parents (selectCols cur s.inter) ((selectCols cur s.inter).map row) outer l =
        holds o.eq o.truthy (resolve cur row outer) a := by
    intro a ha l hl
    obtain ⟨h0, h1, h2⟩ := interOf_some hl
    rw [holds_leaf o _ h1]
    rcases hpl a ha with ⟨own, out, hc⟩ | hc | ⟨hj, hbw, hlone⟩
    · rw [correlates_kp (k := (own, out)) hn hc] at h0; cases h0
    · rw [hasParent, List.any_eq_true] at h2
      obtain ⟨r, hr, h2⟩ := h2
      rw [leaf_refs h1] at hr
      rw [(isCurrent_iff cur r).mpr (hc r hr)] at h2
      simp at h2
    · refine interHolds_leaf o (fun r hr hc => mem_selectCols (List.mem_filterMap.mpr ⟨a, ha, hl⟩) hr hc) (by rw [leaf_refs h1]; exact hj) ?_ ?_
      · cases a with
        | and _ _ => cases h1
        | _ => cases h1; exact hbw
      · rintro r rfl
        cases a with
        | other x => cases h1; exact hlone r rfl
        | _ => cases h1
  constructor
  · rintro ⟨⟨h1, h2⟩, h3⟩ a ha
    rcases conjunct_cases (cur := cur) (parents := parents) (conjuncts_leaf c a ha) with ⟨k, hk⟩ | ⟨l, hl⟩ | ⟨l, hl⟩
    · rw [← key_holds o ho hn hk]
      exact h1 k (List.mem_filterMap.mpr ⟨a, ha, hk⟩)
    · rw [← hkept a ha l hl]
      exact h2 l (List.mem_filterMap.mpr ⟨a, ha, hl⟩)
    · rw [← hinter a ha l hl]
      exact h3 l (List.mem_filterMap.mpr ⟨a, ha, hl⟩)
  · intro h
    refine ⟨⟨?_, ?_⟩, ?_⟩
    · intro k hk
      obtain ⟨a, ha, hk⟩ := List.mem_filterMap.mp hk
      rw [key_holds o ho hn hk]; exact h a ha
    · intro l hl
      obtain ⟨a, ha, hl⟩ := List.mem_filterMap.mp hl
      rw [hkept a ha l hl]; exact h a ha
    · intro l hl
      obtain ⟨a, ha, hl⟩ := List.mem_filterMap.mp hl
      rw [hinter a ha l hl]; exact h a ha

theorem splitWhere_some {cur parents : List Name} (hn : NoShadow cur parents) {c : Cond V} (hr : NoRepeat cur parents c) :
    splitWhere cur parents c = some (splitOf cur parents (conjuncts c)) := by
  rw [splitWhere_spec, if_pos ((noRepeat_iff hn c).mpr hr)]; rfl

theorem keys_zip (s : Split V) (row outer : Env V) (o : Ops V) :
    (((s.keys.map fun k => row k.1).zip s.keys).all fun p => o.same p.1 (outer p.2.2)) =
      s.keys.all fun k => o.same (row k.1) (outer k.2) := by
  rw [List.zip_map_left, List.all_map]
  have : ∀ l : List (Ref × Ref), ((l.zip l).all fun p => o.same (row p.1.1) (outer p.2.2)) =
      l.all fun k => o.same (row k.1) (outer k.2) := by
    intro l
    induction l with
    | nil => rfl
    | cons k l ih => simp only [List.zip_cons_cons, List.all_cons, ih]
  exact this s.keys

theorem inBatch_of (o : Ops V) {batch : List (Env V)} {outer : Env V} (hb : outer ∈ batch) (row : Env V) (k : Ref × Ref)
    (h : o.same (row k.1) (outer k.2) = true) : inBatch o batch row k = true := by
  unfold inBatch
  rw [List.any_eq_true]
  exact ⟨outer k.2, List.mem_map.mpr ⟨outer, hb, rfl⟩, h⟩

end Correlated

open Verif.Join (Name Ref X)
open Verif.Correlated Verif.SqlCorrelated Correlated
variable {V : Type}

/-- **C71**, the rows: the values a correlated subquery without aggregate functions and LIMIT gives for an outer row are those of
SQL's evaluation for that outer row alone, in the same order - whatever other outer rows it is evaluated with, whatever the mix
of equalities with the outer query, other conditions about both queries and conditions of its own. -/
theorem C71_rows_partial (o : Ops V) (ho : Lawful o) (cur parents : List Name) (hn : NoShadow cur parents) (c : Cond V)
    (hs : Scoped cur parents (condRefs c)) (hr : NoRepeat cur parents c) (hpl : Placed cur parents c) (sel : X V)
    (hsel : ∀ r ∈ refs sel, ∀ t, r.table = some t → t ∈ cur) (inner batch : List (Env V)) (outer : Env V) (hb : outer ∈ batch) :
    run o cur parents c sel none batch inner outer =
      some ((SqlCorrelated.rows o.eq o.truthy cur c inner outer).map fun row => SqlCorrelated.value (resolve cur row outer) sel) := by
  rw [run, splitWhere_some hn hr, Option.map_some]
  congr 1
  simp only [matching, loadPlain, passing, extra, SqlCorrelated.rows]
  rw [List.filter_map, List.map_map, List.filter_filter]
  have hf : ∀ row ∈ inner, _ = _ := fun row _ => holds_split o ho hn c hs hpl row outer
  have e1 : (inner.filter fun row => (((fun r : Out V =>
        ((r.keys.zip (splitOf cur parents (conjuncts c)).keys).all fun p => o.same p.1 (outer p.2.2)) &&
        (splitOf cur parents (conjuncts c)).inter.all
          (interHolds o cur parents (selectCols cur (splitOf cur parents (conjuncts c)).inter) r.cols outer)) ∘
        fun row => (⟨evalX row sel, (splitOf cur parents (conjuncts c)).keys.map fun k => row k.1,
          (selectCols cur (splitOf cur parents (conjuncts c)).inter).map row⟩ : Out V)) row &&
        ((splitOf cur parents (conjuncts c)).keys.all (inBatch o batch row) &&
          (splitOf cur parents (conjuncts c)).kept.all (keptHolds o row)))) =
      inner.filter fun row => holds o.eq o.truthy (resolve cur row outer) c := by
    apply List.filter_congr
    intro row _
    rw [← holds_split o ho hn c hs hpl row outer]
    simp only [Function.comp_apply, keys_zip]
    rw [Bool.eq_iff_iff]
    simp only [Bool.and_eq_true]
    constructor
    · rintro ⟨⟨h1, h2⟩, h3, h4⟩; exact ⟨⟨h1, h4⟩, h2⟩
    · rintro ⟨⟨h1, h4⟩, h2⟩
      refine ⟨⟨h1, h2⟩, ?_, h4⟩
      rw [List.all_eq_true] at h1 ⊢
      exact fun k hk => inBatch_of o hb row k (h1 k hk)
  rw [e1]
  apply List.map_congr_left
  intro row _
  exact evalX_resolve sel fun r hr => (isCurrent_iff _ _).mpr (hsel r hr)

/-- **C71**, EXISTS: true exactly when SQL finds a row for the outer row. -/
theorem C71_exists_partial (o : Ops V) (ho : Lawful o) (cur parents : List Name) (hn : NoShadow cur parents) (c : Cond V)
    (hs : Scoped cur parents (condRefs c)) (hr : NoRepeat cur parents c) (hpl : Placed cur parents c) (sel : X V)
    (hsel : ∀ r ∈ refs sel, ∀ t, r.table = some t → t ∈ cur) (inner batch : List (Env V)) (outer : Env V) (hb : outer ∈ batch) :
    (run o cur parents c sel none batch inner outer).map exists_ =
      some (decide (∃ row ∈ inner, holds o.eq o.truthy (resolve cur row outer) c = true)) := by
  rw [C71_rows_partial o ho cur parents hn c hs hr hpl sel hsel inner batch outer hb, Option.map_some]
  congr 1
  rw [exists_, Bool.eq_iff_iff, decide_eq_true_iff]
  cases hl : SqlCorrelated.rows o.eq o.truthy cur c inner outer with
  | nil =>
    rw [SqlCorrelated.rows, List.filter_eq_nil_iff] at hl
    simp only [List.map_nil, List.isEmpty_nil, Bool.not_true, Bool.false_eq_true, false_iff]
    rintro ⟨row, h1, h2⟩
    exact hl row h1 h2
  | cons row l =>
    have : row ∈ SqlCorrelated.rows o.eq o.truthy cur c inner outer := by rw [hl]; simp
    rw [SqlCorrelated.rows, List.mem_filter] at this
    simp only [List.map_cons, List.isEmpty_cons, Bool.not_false, true_iff]
    exact ⟨row, this.1, this.2⟩

/-- **C71**, scalar subqueries: when SQL finds one row its value, when it finds none NULL. -/
theorem C71_scalar_partial (o : Ops V) (ho : Lawful o) (cur parents : List Name) (hn : NoShadow cur parents) (c : Cond V)
    (hs : Scoped cur parents (condRefs c)) (hr : NoRepeat cur parents c) (hpl : Placed cur parents c) (sel : X V)
    (hsel : ∀ r ∈ refs sel, ∀ t, r.table = some t → t ∈ cur) (inner batch : List (Env V)) (outer : Env V) (hb : outer ∈ batch) :
    (∀ row, SqlCorrelated.rows o.eq o.truthy cur c inner outer = [row] →
      (run o cur parents c sel none batch inner outer).map (scalar o.null) =
        some (SqlCorrelated.value (resolve cur row outer) sel)) ∧
    (SqlCorrelated.rows o.eq o.truthy cur c inner outer = [] →
      (run o cur parents c sel none batch inner outer).map (scalar o.null) = some o.null) := by
  rw [C71_rows_partial o ho cur parents hn c hs hr hpl sel hsel inner batch outer hb]
  constructor
  · intro row h; rw [h]; rfl
  · intro h; rw [h]; rfl

/-- **C71**: the subquery is refused exactly when an equality between the two queries is written twice. -/
theorem C71_repeated_equality_refused (o : Ops V) (cur parents : List Name) (hn : NoShadow cur parents) (c : Cond V)
    (_hs : Scoped cur parents (condRefs c))
    (sel : X V) (limit : Option Nat) (inner batch : List (Env V)) (outer : Env V) :
    run o cur parents c sel limit batch inner outer = none ↔ ¬ NoRepeat cur parents c := by
  rw [run, splitWhere_spec, ← noRepeat_iff hn]
  split <;> simp_all

/-! ### Aggregate functions -/

namespace Correlated

theorem filter_unique {α : Type} (l : List α) (hl : l.Nodup) (p : α → Bool) (g : α) (hp : ∀ x ∈ l, p x = true → x = g)
    (hg : g ∈ l) (hpg : p g = true) : l.filter p = [g] := by
  induction l with
  | nil => cases hg
  | cons x l ih =>
    rw [List.nodup_cons] at hl
    by_cases hx : p x = true
    · have e := hp x (by simp) hx
      subst e
      rw [List.filter_cons, if_pos hx]
      congr 1
      rw [List.filter_eq_nil_iff]
      intro y hy hpy
      have := hp y (List.mem_cons_of_mem _ hy) hpy
      exact hl.1 (this ▸ hy)
    · rw [List.filter_cons, if_neg hx]
      refine ih hl.2 (fun y hy => hp y (List.mem_cons_of_mem _ hy)) ?_
      rcases List.mem_cons.mp hg with e | h
      · subst e; exact absurd hpg hx
      · exact h

theorem inter_nil {cur parents : List Name} (hn : NoShadow cur parents) {c : Cond V} (h : OnlyEqualities cur parents c) :
    (conjuncts c).filterMap (interOf cur parents) = [] := by
  rw [List.filterMap_eq_nil_iff]
  intro a ha
  cases hi : interOf cur parents a with
  | none => rfl
  | some l =>
    exfalso
    obtain ⟨h1, h2, h3⟩ := interOf_some hi
    rcases h a ha with ⟨own, out, hc⟩ | hc
    · rw [correlates_kp (k := (own, out)) hn hc] at h1; cases h1
    · rw [hasParent, List.any_eq_true] at h3
      obtain ⟨r, hr, h3⟩ := h3
      rw [leaf_refs h2] at hr
      rw [(isCurrent_iff cur r).mpr (hc r hr)] at h3
      simp at h3

theorem _root_.Verif.SqlCorrelated.OnlyEqualities.placed {cur parents : List Name} {c : Cond V} (h : OnlyEqualities cur parents c) : Placed cur parents c :=
  fun a ha => (h a ha).imp id .inl

theorem zip_all_eq (o : Ops V) (hl : ∀ a b, o.same a b = true → a = b) (ks : List (Ref × Ref)) (outer : Env V) (vs : List V)
    (hlen : vs.length = ks.length) (h : ((vs.zip ks).all fun p => o.same p.1 (outer p.2.2)) = true) :
    vs = ks.map fun k => outer k.2 := by
  induction vs generalizing ks with
  | nil => cases ks with
    | nil => rfl
    | cons => simp at hlen
  | cons v vs ih =>
    cases ks with
    | nil => simp at hlen
    | cons k ks =>
      simp only [List.zip_cons_cons, List.all_cons, Bool.and_eq_true] at h
      rw [List.map_cons, ih ks (by simpa using hlen) h.2, hl _ _ h.1]

end Correlated

/-- **C71**, aggregate functions: when the subquery is tied to the outer query by equalities of columns only, it gives for an
outer row the aggregate of the rows SQL finds for it - provided there is one; if there is none it gives no value (NULL).  (Aggregates
that take two passes, as AVG, are another matter: `C174_correlated_violated`.) -/
theorem C71_aggregate_partial [DecidableEq V] (o : Ops V) (ho : Lawful o) (hl : ∀ a b, o.same a b = true → a = b)
    (cur parents : List Name) (hn : NoShadow cur parents)
    (c : Cond V) (hs : Scoped cur parents (condRefs c)) (hr : NoRepeat cur parents c) (hq : OnlyEqualities cur parents c)
    (agg : List V → V) (arg : X V) (harg : ∀ r ∈ refs arg, ∀ t, r.table = some t → t ∈ cur)
    (inner batch : List (Env V)) (outer : Env V) (hb : outer ∈ batch) :
    runAgg o cur parents c agg arg batch inner outer =
      some (if SqlCorrelated.rows o.eq o.truthy cur c inner outer = [] then []
        else [agg ((SqlCorrelated.rows o.eq o.truthy cur c inner outer).map fun row =>
          SqlCorrelated.value (resolve cur row outer) arg)]) := by
  rw [runAgg, splitWhere_some hn hr, Option.map_some]
  congr 1
  generalize hse : splitOf cur parents (conjuncts c) = s
  have hi : s.inter = [] := by rw [← hse]; exact inter_nil hn hq
  have hpl := hq.placed
  have hcols : selectCols cur s.inter = [] := by rw [hi]; rfl
  have hsplit : ∀ row, (s.keys.all (fun k => o.same (row k.1) (outer k.2)) && s.kept.all (keptHolds o row)) =
      holds o.eq o.truthy (resolve cur row outer) c := by
    intro row
    have := holds_split o ho hn c hs hpl row outer
    rw [hse] at this
    simp only [hi, List.all_nil, Bool.and_true] at this
    exact this
  have hex : ∀ row, extra cur s row = (s.keys.map fun k => row k.1, []) := by
    intro row; rw [extra, hcols]; rfl
  -- the only group that can match
  let g0 : List V × List V := (s.keys.map fun k => outer k.2, [])
  let p : List V × List V → Bool := fun g => ((g.1.zip s.keys).all fun q => o.same q.1 (outer q.2.2))
  have hm : matching o cur parents s (loadGroups o cur s agg arg batch inner) outer =
      (((passing o s batch inner).map (extra cur s)).eraseDups.filter p).map fun g =>
        ⟨agg (((passing o s batch inner).filter fun row => extra cur s row = g).map fun row => evalX row arg), g.1, g.2⟩ := by
    rw [matching, loadGroups, List.filter_map]
    congr 1
    apply List.filter_congr
    intro g _
    simp only [Function.comp_apply, hi, List.all_nil, Bool.and_true, p]
  have hp : ∀ g ∈ ((passing o s batch inner).map (extra cur s)).eraseDups, p g = true → g = g0 := by
    intro g hg hpg
    rw [List.mem_eraseDups, List.mem_map] at hg
    obtain ⟨row, _, rfl⟩ := hg
    rw [hex] at hpg ⊢
    have := zip_all_eq o hl s.keys outer _ (by simp) hpg
    exact Prod.ext this rfl
  -- the rows of that group are SQL's rows
  have hrows : p g0 = true → (passing o s batch inner).filter (fun row => extra cur s row = g0) =
      SqlCorrelated.rows o.eq o.truthy cur c inner outer := by
    intro hpg
    rw [passing, List.filter_filter, SqlCorrelated.rows]
    apply List.filter_congr
    intro row _
    rw [← hsplit row, Bool.eq_iff_iff]
    simp only [Bool.and_eq_true, decide_eq_true_iff, hex]
    constructor
    · rintro ⟨h1, h2, h3⟩
      refine ⟨?_, h3⟩
      have e : (s.keys.map fun k => row k.1) = s.keys.map fun k => outer k.2 := congrArg Prod.fst h1
      have := hpg
      simp only [p, g0] at this
      rw [← e, keys_zip] at this
      exact this
    · rintro ⟨h1, h3⟩
      have h1' := h1
      rw [← keys_zip s row outer o] at h1'
      refine ⟨?_, ?_, h3⟩
      · have := zip_all_eq o hl s.keys outer _ (by simp) h1'
        rw [this]
      · rw [List.all_eq_true] at h1 ⊢
        exact fun k hk => inBatch_of o hb row k (h1 k hk)
  have hmem : ∀ row, row ∈ SqlCorrelated.rows o.eq o.truthy cur c inner outer →
      p g0 = true ∧ g0 ∈ ((passing o s batch inner).map (extra cur s)).eraseDups := by
    intro row hrow
    rw [SqlCorrelated.rows, List.mem_filter, ← hsplit row, Bool.and_eq_true] at hrow
    obtain ⟨h0, h1, h3⟩ := hrow
    have h1' := h1
    rw [← keys_zip s row outer o] at h1'
    have e := zip_all_eq o hl s.keys outer _ (by simp) h1'
    constructor
    · simp only [p, g0]; rw [← e]; exact h1'
    · rw [List.mem_eraseDups, List.mem_map]
      refine ⟨row, ?_, by rw [hex, e]⟩
      rw [passing, List.mem_filter, Bool.and_eq_true]
      refine ⟨h0, ?_, h3⟩
      rw [List.all_eq_true] at h1 ⊢
      exact fun k hk => inBatch_of o hb row k (h1 k hk)
  rw [hm]
  cases hR : SqlCorrelated.rows o.eq o.truthy cur c inner outer with
  | nil =>
    rw [if_pos rfl]
    have : ((passing o s batch inner).map (extra cur s)).eraseDups.filter p = [] := by
      rw [List.filter_eq_nil_iff]
      intro g hg hpg
      have e := hp g hg hpg
      subst e
      have hr0 := hrows hpg
      rw [hR, List.filter_eq_nil_iff] at hr0
      rw [List.mem_eraseDups, List.mem_map] at hg
      obtain ⟨row, hrow, he⟩ := hg
      exact hr0 row hrow (by simpa using he)
    rw [this]; rfl
  | cons row l =>
    obtain ⟨h1, h2⟩ := hmem row (by rw [hR]; simp)
    rw [filter_unique _ (Verif.Proofs.Join.nodup_eraseDups _) p g0 hp h2 h1, if_neg (by simp)]
    simp only [List.map_cons, List.map_nil]
    rw [hrows h1, hR]
    congr 2
    have ha : ∀ row, evalX row arg = SqlCorrelated.value (resolve cur row outer) arg := fun row =>
      evalX_resolve arg fun r hr => (isCurrent_iff _ _).mpr (harg r hr)
    simp only [List.map_cons, ha]

/-! ### Where it is not SQL -/

namespace Correlated

/-- Integers, `none` for NULL; `1` is true. -/
def intOps : Ops (Option Int) where
  null := none
  eq a b := a.isSome && decide (a = b)
  same a b := a.isSome && decide (a = b)
  truthy a := a == some 1

theorem intOps_lawful : Lawful intOps := ⟨fun _ _ => rfl, fun a b => by
  simp only [intOps]
  by_cases h : a = b
  · rw [h]
  · simp [h, Ne.symm h]⟩

theorem intOps_law (a b : Option Int) (h : intOps.same a b = true) : a = b := by
  simp [intOps] at h; exact h.2

/-- A row of a table: its columns k and d. -/
def kd (t : Name) (k d : Option Int) : Env (Option Int) := fun r =>
  if r.table = some t ∨ r.table = none then if r.col = "k" then k else if r.col = "d" then d else none else none

def tk : Ref := ⟨some "t", "k"⟩
def td : Ref := ⟨some "t", "d"⟩
def ok_ : Ref := ⟨some "o", "k"⟩
def od : Ref := ⟨some "o", "d"⟩

/-- `a < b` as a value. -/
def lt (a b : Option Int) : Option Int :=
  match a, b with
  | some a, some b => if a < b then some 1 else some 0
  | _, _ => none

def count (l : List (Option Int)) : Option Int := some l.length
def sum (l : List (Option Int)) : Option Int := some (l.map fun x => x.getD 0).sum

def inner71 : List (Env (Option Int)) := [kd "t" (some 1) (some 5), kd "t" (some 1) (some 7), kd "t" (some 2) (some 9)]

/-- `t.k = o.k AND t.d < o.d`. -/
def both71 : Cond (Option Int) := .and (.eq (.col tk) (.col ok_)) (.other (.bin lt (.col td) (.col od)))

theorem both71_noRepeat : NoRepeat ["t"] ["o"] both71 := by
  simp only [NoRepeat, both71, conjuncts, List.cons_append, List.nil_append]
  refine List.pairwise_pair.mpr ?_
  rintro own out - ⟨h, -⟩
  rcases h with h | h <;> cases h

theorem both71_scoped : Scoped ["t"] ["o"] (condRefs both71) := by
  intro r hr t ht
  simp only [both71, condRefs, refs, List.cons_append, List.nil_append, List.mem_cons, List.not_mem_nil, or_false] at hr
  rcases hr with rfl | rfl | rfl | rfl <;> simp [tk, ok_, td, od] at ht <;> subst ht <;> simp

end Correlated

/-- C71 on `SELECT t.d FROM t WHERE t.k = o.k AND t.d < o.d`, two outer rows at once: for `k = 1, d = 6` the value 5, for
`k = 2, d = 6` none; the hypotheses of `C71_rows_partial` are met. -/
example : (run intOps ["t"] ["o"] both71 (.col td) none [kd "o" (some 1) (some 6), kd "o" (some 2) (some 6)] inner71
      (kd "o" (some 1) (some 6)) = some [some 5]) ∧
    (run intOps ["t"] ["o"] both71 (.col td) none [kd "o" (some 1) (some 6), kd "o" (some 2) (some 6)] inner71
      (kd "o" (some 2) (some 6)) = some []) ∧
    Lawful intOps ∧ NoShadow ["t"] ["o"] ∧ Scoped ["t"] ["o"] (condRefs both71) ∧ NoRepeat ["t"] ["o"] both71 ∧ Placed ["t"] ["o"] both71 :=
  ⟨by decide +kernel, by decide +kernel, intOps_lawful, by simp [NoShadow], both71_scoped, both71_noRepeat, fun a ha => by
    simp only [both71, conjuncts, List.cons_append, List.nil_append, List.mem_cons, List.not_mem_nil, or_false] at ha
    rcases ha with rfl | rfl
    · exact .inl ⟨tk, ok_, .inl rfl, by simp [tk], "o", rfl, by simp⟩
    · refine .inr (.inr ⟨fun r hr t ht => ?_, ⟨trivial, trivial⟩, nofun⟩)
      simp only [condRefs, refs, List.cons_append, List.nil_append, List.mem_cons, List.not_mem_nil, or_false] at hr
      rcases hr with rfl | rfl <;> simp [td, od] at ht <;> subst ht <;> simp⟩

/-- C71 with an aggregate: `SELECT SUM(t.d) FROM t WHERE t.k = o.k`, the hypotheses of `C71_aggregate_partial` are met. -/
example : runAgg intOps ["t"] ["o"] (.eq (.col tk) (.col ok_)) Correlated.sum (.col td)
      [kd "o" (some 1) none, kd "o" (some 2) none] inner71 (kd "o" (some 1) none) = some [some 12] ∧
    OnlyEqualities ["t"] ["o"] (.eq (.col tk) (.col ok_) : Cond (Option Int)) :=
  ⟨by decide +kernel, fun a ha => by
    simp [conjuncts] at ha
    exact .inl ⟨tk, ok_, .inl ha, by simp [tk], "o", rfl, by simp⟩⟩

/-- C71 fails for COUNT: an outer row without matching rows gets NULL, SQL counts 0 (whatever the table and the outer row). -/
theorem C71_count_violated (inner batch : List (Env (Option Int))) (outer : Env (Option Int)) (hb : outer ∈ batch)
    (h : ∀ row ∈ inner, (outer ok_).isSome → row tk ≠ outer ok_) :
    (runAgg intOps ["t"] ["o"] (.eq (.col tk) (.col ok_)) count (.const none) batch inner outer).map (scalar none) =
      some none ∧
    count ((SqlCorrelated.rows intOps.eq intOps.truthy ["t"] (.eq (.col tk) (.col ok_)) inner outer).map fun _ => none) =
      some 0 := by
  have hR : SqlCorrelated.rows intOps.eq intOps.truthy ["t"] (.eq (.col tk) (.col ok_)) inner outer = [] := by
    rw [SqlCorrelated.rows, List.filter_eq_nil_iff]
    intro row hrow hh
    simp only [holds, SqlCorrelated.value, resolve, tk, ok_] at hh
    simp [intOps] at hh
    obtain ⟨h1, h2⟩ := hh
    exact h row hrow (by rw [ok_, ← h2]; exact h1) h2
  have := C71_aggregate_partial intOps intOps_lawful intOps_law ["t"] ["o"] (by simp [NoShadow])
    (.eq (.col tk) (.col ok_)) (by
      intro r hr t ht
      simp only [condRefs, refs, List.cons_append, List.nil_append, List.mem_cons, List.not_mem_nil, or_false] at hr
      rcases hr with rfl | rfl <;> simp [tk, ok_] at ht <;> subst ht <;> simp)
    (by simp [NoRepeat, conjuncts]) (fun a ha => by
      simp [conjuncts] at ha
      exact .inl ⟨tk, ok_, .inl ha, by simp [tk], "o", rfl, by simp⟩)
    count (.const none) (by simp [refs]) inner batch outer hb
  rw [this, if_pos hR, hR]
  exact ⟨rfl, rfl⟩

/-- C71 fails for EXISTS of an aggregate, which is always true in SQL (an aggregate without GROUP BY returns a row): here an
outer row without matching rows gets false. -/
theorem C71_exists_aggregate_violated :
    (runAgg intOps ["t"] ["o"] (.eq (.col tk) (.col ok_)) count (.const none) [kd "o" (some 3) none] inner71
      (kd "o" (some 3) none)).map exists_ = some false := by decide +kernel

/-- C71 fails for an aggregate tied to the outer query by anything but equalities of columns: the columns the condition needs
are grouped by, so there is a value for every one of their values instead of one.  `SUM(t.d)` of the rows with `t.d < 8`: SQL 12. -/
theorem C71_inequality_aggregate_violated :
    runAgg intOps ["t"] ["o"] (.other (.bin lt (.col td) (.col od))) Correlated.sum (.col td) [kd "o" none (some 8)] inner71
      (kd "o" none (some 8)) = some [some 5, some 7] ∧
    Correlated.sum ((SqlCorrelated.rows intOps.eq intOps.truthy ["t"] (.other (.bin lt (.col td) (.col od))) inner71
      (kd "o" none (some 8))).map fun row => row td) = some 12 := by decide +kernel

/-- C71 fails for LIMIT, which cuts the rows of all outer rows of a batch together: `SELECT t.d FROM t WHERE t.k = o.k LIMIT 1`
gives the outer row 2 no value when it is evaluated with the outer row 1, and 9 on its own. -/
theorem C71_limit_violated :
    run intOps ["t"] ["o"] (.eq (.col tk) (.col ok_)) (.col td) (some 1) [kd "o" (some 1) none, kd "o" (some 2) none] inner71
      (kd "o" (some 2) none) = some [] ∧
    run intOps ["t"] ["o"] (.eq (.col tk) (.col ok_)) (.col td) (some 1) [kd "o" (some 2) none] inner71
      (kd "o" (some 2) none) = some [some 9] := by decide +kernel

/-- C71 fails when the subquery reads the table of the outer query under the same name: `t.k = t.d` compares two columns of the
subquery's own row in SQL; here the second one is taken from the outer row. -/
theorem C71_shadowed_table_violated :
    run intOps ["t"] ["t"] (.eq (.col tk) (.col td)) (.col td) none [kd "t" (some 1) (some 2)] [kd "t" (some 3) (some 3)]
      (kd "t" (some 1) (some 2)) = some [] ∧
    (SqlCorrelated.rows intOps.eq intOps.truthy ["t"] (.eq (.col tk) (.col td)) [kd "t" (some 3) (some 3)]
      (kd "t" (some 1) (some 2))).map (fun row => row td) = [some 3] := by decide +kernel

namespace Correlated

theorem evalZ_null (null : V) (cur : List Name) (cols : List Ref) (x : X V) :
    evalZ null [] (fun _ => null) (toZ cur cols x) = value (fun _ => null) x := by
  induction x with
  | col r => simp only [toZ, value]; split <;> simp [evalZ]
  | const => rfl
  | un f x ih => simp only [value, evalZ, toZ]; rw [ih]
  | bin f x y ih1 ih2 => simp only [value, evalZ, toZ]; rw [ih1, ih2]
  | between f x lo hi ih1 ih2 ih3 => simp only [value, evalZ, toZ]; rw [ih1, ih2, ih3]
  | app f rs =>
    simp only [value, evalZ, toZ, List.map_map]
    refine congrArg f (List.map_congr_left fun r _ => ?_)
    simp only [Function.comp]
    cases isCurrent cur r <;> simp

/-- One condition about the outer query that is no equality. -/
theorem run_other (o : Ops V) (cur parents : List Name) (x : X V) (sel : X V) (limit : Option Nat) (inner batch : List (Env V)) (outer : Env V)
    (r : Ref) (hr : r ∈ refs x) (t : Name) (ht : r.table = some t) (hp : t ∈ parents) (hc : t ∉ cur)
    (h : ∀ row, interHolds o cur parents (selectCols cur [.other x]) row outer (.other x) = false) :
    run o cur parents (.other x) sel limit batch inner outer = some [] := by
  have hpar : (leafFields (.other x)).any (fun r => !(isCurrent cur r) && isParent parents r) = true := by
    rw [List.any_eq_true]
    refine ⟨r, by rw [leafFields, fields_refs]; exact hr, ?_⟩
    simp [isCurrent, isParent, ht, hp, hc]
  simp only [run, splitWhere, split, splitLeaf, hpar, if_true, List.nil_append, Option.map_some, matching, List.all_cons, h, Bool.false_and, Bool.and_false,
    List.filter_false, List.map_nil]

end Correlated

/-- C71 is violated by a condition (other than an equality of columns) that mentions a joined table of the outer query: whatever the tables
hold, no row is found, if the condition is not true of NULLs. -/
theorem C71_joined_violated (o : Ops V) (cur parents : List Name) (x : X V) (sel : X V) (limit : Option Nat) (inner batch : List (Env V)) (outer : Env V)
    (r : Ref) (hr : r ∈ refs x) (t : Name) (ht : r.table = some t) (hp : t ∈ parents) (hc : t ∉ cur) (hj : parents.head? ≠ some t)
    (h : o.truthy (value (fun _ => o.null) x) = false) : run o cur parents (.other x) sel limit batch inner outer = some [] := by
  refine run_other o cur parents x sel limit inner batch outer r hr t ht hp hc fun row => ?_
  unfold interHolds
  rw [if_pos, interOn, evalZ_null, h]
  rw [List.any_eq_true]
  refine ⟨r, by rw [leafFields, fields_refs]; exact hr, ?_⟩
  simp only [isJoined, isCurrent, ht, decide_eq_false hc, Bool.not_false, Bool.true_and, decide_eq_true_eq]
  exact fun e => hj e.symm

/-- C71 is violated by a condition that is just a column of the outer query, `WHERE o.flag`: no row is found, whatever the column holds. -/
theorem C71_column_violated (o : Ops V) (cur parents : List Name) (r : Ref) (sel : X V) (limit : Option Nat) (inner batch : List (Env V)) (outer : Env V)
    (t : Name) (ht : r.table = some t) (hp : t ∈ parents) (hc : t ∉ cur) (h : o.truthy o.null = false) :
    run o cur parents (.other (.col r)) sel limit batch inner outer = some [] := by
  refine run_other o cur parents (.col r) sel limit inner batch outer r List.mem_cons_self t ht hp hc fun row => ?_
  have : isCurrent cur r = false := by simp [isCurrent, ht, hc]
  unfold interHolds
  split
  · rw [interOn, evalZ_null]; exact h
  · simp only [interOn, toZ, this, Bool.false_eq_true, if_false, evalZ, h]

/-- C71 is violated by BETWEEN with bounds of the outer query, `t.d BETWEEN o.k AND o.d`: no row is found, whatever the tables hold. -/
theorem C71_between_violated (o : Ops V) (cur parents : List Name) (f : V → V → V → V) (x : X V) (lo hi : Ref) (sel : X V) (limit : Option Nat)
    (inner batch : List (Env V)) (outer : Env V) (t : Name) (hlo : lo.table = some t) (hhi : hi.table = some t) (hp : t ∈ parents) (hc : t ∉ cur)
    (h : ∀ v, o.truthy (f v o.null o.null) = false) :
    run o cur parents (.other (.between f x (.col lo) (.col hi))) sel limit batch inner outer = some [] := by
  refine run_other o cur parents _ sel limit inner batch outer lo (by simp [refs]) t hlo hp hc fun row => ?_
  have h1 : isCurrent cur lo = false := by simp [isCurrent, hlo, hc]
  have h2 : isCurrent cur hi = false := by simp [isCurrent, hhi, hc]
  unfold interHolds
  split
  · rw [interOn, evalZ_null]; exact h _
  · simp only [interOn, toZ, h1, h2, Bool.false_eq_true, if_false, evalZ, h]

/-- `t.d BETWEEN o.k AND o.d`, and `t.d < b.d` where `b` is joined to `o`: SQL finds rows, here there are none. -/
example :
    let between := fun v lo hi => if (lt lo v).getD 0 = 1 ∧ (lt v hi).getD 0 = 1 then some 1 else some 0
    let c : Cond (Option Int) := .other (.between between (.col td) (.col ok_) (.col od))
    let j : Cond (Option Int) := .other (.bin lt (.col td) (.col ⟨some "b", "d"⟩))
    (run intOps ["t"] ["o"] c (.col td) none [kd "o" (some 1) (some 8)] inner71 (kd "o" (some 1) (some 8)) = some [] ∧
      (SqlCorrelated.rows intOps.eq intOps.truthy ["t"] c inner71 (kd "o" (some 1) (some 8))).map (fun r => r td) = [some 5, some 7]) ∧
    (run intOps ["t"] ["o", "b"] j (.col td) none [kd "b" (some 1) (some 8)] inner71 (kd "b" (some 1) (some 8)) = some [] ∧
      (SqlCorrelated.rows intOps.eq intOps.truthy ["t"] j inner71 (kd "b" (some 1) (some 8))).map (fun r => r td) = [some 5, some 7]) ∧
    (∀ v, intOps.truthy (between v intOps.null intOps.null) = false) ∧ intOps.truthy intOps.null = false :=
  ⟨by decide +kernel, by decide +kernel, fun v => rfl, rfl⟩

end Verif.Props
