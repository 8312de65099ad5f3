import Verif.Props.JoinOn
/-! C54: FROM a, b, … -/
namespace Verif.Props
open Verif.Join Verif.SqlJoin Verif.Proofs.Join

section
variable {V : Type} [DecidableEq V]

/-- Each table is compared with something: some conjunct of the WHERE goes to its ON. -/
def Compared (conds : List (Cond V)) : List Name → List Name → Prop
  | _, [] => True
  | can, t :: ts => (∃ c ∈ conds, GoesToOn can t c) ∧ Compared conds (can ++ [t]) ts

/-- Conjuncts that go to the ON of a table do not use the tables after it; the tables have different names. -/
def LooksBack (conds : List (Cond V)) : List Name → List Name → Prop
  | _, [] => True
  | can, t :: ts => (∀ u ∈ ts, u ≠ t ∧ ∀ c ∈ conds, GoesToOn can t c → ∀ r ∈ condFields c, r.table ≠ some u) ∧
    LooksBack conds (can ++ [t]) ts

theorem toOn_side (can : List Name) (x : X V) :
    sideOk can x = true ↔ ∀ r, x = .col r → ∃ t ∈ can, r.table = some t := by
  cases x with
  | col a =>
    cases ht : a.table with
    | none =>
      simp only [sideOk, colTable, ht, Bool.false_eq_true, false_iff]
      intro h
      obtain ⟨t, _, h2⟩ := h a rfl
      rw [ht] at h2; cases h2
    | some t =>
      simp only [sideOk, colTable, ht, decide_eq_true_eq]
      constructor
      · intro h r hr
        cases hr
        exact ⟨t, h, ht⟩
      · intro h
        obtain ⟨u, hu, h2⟩ := h a rfl
        rw [ht] at h2
        cases h2; exact hu
  | _ => simp [sideOk, colTable]

theorem toOn_iff (can : List Name) (own : Name) (c : Cond V) : toOn can own c = true ↔ GoesToOn can own c := by
  cases c with
  | cmp op l r =>
    rw [toOn, Bool.or_eq_true, Bool.and_eq_true, Bool.and_eq_true, toOn_side, toOn_side]
    constructor
    · rintro (⟨h, h'⟩ | ⟨h, h'⟩)
      · obtain ⟨k, hk⟩ := Option.isSome_iff_exists.1 h
        have e := ownCol_some own l k hk
        subst e
        exact ⟨r, .left op k r, h'⟩
      · obtain ⟨k, hk⟩ := Option.isSome_iff_exists.1 h
        have e := ownCol_some own r k hk
        subst e
        exact ⟨l, .right op k l, h'⟩
    · rintro ⟨x, hx, h⟩
      cases hx with
      | left op k x => exact Or.inl ⟨by simp [ownCol], h⟩
      | right op k x => exact Or.inr ⟨by simp [ownCol], h⟩
  | isin l vs =>
    simp only [toOn, Bool.false_eq_true, false_iff]
    rintro ⟨x, hx, _⟩; cases hx
  | other x =>
    simp only [toOn, Bool.false_eq_true, false_iff]
    rintro ⟨x, hx, _⟩; cases hx

theorem toOn_own (can : List Name) (own : Name) (c : Cond V) (h : toOn can own c = true) :
    ∃ k, (⟨some own, k⟩ : Ref) ∈ condFields c := by
  cases c with
  | cmp op l r =>
    have own? : ∀ x : X V, (ownCol own x).isSome = true → ∃ k, (⟨some own, k⟩ : Ref) ∈ fields x := by
      intro x hx
      obtain ⟨k, hk⟩ := Option.isSome_iff_exists.1 hx
      exact ⟨k, by rw [ownCol_some own x k hk]; simp [fields]⟩
    rw [toOn, Bool.or_eq_true, Bool.and_eq_true, Bool.and_eq_true] at h
    rcases h with ⟨h, _⟩ | ⟨h, _⟩
    · obtain ⟨k, hk⟩ := own? l h
      exact ⟨k, by simp [condFields, hk]⟩
    · obtain ⟨k, hk⟩ := own? r h
      exact ⟨k, by simp [condFields, hk]⟩
  | isin l vs => simp [toOn] at h
  | other x => simp [toOn] at h

theorem evalX_congr (x : X V) (f g : Ref → V) (h : ∀ r ∈ fields x, f r = g r) : evalX f x = evalX g x := by
  induction x with
  | col r => exact h r (by simp [fields])
  | const w => rfl
  | un f x ih => rw [evalX, evalX, ih h]
  | bin f x y ihx ihy =>
    rw [evalX, evalX, ihx fun r hr => h r (by simp [fields, hr]), ihy fun r hr => h r (by simp [fields, hr])]
  | between f x y z ihx ihy ihz =>
    rw [evalX, evalX, ihx fun r hr => h r (by simp [fields, hr]), ihy fun r hr => h r (by simp [fields, hr]),
      ihz fun r hr => h r (by simp [fields, hr])]
  | app f rs => exact congrArg f (List.map_congr_left fun r hr => h r hr)

theorem multi_names (conds : List (Cond V)) (can ts : List Name) (j : Join V) (hj : j ∈ multiJoins conds can ts) : j.name ∈ ts ∧ j.kind = .left := by
  induction ts generalizing can with
  | nil => cases hj
  | cons t ts ih =>
    rw [multiJoins] at hj
    rcases List.mem_cons.1 hj with rfl | hj
    · exact ⟨by simp, rfl⟩
    · have := ih _ hj
      exact ⟨by simp [this.1], this.2⟩

theorem flatMap_filter_nil {α β : Type} (l : List α) (p : α → Bool) (f : α → List β) (h : ∀ a ∈ l, p a = false → f a = []) :
    (l.filter p).flatMap f = l.flatMap f := by
  induction l with
  | nil => rfl
  | cons a l ih =>
    rw [List.filter_cons, List.flatMap_cons]
    have ih' := ih fun b hb => h b (by simp [hb])
    cases hp : p a with
    | true => rw [if_pos rfl, List.flatMap_cons, ih']
    | false => rw [if_neg (by simp), ih', h a (by simp) hp, List.nil_append]

theorem multi_filter (null : V) (o : Ops V) (primary : Name) (db : Name → List (Row V)) (conds : List (Cond V))
    (hstrict : ∀ c ∈ conds, (∃ can t, GoesToOn can t c) → ∀ e : Env V, holds o primary e c = true → ∀ r ∈ condFields c, refVal primary e r ≠ null)
    (can ts : List Name) (hp : primary ∉ ts) (hc : Compared conds can ts) (ho : LooksBack conds can ts) (e : Env V) :
    (leftAll null o primary db (multiJoins conds can ts) e).filter (fun e' => conds.all (holds o primary e')) =
      (cross db ts e).filter fun e' => conds.all (holds o primary e') := by
  induction ts generalizing can e with
  | nil => rfl
  | cons t ts ih =>
    have hpt : primary ∉ ts := fun h => hp (by simp [h])
    have htp : t ≠ primary := fun e => hp (by simp [e])
    obtain ⟨hfresh, ho'⟩ := ho
    -- a conjunct of the ON keeps its value in the further joins
    have hkeep : ∀ e1 e' : Env V, e' ∈ leftAll null o primary db (multiJoins conds (can ++ [t]) ts) e1 → ∀ c ∈ conds,
        toOn can t c = true → holds o primary e' c = holds o primary e1 c := by
      intro e1 e' he c hcc ht
      rw [holds, holds]
      congr 1
      refine evalX_congr _ _ _ fun r hr => ?_
      rw [fields_condX] at hr
      rw [refVal, refVal]
      rw [leftAll_agree null o primary db _ (r.table.getD primary) ?_ e1 e' he]
      intro k hk hkn
      have hkt := (multi_names conds _ ts k hk).1
      cases hrt : r.table with
      | none => rw [hrt] at hkn; exact hpt (by rw [hkn] at hkt; exact hkt)
      | some u =>
        rw [hrt] at hkn
        exact (hfresh k.name hkt).2 c hcc ((toOn_iff _ _ _).1 ht) r hr (by rw [hrt, hkn]; rfl)
    have hdead : ∀ e1 : Env V, (∃ c ∈ conds, toOn can t c = true ∧ holds o primary e1 c = false) →
        (leftAll null o primary db (multiJoins conds (can ++ [t]) ts) e1).filter (fun e' => conds.all (holds o primary e')) = [] := by
      rintro e1 ⟨c, hcc, ht, hf⟩
      rw [List.filter_eq_nil_iff]
      intro e' he hall
      rw [List.all_eq_true] at hall
      have := hall c hcc
      rw [hkeep e1 e' he c hcc ht, hf] at this
      cases this
    have hj : joined o primary db ⟨t, .left, conds.filter (toOn can t)⟩ e =
        ((db t).map (upd e t)).filter fun e1 => (conds.filter (toOn can t)).all (holds o primary e1) := rfl
    have hdead' : ∀ e1 : Env V, (conds.filter (toOn can t)).all (holds o primary e1) = false →
        (leftAll null o primary db (multiJoins conds (can ++ [t]) ts) e1).filter (fun e' => conds.all (holds o primary e')) = [] := by
      intro e1 hf
      rw [List.all_eq_false] at hf
      obtain ⟨c, hcc, hf⟩ := hf
      rw [List.mem_filter] at hcc
      exact hdead e1 ⟨c, hcc.1, hcc.2, by simpa using hf⟩
    have hcross : (cross db (t :: ts) e).filter (fun e' => conds.all (holds o primary e')) =
        ((db t).map (upd e t)).flatMap fun e1 =>
          (leftAll null o primary db (multiJoins conds (can ++ [t]) ts) e1).filter fun e' => conds.all (holds o primary e') := by
      rw [cross, List.filter_flatMap, List.flatMap_def, List.flatMap_def]
      congr 1
      exact List.map_congr_left fun e1 _ => (ih _ hpt hc.2 ho' e1).symm
    rw [hcross, multiJoins, leftAll, List.filter_flatMap]
    rw [← flatMap_filter_nil ((db t).map (upd e t)) (fun e1 => (conds.filter (toOn can t)).all (holds o primary e1)) _
      fun e1 _ hf => hdead' e1 hf]
    simp only [leftStep]
    rw [hj]
    split
    · rename_i hnil
      rw [hnil, List.flatMap_nil, List.flatMap_cons, List.flatMap_nil, List.append_nil]
      obtain ⟨c, hcc, hg⟩ := hc.1
      have ht := (toOn_iff _ _ _).2 hg
      refine hdead _ ⟨c, hcc, ht, ?_⟩
      cases hh : holds o primary (upd e t fun _ => null) c with
      | false => rfl
      | true =>
        obtain ⟨k, hk⟩ := toOn_own can t c ht
        exact absurd (by simp [refVal, upd]) (hstrict c hcc ⟨can, t, hg⟩ _ hh _ hk)
    · rfl

/-- **C54**, where the conjuncts go: a conjunct of the WHERE belongs to the ON of a further table exactly when it compares a
column of that table (on either side) with an expression that is not a column, or with a qualified column of a table
before it.  The WHERE itself keeps all conjuncts (`C54_from_list_partial`). -/
theorem C54_on_conjuncts (conds : List (Cond V)) (can : List Name) (t : Name) (ts : List Name) (c : Cond V) :
    ∃ j js, multiJoins conds can (t :: ts) = j :: js ∧ j.name = t ∧ js = multiJoins conds (can ++ [t]) ts ∧
      (c ∈ j.on ↔ c ∈ conds ∧ GoesToOn can t c) :=
  ⟨_, _, rfl, rfl, rfl, by simp only [List.mem_filter, toOn_iff]⟩

/-- **C54**: `FROM a, b, … WHERE …` returns the combinations of rows that satisfy the WHERE, when every table after the first is
compared with something and no comparison looks ahead. -/
theorem C54_from_list_partial (null : V) (o : Ops V) (primary : Name) (db : Name → List (Row V)) (conds : List (Cond V))
    (hstrict : ∀ c ∈ conds, (∃ can t, GoesToOn can t c) → ∀ e : Env V, holds o primary e c = true → ∀ r ∈ condFields c, refVal primary e r ≠ null)
    (ts : List Name) (hp : primary ∉ ts) (hc : Compared conds [primary] ts) (ho : LooksBack conds [primary] ts) (e : Env V) :
    runMulti null o primary db ts conds e = some ((cross db ts e).filter fun e' => conds.all (holds o primary e')) := by
  have hany : ((multiJoins conds [primary] ts).any fun j => decide (j.kind = .inner)) = false := by
    rw [List.any_eq_false]
    intro j hj
    rw [(multi_names conds _ ts j hj).2]; decide
  rw [runMulti, run]
  simp only [hany, Bool.false_eq_true, if_false]
  rw [multi_filter null o primary db conds hstrict [primary] ts hp hc ho e]

end

section

/-- **C54 is violated by a table without comparison**: `FROM a, b` has a row when `b` is empty. -/
theorem C54_empty_violated :
    (runMulti 0 natOps "a" (fun _ => []) ["b"] [] exA).map List.length = some 1 ∧ (cross (fun _ => ([] : List (Row Nat))) ["b"] exA).length = 0 := by
  decide +kernel

/-- A comparison that looks ahead goes to the ON of the earlier table: `FROM a, b, c WHERE b.x = c.y + 1 AND c.id = b.id` has two ON
that refer to each other, and the chain of tables does not end (`C122_cycle_violated`). -/
theorem C54_lookahead_violated :
    let conds : List (Cond Nat) := [.cmp .eq (.col ⟨some "b", "x"⟩) (.un (· + 1) (.col ⟨some "c", "y"⟩)),
      .cmp .eq (.col ⟨some "c", "id"⟩) (.col ⟨some "b", "id"⟩)]
    (multiJoins conds ["a"] ["b", "c"]).map (fun j => (j.name, (parseOn natOps j.name noTable j.on).map (refs "a"))) =
      [("b", some ["c"]), ("c", some ["b"])] := by
  decide +kernel

/-- C54 on `FROM a, b WHERE b.id = a.id`. -/
example : Compared [bOnA] ["a"] ["b"] ∧ LooksBack [bOnA] ["a"] ["b"] ∧
    (∀ c ∈ [bOnA], (∃ can t, GoesToOn can t c) → ∀ e : Env Nat, holds sqlOps "a" e c = true → ∀ r ∈ condFields c, refVal "a" e r ≠ 0) ∧
    (runMulti 0 sqlOps "a" (fun t => if t = "b" then [exRow 1 5 5, exRow 2 6 6] else []) ["b"] [bOnA] exA).map List.length = some 1 := by
  refine ⟨⟨⟨bOnA, by simp, _, .left _ _ _, by rintro r ⟨⟩; exact ⟨"a", by simp, rfl⟩⟩, trivial⟩, ⟨by simp, trivial⟩, ?_, by decide +kernel⟩
  intro c hc _ e h r hr
  simp only [List.mem_singleton] at hc
  subst hc
  have h : natOps.truthy (if refVal "a" e ⟨some "b", "id"⟩ = 0 ∨ refVal "a" e ⟨some "a", "id"⟩ = 0 then 0
    else natOps.cmp .eq (refVal "a" e ⟨some "b", "id"⟩) (refVal "a" e ⟨some "a", "id"⟩)) = true := h
  have h' : ¬ (refVal "a" e ⟨some "b", "id"⟩ = 0 ∨ refVal "a" e ⟨some "a", "id"⟩ = 0) := by
    intro h0
    rw [if_pos h0] at h
    simp [natOps] at h
  rw [not_or] at h'
  simp only [bOnA, condFields, fields, List.cons_append, List.nil_append, List.mem_cons, List.not_mem_nil, or_false] at hr
  rcases hr with rfl | rfl
  · exact h'.1
  · exact h'.2

end

end Verif.Props
