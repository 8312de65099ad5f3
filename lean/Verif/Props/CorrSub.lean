import Verif.Spec.CorrSub
import Verif.Props.Correlated
import Verif.Proofs.Select
/-! Property C163: correlated subqueries with DISTINCT, GROUP BY, HAVING and ORDER BY. -/
namespace Verif.Props
open Verif.Join (Name Ref X)
open Verif.Correlated
open Verif.SqlCorrelated (Scoped NoShadow NoRepeat OnlyEqualities condRefs refs resolve holds conjuncts)
open Verif.Props.Correlated
namespace CorrSub

theorem filter_eraseDups {α : Type} [BEq α] [LawfulBEq α] (p : α → Bool) : ∀ (n : Nat) (l : List α), l.length ≤ n →
    l.eraseDups.filter p = (l.filter p).eraseDups := by
  intro n
  induction n with
  | zero => intro l h; rw [List.length_eq_zero_iff.1 (Nat.le_zero.1 h)]; rfl
  | succ n ih =>
    intro l h
    cases l with
    | nil => rfl
    | cons a l =>
      rw [List.eraseDups_cons, List.filter_cons]
      have hlen : (l.filter fun b => !b == a).length ≤ n :=
        Nat.le_trans (List.length_filter_le _ _) (by simpa using h)
      rw [ih _ hlen, List.filter_filter]
      split
      · next hp =>
        rw [List.filter_cons, if_pos hp, List.eraseDups_cons, List.filter_filter]
        congr 2
        apply List.filter_congr
        intro x _
        exact Bool.and_comm _ _
      · next hp =>
        rw [List.filter_cons, if_neg hp]
        congr 1
        apply List.filter_congr
        intro x _
        cases hx : x == a with
        | false => simp
        | true => rw [eq_of_beq hx]; simp [Bool.not_eq_true _ ▸ hp]

theorem map_eraseDups {α β : Type} [BEq α] [LawfulBEq α] [BEq β] [LawfulBEq β] (f : α → β) : ∀ (n : Nat) (l : List α), l.length ≤ n →
    (∀ x ∈ l, ∀ y ∈ l, f x = f y → x = y) → l.eraseDups.map f = (l.map f).eraseDups := by
  intro n
  induction n with
  | zero => intro l h _; rw [List.length_eq_zero_iff.1 (Nat.le_zero.1 h)]; rfl
  | succ n ih =>
    intro l h hf
    cases l with
    | nil => rfl
    | cons a l =>
      rw [List.eraseDups_cons, List.map_cons, List.map_cons, List.eraseDups_cons]
      have hlen : (l.filter fun b => !b == a).length ≤ n :=
        Nat.le_trans (List.length_filter_le _ _) (by simpa using h)
      rw [ih _ hlen fun x hx y hy => hf x (List.mem_cons_of_mem _ (List.mem_filter.1 hx).1) y
        (List.mem_cons_of_mem _ (List.mem_filter.1 hy).1), List.filter_map]
      congr 3
      apply List.filter_congr
      intro x hx
      rw [Bool.eq_iff_iff]
      simp only [Bool.not_eq_true', Function.comp_apply, beq_eq_false_iff_ne, ne_eq]
      exact ⟨fun e h => e (hf x (List.mem_cons_of_mem _ hx) a (List.mem_cons_self ..) h), fun e h => e (h ▸ rfl)⟩

theorem filter_comm {α : Type} (p q : α → Bool) (l : List α) : (l.filter p).filter q = (l.filter q).filter p := by
  rw [List.filter_filter, List.filter_filter]
  apply List.filter_congr
  intro x _
  exact Bool.and_comm _ _

variable {V : Type} [DecidableEq V]

/-- A group belongs to the outer row. -/
def mine (o : Ops V) (s : Split V) (outer : Env V) (k : List V × List V) : Bool :=
  (k.1.zip s.keys).all fun p => o.same p.1 (outer p.2.2)

theorem all_one {W U : Type} [DecidableEq W] (R : List U) (h : R ≠ []) :
    ((R.map fun _ => ([] : List W)).eraseDups.map fun k => R.filter fun _ => decide (([] : List W) = k)) = [R] := by
  cases R with
  | nil => exact absurd rfl h
  | cons r R =>
    have : ((r :: R).map fun _ => ([] : List W)).eraseDups = [[]] := by
      rw [List.map_cons, List.eraseDups_cons]
      have : ((R.map fun _ => ([] : List W)).filter fun b => !b == []) = [] := by
        rw [List.filter_eq_nil_iff]
        intro a ha
        obtain ⟨_, -, rfl⟩ := List.mem_map.1 ha
        simp
      rw [this]; rfl
    rw [this]
    simp

theorem groups_mine (o : Ops V) (hl : ∀ a b, o.same a b = true → a = b) (cur : List Name) (s : Split V) (hi : s.inter = [])
    (gs : List (X V)) (rows : List (Env V)) (outer : Env V) :
    (groupsFor cur s (some gs) rows).filter (fun g => mine o s outer g.1) =
      (((rows.filter fun row => mine o s outer (extra cur s row)).map fun row => gs.map (evalX row)).eraseDups.map fun k =>
        (((s.keys.map fun k => outer k.2), []), (rows.filter fun row => mine o s outer (extra cur s row)).filter fun row =>
          gs.map (evalX row) = k)) := by
  have hex : ∀ row, extra cur s row = (s.keys.map fun k => row k.1, []) := by
    intro row; rw [extra, hi]; rfl
  have hg0 : ∀ row, mine o s outer (extra cur s row) = true → extra cur s row = (s.keys.map fun k => outer k.2, []) := by
    intro row h
    rw [hex] at h ⊢
    exact Prod.ext (zip_all_eq o hl s.keys outer _ (by simp) h) rfl
  simp only [groupsFor]
  rw [List.filter_map]
  have e1 : ((rows.map fun row => (extra cur s row, gs.map (evalX row))).eraseDups.filter
        ((fun g => mine o s outer g.1) ∘ fun k => (k.1, rows.filter fun row => extra cur s row = k.1 ∧ gs.map (evalX row) = k.2))) =
      (((rows.filter fun row => mine o s outer (extra cur s row)).map fun row => gs.map (evalX row)).eraseDups.map fun k =>
        ((s.keys.map fun k => outer k.2, []), k)) := by
    rw [filter_eraseDups _ _ _ (Nat.le_refl _), List.filter_map]
    have e2 : (rows.filter (((fun g => mine o s outer g.1) ∘ fun k : (List V × List V) × List V =>
          (k.1, rows.filter fun row => extra cur s row = k.1 ∧ gs.map (evalX row) = k.2)) ∘ fun row => (extra cur s row, gs.map (evalX row)))) =
        rows.filter fun row => mine o s outer (extra cur s row) := rfl
    rw [e2, map_eraseDups _ _ _ (Nat.le_refl _) (fun x _ y _ h => (Prod.mk.inj h).2), List.map_map]
    congr 1
    apply List.map_congr_left
    intro row hrow
    simp only [Function.comp_apply]
    rw [hg0 row (List.mem_filter.1 hrow).2]
  rw [e1, List.map_map]
  apply List.map_congr_left
  intro k hk
  rw [List.mem_eraseDups, List.mem_map] at hk
  obtain ⟨r0, hr0, rfl⟩ := hk
  simp only [Function.comp_apply, List.filter_filter]
  congr 1
  apply List.filter_congr
  intro row _
  have h0 := (List.mem_filter.1 hr0).2
  rw [Bool.eq_iff_iff]
  simp only [decide_eq_true_iff, Bool.and_eq_true]
  constructor
  · rintro ⟨h1, h2⟩
    refine ⟨h2, ?_⟩
    rw [h1, ← hg0 r0 h0]; exact h0
  · rintro ⟨h2, h1⟩
    exact ⟨hg0 row h1, h2⟩

end CorrSub
open CorrSub

variable {V : Type} [DecidableEq V]

/-- **C163**: a correlated subquery with DISTINCT, GROUP BY, HAVING and ORDER BY that is tied to the outer query by equalities of columns
gives for every outer row of a batch the values SQL gives for that row alone, in the same order — unless it is an aggregate without
GROUP BY over no rows.  (Subqueries that take two passes, as of AVG, are another matter: `C174_correlated_violated`.) -/
theorem C163_body_partial (o : Ops V) (ho : Lawful o) (hl : ∀ a b, o.same a b = true → a = b)
    (cur parents : List Name) (hn : NoShadow cur parents) (c : Cond V) (hs : Scoped cur parents (condRefs c))
    (hr : NoRepeat cur parents c) (hq : OnlyEqualities cur parents c) (b : Body V)
    (hg : ∀ gs, b.group = some gs → ∀ x ∈ gs, ∀ r ∈ refs x, ∀ t, r.table = some t → t ∈ cur)
    (ht : ∀ le, b.before = some le → (∀ x y, le x y = true ∨ le y x = true) ∧ ∀ x y z, le x y = true → le y z = true → le x z = true)
    (inner batch : List (Env V)) (outer : Env V) (hb : outer ∈ batch)
    (hne : b.group = some [] → SqlCorrelated.rows o.eq o.truthy cur c inner outer ≠ []) :
    runBody o cur parents c b batch inner outer =
      some (SqlCorrelated.values cur outer b (SqlCorrelated.rows o.eq o.truthy cur c inner outer)) := by
  rw [runBody, splitWhere_some hn hr, Option.map_some]
  congr 1
  generalize hse : splitOf cur parents (conjuncts c) = s
  have hi : s.inter = [] := by rw [← hse]; exact inter_nil hn hq
  have hsplit : ∀ row, (s.keys.all (fun k => o.same (row k.1) (outer k.2)) && s.kept.all (keptHolds o row)) =
      holds o.eq o.truthy (resolve cur row outer) c := by
    intro row
    have := holds_split o ho hn c hs hq.placed row outer
    rw [hse] at this
    simp only [hi, List.all_nil, Bool.and_true] at this
    exact this
  -- the rows that pass and belong to the outer row are SQL's rows
  have hrows : (passing o s batch inner).filter (fun row => mine o s outer (extra cur s row)) =
      SqlCorrelated.rows o.eq o.truthy cur c inner outer := by
    rw [passing, List.filter_filter, SqlCorrelated.rows]
    apply List.filter_congr
    intro row _
    rw [← hsplit row, Bool.eq_iff_iff]
    have hm : mine o s outer (extra cur s row) = s.keys.all fun k => o.same (row k.1) (outer k.2) := by
      rw [mine, ← keys_zip s row outer o]; rfl
    rw [hm]
    simp only [Bool.and_eq_true]
    constructor
    · rintro ⟨h1, h2, h3⟩; exact ⟨h1, h3⟩
    · rintro ⟨h1, h3⟩
      refine ⟨h1, ?_, h3⟩
      rw [List.all_eq_true] at h1 ⊢
      exact fun k hk => inBatch_of o hb row k (h1 k hk)
  generalize hR : SqlCorrelated.rows o.eq o.truthy cur c inner outer = R at hrows
  -- the groups of the outer row
  let G := (groupsFor cur s b.group (passing o s batch inner)).filter fun g => mine o s outer g.1
  have hconst : ∀ g ∈ G, g.1 = (s.keys.map fun k => outer k.2, []) := by
    intro g hg'
    obtain ⟨h1, h2⟩ := List.mem_filter.1 hg'
    obtain ⟨row, hrow⟩ : ∃ row, g.1 = extra cur s row := by
      simp only [groupsFor] at h1
      cases hgr : b.group with
      | none =>
        rw [hgr] at h1
        obtain ⟨row, -, rfl⟩ := List.mem_map.1 h1
        exact ⟨row, rfl⟩
      | some gs =>
        rw [hgr] at h1
        obtain ⟨k, hk, rfl⟩ := List.mem_map.1 h1
        rw [List.mem_eraseDups, List.mem_map] at hk
        obtain ⟨row, -, rfl⟩ := hk
        exact ⟨row, rfl⟩
    have hex : extra cur s row = (s.keys.map fun k => row k.1, []) := by rw [extra, hi]; rfl
    rw [hrow, hex] at h2 ⊢
    exact Prod.ext (zip_all_eq o hl s.keys outer _ (by simp) h2) rfl
  have hG : G.map Prod.snd = SqlCorrelated.groups cur outer b R := by
    unfold SqlCorrelated.groups
    simp only [G]
    cases hgr : b.group with
    | none =>
      simp only [groupsFor, List.filter_map, List.map_map, ← hrows]
      rfl
    | some gs =>
      rw [groups_mine o hl cur s hi gs _ outer, hrows, List.map_map]
      have hv : ∀ row, gs.map (evalX row) = gs.map (SqlCorrelated.value (resolve cur row outer)) := by
        intro row
        apply List.map_congr_left
        intro x hx
        exact evalX_resolve x fun r hr => (isCurrent_iff _ _).mpr (hg gs hgr x hx r hr)
      have hgr2 : (R.map fun row => gs.map (evalX row)).eraseDups.map (fun k => R.filter fun row => gs.map (evalX row) = k) =
          SqlCorrelated.grouped cur outer gs R := by simp only [SqlCorrelated.grouped, hv]
      refine Eq.trans hgr2 ?_
      cases gs with
      | cons x gs => rfl
      | nil =>
        simp only [SqlCorrelated.grouped, List.map_nil]
        have hne' := hne hgr
        rw [hR] at hne'
        exact all_one R hne'
  -- HAVING and ORDER BY
  have hsort : ((sortFor b (groupsFor cur s b.group (passing o s batch inner))).filter fun g => mine o s outer g.1) = sortFor b G := by
    simp only [sortFor, G]
    cases hbf : b.before with
    | none => exact filter_comm _ _ _
    | some le =>
      obtain ⟨h1, h2⟩ := ht le hbf
      rw [Verif.Select.filter_isort_comm _ (fun x y => h1 x.2 y.2) (fun x y z => h2 x.2 y.2 z.2)]
      congr 1
      exact filter_comm _ _ _
  have hsortG : (sortFor b G).map Prod.snd = SqlCorrelated.ordered b (G.map Prod.snd) := by
    have hf : (G.filter fun g => b.having g.2).map Prod.snd = (G.map Prod.snd).filter b.having := by
      rw [List.filter_map]; rfl
    simp only [sortFor, SqlCorrelated.ordered]
    cases hbf : b.before with
    | none => exact hf
    | some le =>
      have := Verif.Select.map_isort (Prod.snd : ((List V × List V) × List (Env V)) → List (Env V)) le (G.filter fun g => b.having g.2)
      rw [hf] at this
      exact this
  have hsub : ∀ g ∈ sortFor b G, g ∈ G := by
    intro g hgm
    simp only [sortFor] at hgm
    cases hbf : b.before with
    | none => rw [hbf] at hgm; exact (List.mem_filter.1 hgm).1
    | some le =>
      rw [hbf] at hgm
      exact (List.mem_filter.1 ((perm_isort _ _).mem_iff.1 hgm)).1
  let f : (List V × List V) × List (Env V) → V × List V × List V := fun g => (b.value g.2, g.1.1, g.1.2)
  have hsel : ((sortFor b (groupsFor cur s b.group (passing o s batch inner))).map f).filter (fun r => mine o s outer (r.2.1, r.2.2)) =
      (sortFor b G).map f := by
    rw [List.filter_map, ← hsort]; rfl
  have hmatch : ∀ l : List (V × List V × List V),
      (matching o cur parents s (l.map fun r => (⟨r.1, r.2.1, r.2.2⟩ : Out V)) outer).map (·.val) =
        (l.filter fun r => mine o s outer (r.2.1, r.2.2)).map Prod.fst := by
    intro l
    rw [matching, List.filter_map, List.map_map]
    have : (l.filter ((fun r : Out V => ((r.keys.zip s.keys).all fun p => o.same p.1 (outer p.2.2)) &&
        s.inter.all (interHolds o cur parents (selectCols cur s.inter) r.cols outer)) ∘ fun r => (⟨r.1, r.2.1, r.2.2⟩ : Out V))) =
        l.filter fun r => mine o s outer (r.2.1, r.2.2) := by
      apply List.filter_congr
      intro r _
      simp only [Function.comp_apply, hi, List.all_nil, Bool.and_true, mine]
    rw [this]
    rfl
  have hval : ((sortFor b G).map f).map Prod.fst = ((sortFor b G).map Prod.snd).map b.value := by
    rw [List.map_map, List.map_map]; rfl
  rw [hmatch, loadBody]
  simp only [SqlCorrelated.values]
  rw [← hG, ← hsortG]
  cases b.distinct with
  | false =>
    simp only [Bool.false_eq_true, if_false]
    rw [← hval, ← hsel]
  | true =>
    simp only [if_true]
    rw [filter_eraseDups _ _ _ (Nat.le_refl _)]
    rw [show (fun g : (List V × List V) × List (Env V) => (b.value g.2, g.1.1, g.1.2)) = f from rfl, hsel,
      map_eraseDups _ _ _ (Nat.le_refl _), hval]
    intro x hx y hy hxy
    obtain ⟨gx, hgx, rfl⟩ := List.mem_map.1 hx
    obtain ⟨gy, hgy, rfl⟩ := List.mem_map.1 hy
    have e := (hconst gx (hsub gx hgx)).trans (hconst gy (hsub gy hgy)).symm
    simp only [f] at hxy ⊢
    rw [hxy, e]

/-- **C163 is violated** by an aggregate without GROUP BY over no rows: there is no value, whatever SQL's value is (as COUNT's 0), for every
subquery tied to the outer query by equalities. -/
theorem C163_no_rows_violated (o : Ops V) (ho : Lawful o) (cur parents : List Name) (hn : NoShadow cur parents) (c : Cond V)
    (hs : Scoped cur parents (condRefs c)) (hr : NoRepeat cur parents c) (hq : OnlyEqualities cur parents c) (b : Body V)
    (hg : b.group = some []) (hh : b.having [] = true) (inner batch : List (Env V)) (outer : Env V) (hb : outer ∈ batch)
    (h0 : SqlCorrelated.rows o.eq o.truthy cur c inner outer = []) :
    runBody o cur parents c b batch inner outer = some [] ∧
    SqlCorrelated.values cur outer b (SqlCorrelated.rows o.eq o.truthy cur c inner outer) = [b.value []] := by
  constructor
  · rw [runBody, splitWhere_some hn hr, Option.map_some]
    congr 1
    generalize hse : splitOf cur parents (conjuncts c) = s
    have hi : s.inter = [] := by rw [← hse]; exact inter_nil hn hq
    rw [List.map_eq_nil_iff, matching, List.filter_eq_nil_iff]
    intro r hrm
    obtain ⟨t, ht, rfl⟩ := List.mem_map.1 hrm
    have ht' : t ∈ (sortFor b (groupsFor cur s b.group (passing o s batch inner))).map fun g => (b.value g.2, g.1.1, g.1.2) := by
      rw [loadBody] at ht
      split at ht
      · exact List.mem_eraseDups.1 ht
      · exact ht
    obtain ⟨g, hgm, rfl⟩ := List.mem_map.1 ht'
    have hg2 : g ∈ groupsFor cur s b.group (passing o s batch inner) := by
      simp only [sortFor] at hgm
      cases hbf : b.before with
      | none => rw [hbf] at hgm; exact (List.mem_filter.1 hgm).1
      | some le => rw [hbf] at hgm; exact (List.mem_filter.1 ((perm_isort _ _).mem_iff.1 hgm)).1
    rw [hg] at hg2
    simp only [groupsFor] at hg2
    obtain ⟨k, hk, rfl⟩ := List.mem_map.1 hg2
    rw [List.mem_eraseDups, List.mem_map] at hk
    obtain ⟨row, hrow, rfl⟩ := hk
    simp only [hi, List.all_nil, Bool.and_true]
    intro hkeys
    have hrow' := List.mem_filter.1 hrow
    have hsp := holds_split o ho hn c hs hq.placed row outer
    rw [hse] at hsp
    simp only [hi, List.all_nil, Bool.and_true] at hsp
    have : row ∈ SqlCorrelated.rows o.eq o.truthy cur c inner outer := by
      rw [SqlCorrelated.rows, List.mem_filter]
      refine ⟨hrow'.1, ?_⟩
      rw [← hsp, Bool.and_eq_true]
      have h2 := (Bool.and_eq_true _ _ ▸ hrow'.2 : _ ∧ _)
      refine ⟨?_, h2.2⟩
      rw [← keys_zip s row outer o]
      exact hkeys
    rw [h0] at this
    cases this
  · rw [h0]
    have hord : SqlCorrelated.ordered b [[]] = [[]] := by
      simp only [SqlCorrelated.ordered]
      cases b.before with
      | none => simp [hh]
      | some le => simp [hh, Order.isort, Order.insertBy]
    simp only [SqlCorrelated.values, SqlCorrelated.groups, hg, hord]
    cases b.distinct <;> rfl

namespace CorrSub

/-- `SELECT DISTINCT t.k` -/
def distinctK : Body (Option Int) := ⟨true, none, fun g => (g.map fun r => r tk).headD none, fun _ => true, none⟩

/-- `SELECT SUM(t.d) … GROUP BY t.d HAVING SUM(t.d) > 5 ORDER BY SUM(t.d) DESC` -/
def sumByD : Body (Option Int) :=
  ⟨false, some [.col td], fun g => Correlated.sum (g.map fun r => r td), fun g => decide (5 < (g.map fun r => (r td).getD 0).sum),
    some fun a b => decide ((b.map fun r => (r td).getD 0).sum ≤ (a.map fun r => (r td).getD 0).sum)⟩

/-- Rows with k = 1: d is 5, 7, 3, 3, 9; with k = 2: 8. -/
def inner163 : List (Env (Option Int)) :=
  [kd "t" (some 1) (some 5), kd "t" (some 1) (some 7), kd "t" (some 2) (some 8), kd "t" (some 1) (some 3), kd "t" (some 1) (some 3),
    kd "t" (some 1) (some 9)]

theorem sumByD_order (x y z : List (Env (Option Int))) : ∀ le, sumByD.before = some le →
    (le x y = true ∨ le y x = true) ∧ (le x y = true → le y z = true → le x z = true) := by
  intro le h
  simp only [sumByD, Option.some.injEq] at h
  subst h
  simp only [decide_eq_true_iff]
  exact ⟨by omega, by omega⟩

end CorrSub

/-- C163 on a subquery with GROUP BY, HAVING and ORDER BY, two outer rows at once; the hypotheses of `C163_body_partial` are met. -/
example : runBody intOps ["t"] ["o"] (.eq (.col tk) (.col ok_)) sumByD [kd "o" (some 1) none, kd "o" (some 2) none] inner163
      (kd "o" (some 1) none) = some [some 9, some 7, some 6] ∧
    Lawful intOps ∧ (∀ a b, intOps.same a b = true → a = b) ∧ NoShadow ["t"] ["o"] ∧
    (∀ gs, sumByD.group = some gs → ∀ x ∈ gs, ∀ r ∈ refs x, ∀ t, r.table = some t → t ∈ ["t"]) ∧ sumByD.group ≠ some [] :=
  ⟨by decide +kernel, intOps_lawful, intOps_law, by simp [NoShadow], by
    intro gs h x hx r hr t ht
    simp only [sumByD, Option.some.injEq] at h
    subst h
    simp only [List.mem_singleton] at hx
    subst hx
    simp only [refs, List.mem_singleton] at hr
    subst hr
    simp only [td, Option.some.injEq] at ht
    subst ht
    simp, by simp [sumByD]⟩

/-- **C163 is violated** by DISTINCT when the subquery is tied to the outer query by another condition than equalities: the columns of
that condition are made distinct as well. `SELECT DISTINCT t.k FROM t WHERE t.d < o.d`: SQL gives 1 once. -/
theorem C163_distinct_violated :
    runBody intOps ["t"] ["o"] (.other (.bin lt (.col td) (.col od))) distinctK [kd "o" none (some 8)] inner163 (kd "o" none (some 8)) =
      some [some 1, some 1, some 1] ∧
    SqlCorrelated.values ["t"] (kd "o" none (some 8)) distinctK
      (SqlCorrelated.rows intOps.eq intOps.truthy ["t"] (.other (.bin lt (.col td) (.col od))) inner163 (kd "o" none (some 8))) = [some 1] := by
  decide +kernel

end Verif.Props
