import Verif.Model.AggCall
import Verif.Spec.AggCall
import Verif.Props.Aggregate
import Verif.Props.AggregateLaws
import Verif.Props.Reduce
/-! C160: COUNT in all its forms.  C161: calls of aggregates. -/
namespace Verif.Props
open Verif.Val Verif.Agg Verif.AggSpec Verif.AggCall Verif.AggCallSpec Verif.GroupSpec

namespace AggCalls

theorem same_key (a b : Val) : same a b ↔ keyOf a = keyOf b := by
  by_cases ha : a = .null
  · subst ha
    cases b <;> simp [same, num?, keyOf, numeric]
  · by_cases hb : b = .null
    · subst hb
      cases a <;> simp [same, num?, keyOf, numeric]
    · exact same_iff ha hb

theorem sameRow_key (l m : List Val) : sameRow l m ↔ l.map keyOf = m.map keyOf := by
  induction l generalizing m with
  | nil => cases m <;> simp [sameRow]
  | cons a l ih => cases m with
    | nil => simp [sameRow]
    | cons b m => simp only [sameRow, List.map_cons, List.cons.injEq, ih, same_key]

theorem addArg_keys (s : List Arg) (a : Arg) :
    (addArg s a).map argKey = if argKey a ∈ s.map argKey then s.map argKey else s.map argKey ++ [argKey a] := by
  unfold addArg
  by_cases h : s.any (fun b => argKey b = argKey a) = true
  · rw [if_pos h, if_pos]
    simp only [List.any_eq_true, decide_eq_true_eq] at h
    exact List.mem_map.2 h
  · rw [if_neg h, if_neg, List.map_append]
    · rfl
    · intro hm
      apply h
      simp only [List.any_eq_true, decide_eq_true_eq]
      exact List.mem_map.1 hm

/-- The state lists the classes of the arguments once each. -/
theorem foldl_add (l : List Arg) (s : List Arg) (hs : (s.map argKey).Nodup) :
    ((l.foldl addArg s).map argKey).Nodup ∧ (∀ k, k ∈ (l.foldl addArg s).map argKey ↔ k ∈ s.map argKey ∨ k ∈ l.map argKey) := by
  induction l generalizing s with
  | nil => exact ⟨hs, by simp⟩
  | cons a l ih =>
    have h1 : ((addArg s a).map argKey).Nodup := by
      rw [addArg_keys]
      split
      · exact hs
      · rename_i h
        rw [List.nodup_append]
        refine ⟨hs, by simp, ?_⟩
        intro x hx y hy e
        rw [List.mem_singleton] at hy
        exact h (by rw [← hy, ← e]; exact hx)
    obtain ⟨i1, i2⟩ := ih (addArg s a) h1
    refine ⟨i1, fun k => ?_⟩
    rw [List.foldl_cons, i2, addArg_keys, List.map_cons, List.mem_cons]
    split
    · rename_i h
      constructor
      · rintro (g | g)
        · exact .inl g
        · exact .inr (.inr g)
      · rintro (g | rfl | g)
        · exact .inl g
        · exact .inl h
        · exact .inr g
    · rw [List.mem_append, List.mem_singleton, or_assoc]

theorem run_many (l : List (List Val)) (s : Option (List Arg)) :
    AggCall.distinctCount.run s (l.map .many) = some (if l = [] then s else some ((l.map Arg.many).foldl addArg (s.getD []))) := by
  induction l generalizing s with
  | nil => rfl
  | cons a l ih =>
    have e : AggCall.distinctCount.step s (.many a) = some (some (addArg (s.getD []) (.many a))) := by cases s <;> rfl
    simp only [List.map_cons, Calc.run, e, ih]
    by_cases h : l = [] <;> simp [h]

theorem run_one (l : List Val) (s : Option (List Arg)) :
    AggCall.distinctCount.run s (l.map .one) =
      some (if nonNull l = [] then s else some (((nonNull l).map Arg.one).foldl addArg (s.getD []))) := by
  induction l generalizing s with
  | nil => rfl
  | cons v l ih =>
    by_cases hv : v = .null
    · subst hv
      have : nonNull (.null :: l) = nonNull l := by simp [nonNull]
      rw [this, ← ih s]; rfl
    · have hn : nonNull (v :: l) = v :: nonNull l := by simp [nonNull, hv]
      have hs : AggCall.distinctCount.step s (.one v) = some (some (addArg (s.getD []) (.one v))) := by
        cases s <;> cases v <;> simp_all [AggCall.distinctCount, addArg]
      simp only [List.map_cons, Calc.run, hs, ih, hn]
      by_cases h : nonNull l = [] <;> simp [h]

/-- The number of classes. -/
theorem classes_length {α : Type} [DecidableEq α] {M N : List α} (h1 : M.Nodup) (h2 : N.Nodup) (h : ∀ k, k ∈ M ↔ k ∈ N) :
    M.length = N.length := ((List.perm_ext_iff_of_nodup h1 h2).2 h).length_eq

theorem many_key (L : List (List Val)) : (L.map Arg.many).map argKey = L.map fun r => (r.map keyOf, true) := by
  rw [List.map_map]; rfl

theorem combinations_keys {l L : List (List Val)} (h : Combinations l L) :
    (L.map fun r => r.map keyOf).Nodup ∧ ∀ k, k ∈ (L.map fun r => r.map keyOf) ↔ k ∈ (l.map fun r => r.map keyOf) := by
  obtain ⟨a1, a2, a3⟩ := h
  constructor
  · rw [List.Nodup, List.pairwise_map]
    exact a2.imp fun hs e => hs ((sameRow_key _ _).2 e)
  · intro k
    simp only [List.mem_map]
    constructor
    · rintro ⟨w, hw, e⟩; exact ⟨w, a1 w hw, e⟩
    · rintro ⟨v, hv, e⟩
      obtain ⟨w, hw, hs⟩ := a3 v hv
      exact ⟨w, hw, by rw [← e]; exact ((sameRow_key _ _).1 hs).symm⟩

theorem count_many (l L : List (List Val)) (h : Combinations l L) :
    (AggCall.distinctCount.run none (l.map .many)).map AggCall.distinctCount.final = some (.int L.length) := by
  rw [run_many]
  by_cases hl : l = []
  · subst hl
    obtain ⟨a1, _, _⟩ := h
    have : L = [] := by
      cases L with
      | nil => rfl
      | cons w L => exact absurd (a1 w (by simp)) (by simp)
    subst this
    simp [AggCall.distinctCount]
  · simp only [hl, if_false, Option.getD_none]
    obtain ⟨f1, f2⟩ := foldl_add (l.map Arg.many) [] (by simp)
    obtain ⟨k1, k2⟩ := combinations_keys h
    have hk : ∀ k, k ∈ ((l.map Arg.many).foldl addArg []).map argKey ↔ k ∈ (L.map fun r => (r.map keyOf, true)) := by
      intro k
      rw [f2, many_key]
      simp only [List.map_nil, List.not_mem_nil, false_or]
      obtain ⟨ks, b⟩ := k
      have e : ∀ M : List (List Val), (ks, b) ∈ (M.map fun r => (r.map keyOf, true)) ↔ ks ∈ (M.map fun r => r.map keyOf) ∧ b = true := by
        intro M
        simp only [List.mem_map, Prod.mk.injEq]
        constructor
        · rintro ⟨r, hr, e1, e2⟩; exact ⟨⟨r, hr, e1⟩, e2.symm⟩
        · rintro ⟨⟨r, hr, e1⟩, e2⟩; exact ⟨r, hr, e1, e2.symm⟩
      rw [e, e, k2]
    have hn : (L.map fun r => (r.map keyOf, true)).Nodup := by
      rw [List.Nodup, List.pairwise_map] at k1 ⊢
      exact k1.imp fun hne e => hne (Prod.mk.inj e).1
    have := classes_length f1 hn hk
    simp only [List.length_map] at this
    simp [AggCall.distinctCount, this]

theorem count_one (l L : List Val) (h : Distinct l L) :
    (AggCall.distinctCount.run none (l.map .one)).map AggCall.distinctCount.final = some (.int L.length) := by
  have key := C17_count_distinct l L h
  rw [distinct_run] at key
  rw [run_one, ← key]
  have e : ∀ (m : List Val) (s : List Val), (m.map Arg.one).foldl addArg (s.map .one) = (m.foldl setAdd s).map .one := by
    intro m
    induction m with
    | nil => intro s; rfl
    | cons v m ih =>
      intro s
      have : addArg (s.map .one) (.one v) = (setAdd s v).map .one := by
        unfold addArg setAdd
        have hk : (s.map Arg.one).any (fun b => argKey b = argKey (.one v)) = s.any fun w => keyOf w = keyOf v := by
          rw [List.any_map]
          congr 1
          funext w
          simp [argKey]
        rw [hk]
        split <;> simp
      simp only [List.map_cons, List.foldl_cons, this, ih]
  by_cases hl : nonNull l = []
  · simp [hl, AggCall.distinctCount, Agg.distinctCount]
  · have e0 := e (nonNull l) []
    simp only [List.map_nil] at e0
    simp [hl, AggCall.distinctCount, Agg.distinctCount, e0]

end AggCalls
open AggCalls

/-- **C160** COUNT(*) is the number of the rows of the group. -/
theorem C160_count_star {ε ρ : Type} (known : Str → Bool) (ev : ε → ρ → Val) (rows : List ρ) (h : rows ≠ []) :
    countOf known ev .star [] rows = some (.int rows.length) := by
  have key : ∀ (rows : List ρ) (n : Int), AggCall.count.run (some n) (rows.map fun _ => Arg.one (.int 0)) = some (some (n + rows.length)) := by
    intro rows
    induction rows with
    | nil => intro n; simp [Calc.run]
    | cons r rows ih =>
      intro n
      have e : AggCall.count.step (some n) (Arg.one (.int 0)) = some (some (n + 1)) := rfl
      simp only [List.map_cons, Calc.run, e, ih, List.length_cons]
      congr 2
      omega
  cases rows with
  | nil => exact absurd rfl h
  | cons r rows =>
    show (AggCall.count.run none ((r :: rows).map fun _ => Arg.one (.int 0))).map AggCall.count.final = _
    have e : AggCall.count.step none (Arg.one (.int 0)) = some (some 1) := rfl
    simp only [List.map_cons, Calc.run, e, key, Option.map_some]
    show some (Val.int (1 + (rows.length : Int))) = some (Val.int ((rows.length + 1 : Nat) : Int))
    congr 2
    omega

/-- **C160** COUNT(e) is the number of the rows in which `e` is not NULL. -/
theorem C160_count {ε ρ : Type} (known : Str → Bool) (ev : ε → ρ → Val) (e : ε) (rows : List ρ) (h : rows ≠ []) :
    countOf known ev (.one e) [] rows = some (.int (rows.filter fun r => ev e r ≠ .null).length) := by
  have key : ∀ (l : List Val) (s : Option Int), AggCall.count.run s (l.map .one) = Agg.count.run s l := by
    intro l
    induction l with
    | nil => intro s; rfl
    | cons v l ih =>
      intro s
      have e : AggCall.count.step s (.one v) = Agg.count.step s v := by cases v <;> rfl
      simp only [List.map_cons, Calc.run, e]
      cases Agg.count.step s v with
      | none => rfl
      | some s' => exact ih s'
  have := C17_count (rows.map (ev e)) (by simpa using h)
  rw [← key, List.map_map] at this
  show (AggCall.count.run none (rows.map fun r => Arg.one (ev e r))).map AggCall.count.final = _
  have this : AggCall.count.run none (rows.map fun r => Arg.one (ev e r)) = _ := this
  rw [this]
  simp only [Option.map_some, AggCall.count, nonNull, List.filter_map, List.length_map]
  rfl

/-- **C160** COUNT(DISTINCT e) is the number of the different values of `e` other than NULL. -/
theorem C160_count_distinct {ε ρ : Type} (known : Str → Bool) (ev : ε → ρ → Val) (e : ε) (rows : List ρ) (L : List Val)
    (hL : Distinct (rows.map (ev e)) L) : countOf known ev (.distinct [e]) [] rows = some (.int L.length) := by
  have := count_one (rows.map (ev e)) L hL
  rw [List.map_map] at this
  exact this

/-- C160, missing: rows with a NULL among the values.  COUNT(DISTINCT a, b, …) is the number of the different combinations when no
value is NULL. -/
theorem C160_count_combinations_partial {ε ρ : Type} (known : Str → Bool) (ev : ε → ρ → Val) (a b : ε) (es : List ε) (rows : List ρ)
    (hn : ∀ r ∈ rows, ∀ e ∈ a :: b :: es, ev e r ≠ .null) (L : List (List Val))
    (hL : Combinations (full (rows.map fun r => (a :: b :: es).map (ev · r))) L) :
    countOf known ev (.distinct (a :: b :: es)) [] rows = some (.int L.length) := by
  have hf : full (rows.map fun r => (a :: b :: es).map (ev · r)) = rows.map fun r => (a :: b :: es).map (ev · r) := by
    rw [full, List.filter_eq_self]
    intro x hx
    obtain ⟨r, hr, rfl⟩ := List.mem_map.1 hx
    rw [List.all_eq_true]
    intro v hv
    obtain ⟨e, he, rfl⟩ := List.mem_map.1 hv
    simpa using hn r hr e he
  rw [hf] at hL
  have := count_many _ L hL
  rw [List.map_map] at this
  exact this

/-- **C160 is violated by every group in which some value is NULL**: COUNT(DISTINCT a, b, …) is then larger than SQL's. -/
theorem C160_null_combinations_violated {ε ρ : Type} (known : Str → Bool) (ev : ε → ρ → Val) (a b : ε) (es : List ε) (rows : List ρ)
    (r : ρ) (hr : r ∈ rows) (e : ε) (he : e ∈ a :: b :: es) (hnull : ev e r = .null) (L : List (List Val))
    (hL : Combinations (full (rows.map fun r => (a :: b :: es).map (ev · r))) L) :
    ∃ n : Nat, countOf known ev (.distinct (a :: b :: es)) [] rows = some (.int n) ∧ L.length < n := by
  have hrun : ∀ M, Combinations (rows.map fun r => (a :: b :: es).map (ev · r)) M →
      countOf known ev (.distinct (a :: b :: es)) [] rows = some (.int M.length) := by
    intro M hM
    have := count_many _ M hM
    rw [List.map_map] at this
    exact this
  have hin : (a :: b :: es).map (ev · r) ∈ rows.map fun r => (a :: b :: es).map (ev · r) := List.mem_map.2 ⟨r, hr, rfl⟩
  have hno : Val.null ∈ (a :: b :: es).map (ev · r) := List.mem_map.2 ⟨e, he, hnull⟩
  revert hrun hin hno hL
  generalize (rows.map fun r => (a :: b :: es).map (ev · r)) = l
  generalize (a :: b :: es).map (ev · r) = row
  intro hL hrun hin hno
  -- the different combinations among those with a NULL
  have ex : ∀ l : List (List Val), ∃ M, Combinations l M := by
    intro l
    induction l with
    | nil => exact ⟨[], by simp [Combinations]⟩
    | cons v l ih =>
      obtain ⟨M, m1, m2, m3⟩ := ih
      by_cases hv : ∃ w ∈ M, sameRow v w
      · refine ⟨M, fun w hw => by simp [m1 w hw], m2, ?_⟩
        intro x hx
        rcases List.mem_cons.1 hx with rfl | hx
        · exact hv
        · exact m3 x hx
      · refine ⟨v :: M, ?_, List.pairwise_cons.2 ⟨fun w hw hs => hv ⟨w, hw, hs⟩, m2⟩, ?_⟩
        · intro w hw
          rcases List.mem_cons.1 hw with rfl | hw
          · simp
          · simp [m1 w hw]
        · intro x hx
          rcases List.mem_cons.1 hx with rfl | hx
          · exact ⟨x, by simp, (sameRow_key _ _).2 rfl⟩
          · obtain ⟨w, hw, hs⟩ := m3 x hx
            exact ⟨w, by simp [hw], hs⟩
  obtain ⟨N, n1, n2, n3⟩ := ex (l.filter fun r => !(r.all (· ≠ .null)))
  obtain ⟨a1, a2, a3⟩ := hL
  have nullKey : ∀ x y : List Val, sameRow x y → x.all (· ≠ .null) = true → y.all (· ≠ .null) = true := by
    intro x
    induction x with
    | nil => intro y h _; cases y <;> simp_all [sameRow]
    | cons v x ih =>
      intro y h hx
      cases y with
      | nil => simp [sameRow] at h
      | cons w y =>
        obtain ⟨h1, h2⟩ := h
        simp only [List.all_cons, Bool.and_eq_true, decide_eq_true_eq] at hx ⊢
        refine ⟨?_, ih y h2 hx.2⟩
        rintro rfl
        rw [same_key] at h1
        apply hx.1
        cases v <;> simp_all [keyOf, numeric]
  have hM : Combinations l (L ++ N) := by
    refine ⟨?_, ?_, ?_⟩
    · intro w hw
      rcases List.mem_append.1 hw with h | h
      · exact (List.mem_filter.1 (a1 w h)).1
      · exact (List.mem_filter.1 (n1 w h)).1
    · rw [List.pairwise_append]
      refine ⟨a2, n2, fun x hx y hy hs => ?_⟩
      have h1 := (List.mem_filter.1 (a1 x hx)).2
      have h2 := (List.mem_filter.1 (n1 y hy)).2
      have h3 := nullKey x y hs h1
      rw [h3] at h2
      simp at h2
    · intro v hv
      by_cases hf : v.all (· ≠ .null) = true
      · obtain ⟨w, hw, hs⟩ := a3 v (List.mem_filter.2 ⟨hv, hf⟩)
        exact ⟨w, by simp [hw], hs⟩
      · obtain ⟨w, hw, hs⟩ := n3 v (List.mem_filter.2 ⟨hv, by simpa using hf⟩)
        exact ⟨w, by simp [hw], hs⟩
  refine ⟨_, hrun _ hM, ?_⟩
  have hne : N ≠ [] := by
    rintro rfl
    obtain ⟨w, hw, _⟩ := n3 row (List.mem_filter.2 ⟨hin, by
      simp only [Bool.not_eq_true', ← Bool.not_eq_true, List.all_eq_true]
      intro h
      have := h .null hno
      simp at this⟩)
    simp at hw
  have : 0 < N.length := List.length_pos_iff.2 hne
  rw [List.length_append]
  omega

/-- **C160** The parts of a group, counted apart, are put together to the count of the whole. -/
theorem C160_parts (l1 l2 : List Arg) : Splits AggCall.distinctCount l1 l2 ∧ Splits AggCall.count l1 l2 := by
  constructor
  · have swap : ∀ (a s : List Arg) (v : Arg), (addArg s v).foldl addArg a = addArg (s.foldl addArg a) v := by
      intro a s v
      by_cases h : s.any (fun w => decide (argKey w = argKey v)) = true
      · have e : addArg s v = s := by unfold addArg; rw [if_pos h]
        rw [e]
        have hk : ∀ (s a : List Arg), argKey v ∈ a.map argKey ∨ argKey v ∈ s.map argKey →
            argKey v ∈ (s.foldl addArg a).map argKey := by
          intro s
          induction s with
          | nil => intro a h; simpa using h
          | cons x s ih =>
            intro a h
            apply ih
            rw [addArg_keys]
            rcases h with h | h
            · left; split
              · exact h
              · exact List.mem_append_left _ h
            · rw [List.map_cons, List.mem_cons] at h
              rcases h with h | h
              · left; rw [h]; split
                · assumption
                · simp
              · exact Or.inr h
        have hm : argKey v ∈ (s.foldl addArg a).map argKey := by
          apply hk; right
          simp only [List.any_eq_true, decide_eq_true_eq] at h
          exact List.mem_map.mpr h
        generalize s.foldl addArg a = t at hm
        unfold addArg
        rw [if_pos]
        simp only [List.any_eq_true, decide_eq_true_eq]
        exact List.mem_map.mp hm
      · have e : addArg s v = s ++ [v] := by unfold addArg; rw [if_neg h]
        rw [e, List.foldl_append]; rfl
    have key : ∀ (l s a : List Arg), (l.foldl addArg s).foldl addArg a = l.foldl addArg (s.foldl addArg a) := by
      intro l
      induction l with
      | nil => intro s a; rfl
      | cons v l ih => intro s a; simp only [List.foldl_cons]; rw [ih, swap]
    have run : ∀ (l : List Arg) (s : Option (List Arg)), AggCall.distinctCount.run s l =
        some (if l.filter (· ≠ .one .null) = [] then s else some ((l.filter (· ≠ .one .null)).foldl addArg (s.getD []))) := by
      intro l
      induction l with
      | nil => intro s; rfl
      | cons v l ih =>
        intro s
        by_cases hv : v = .one .null
        · subst hv
          have e : (Arg.one .null :: l).filter (· ≠ .one .null) = l.filter (· ≠ .one .null) := by simp
          rw [e, ← ih s]; rfl
        · have e : (v :: l).filter (· ≠ .one .null) = v :: l.filter (· ≠ .one .null) := by simp [hv]
          have hs : AggCall.distinctCount.step s v = some (some (addArg (s.getD []) v)) := by
            cases s <;> rcases v with (_ | _ | _ | _ | _) | _ <;> first | rfl | exact absurd rfl hv
          simp only [Calc.run, hs, ih, e]
          generalize l.filter (· ≠ .one .null) = m
          by_cases h : m = [] <;> simp [h]
    refine ⟨_, _, _, run l1 none, run l2 none, run (l1 ++ l2) none, ?_⟩
    rw [List.filter_append]
    generalize l1.filter (· ≠ .one .null) = m1
    generalize l2.filter (· ≠ .one .null) = m2
    by_cases h1 : m1 = [] <;> by_cases h2 : m2 = [] <;> simp [h1, h2, AggCall.distinctCount, reduceWith, key]
  · have run : ∀ (l : List Arg) (s : Option Int), AggCall.count.run s l =
        some (if l = [] then s else some (s.getD 0 + ((l.filter (· ≠ .one .null)).length : Int))) := by
      intro l
      induction l with
      | nil => intro s; rfl
      | cons v l ih =>
        intro s
        by_cases hv : v = .one .null
        · subst hv
          have hs : AggCall.count.step s (.one .null) = some (some (s.getD 0)) := by cases s <;> rfl
          simp only [Calc.run, hs, ih]
          by_cases h : l = [] <;> simp [h]
        · have hs : AggCall.count.step s v = some (some (s.getD 0 + 1)) := by
            cases s <;> rcases v with (_ | _ | _ | _ | _) | _ <;> first | rfl | exact absurd rfl hv
          simp only [Calc.run, hs, ih]
          by_cases h : l = []
          · simp [h, hv]
          · simp [h, hv]; omega
    refine ⟨_, _, _, run l1 none, run l2 none, run (l1 ++ l2) none, ?_⟩
    by_cases h1 : l1 = [] <;> by_cases h2 : l2 = [] <;> simp [h1, h2, AggCall.count, reduceWith]

/-- **C160** COUNT and COUNT(DISTINCT …) of a grouped query do not depend on how the rows are divided into batches and when the
groups are reduced. -/
theorem C160_batches {κ : Type} [DecidableEq κ] (batch : Nat) (evs : List (List (κ × Arg) × Bool)) :
    Reduce.query (Reduce.Calc.total AggCall.distinctCount) batch evs = grouped AggCall.distinctCount (evs.flatMap (·.1)) ∧
    Reduce.query (Reduce.Calc.total AggCall.count) batch evs = grouped AggCall.count (evs.flatMap (·.1)) :=
  ⟨query_total _ (fun _ => True) (fun l1 l2 _ _ => (C160_parts l1 l2).1) batch evs (by simp),
   query_total _ (fun _ => True) (fun l1 l2 _ _ => (C160_parts l1 l2).2) batch evs (by simp)⟩

/-- (1, 1), (1, 1), (1, 2), (NULL, 2): two combinations in SQL, three here. -/
example : countOf (fun _ => false) (fun (e : Bool) (r : Val × Val) => if e then r.1 else r.2) (.distinct [true, false]) []
    [(.int 1, .int 1), (.flt 1, .int 1), (.int 1, .int 2)] = some (.int 2) ∧
  countOf (fun _ => false) (fun (e : Bool) (r : Val × Val) => if e then r.1 else r.2) (.distinct [true, false]) []
    [(.int 1, .int 1), (.flt 1, .int 1), (.int 1, .int 2), (.null, .int 2)] = some (.int 3) := by decide +kernel

/-! ## C161 -/

/-- **C161** A call of a function that is no aggregate of the library is one exactly when its name, in small letters, is that of a
registered aggregate or one of the second spellings; it gets the calculater of that name over its arguments. -/
theorem C161_named {ε : Type} (known : Str → Bool) (hk : ∀ p ∈ aliases, known p.2 = true) (name : Str) (args : List ε) :
    (isAggregate known name = true ↔ (known (lower name) = true ∨ ∃ p ∈ aliases, lower name = p.1)) ∧
    (isAggregate known name = true → ∃ c, compile known (.named name false args) = some (c, valueOf args) ∧ known c = true ∧
      ((∃ p ∈ aliases, lower name = p.1 ∧ c = p.2) ∨ (c = lower name ∧ ∀ p ∈ aliases, lower name ≠ p.1))) := by
  have hiff : isAggregate known name = true ↔ (known (lower name) = true ∨ ∃ p ∈ aliases, lower name = p.1) := by
    simp only [isAggregate, Bool.or_eq_true, List.any_eq_true, decide_eq_true_eq]
    constructor
    · rintro (⟨p, hp, h | h⟩ | h)
      · exact .inr ⟨p, hp, h.symm⟩
      · exact .inl (by rw [← h]; exact hk p hp)
      · exact .inl h
    · rintro (h | ⟨p, hp, h⟩)
      · exact .inr h
      · exact .inl ⟨p, hp, .inl h.symm⟩
  refine ⟨hiff, fun h => ?_⟩
  rw [hiff] at h
  cases hf : aliases.find? (·.1 = lower name) with
  | some p =>
    have hp := List.mem_of_find?_eq_some hf
    have he := List.find?_some hf
    simp only [decide_eq_true_eq] at he
    exact ⟨p.2, by simp [compile, calcName, hf, hk p hp], hk p hp, .inl ⟨p, hp, he.symm, rfl⟩⟩
  | none =>
    have hne : ∀ p ∈ aliases, lower name ≠ p.1 := fun p hp e => List.find?_eq_none.1 hf p hp (by simp [e])
    have hkn : known (lower name) = true := by
      rcases h with h | ⟨p, hp, e⟩
      · exact h
      · exact absurd e (hne p hp)
    exact ⟨lower name, by simp [compile, calcName, hf, hkn], hkn, .inr ⟨rfl, hne⟩⟩

/-- **C161** DISTINCT is refused in every aggregate but COUNT; so is a name that is no aggregate, and `*` anywhere but in COUNT. -/
theorem C161_refused {ε : Type} (known : Str → Bool) :
    (∀ k (es more : List ε), compile known (.typed k (.distinct es) more) = none ↔ k ≠ .count) ∧
    (∀ name (args : List ε), compile known (.named name true args) = none) ∧
    (∀ name (args : List ε), known (calcName name) = false → compile known (.named name false args) = none) ∧
    (∀ k (more : List ε), compile known (.typed k .star more) = none ↔ k ≠ .count) := by
  refine ⟨fun k es more => ?_, fun _ _ => rfl, fun name args h => ?_, fun k more => ?_⟩
  · cases k <;> simp [compile]
  · simp [compile, h]
  · cases k <;> simp [compile]

/-- **C161** The aggregates known by a class get a calculater of their own, no two the same, over the value of their argument. -/
theorem C161_typed {ε : Type} (known : Str → Bool) :
    (∀ k (e : ε), compile known (.typed k (.one e) []) = some (kindName k, .one e)) ∧
    (∀ k k', kindName k = kindName k' → k = k') ∧ ∀ k, kindName k ≠ "aggregate_distinct_count".toList := by
  refine ⟨fun _ _ => rfl, fun k k' h => ?_, fun k => ?_⟩
  · cases k <;> cases k' <;> first | rfl | (exact absurd h (by decide +kernel))
  · cases k <;> decide +kernel

/-- **C161** What a row gives the calculater of a call: NULL without arguments, the argument's value, or the list of the arguments'
values. -/
theorem C161_given {ε ρ : Type} (ev : ε → ρ → Val) (r : ρ) (e e' : ε) (es : List ε) :
    (valueOf ([] : List ε)).eval ev r = .one .null ∧ (valueOf [e]).eval ev r = .one (ev e r) ∧
    (valueOf (e :: e' :: es)).eval ev r = .many (ev e r :: ev e' r :: es.map (ev · r)) := ⟨rfl, rfl, rfl⟩

/-- **C161 is violated for every call with a second argument**: it is ignored. COUNT(a, b) is COUNT(a), the separator of
GROUP_CONCAT(a, ';') is lost. -/
theorem C161_arguments_violated {ε : Type} (known : Str → Bool) (k : Kind) (this : This ε) (more : List ε) :
    compile known (.typed k this more) = compile known (.typed k this []) := by
  cases this <;> rfl

/-- `groupArray(x)`: registered under `group_array`. -/
example : compile (fun n => n ∈ aliases.map (·.2)) (.named "groupArray".toList false [1]) = some ("group_array".toList, .one 1) := by
  have h : calcName "groupArray".toList = "group_array".toList := by decide +kernel
  simp only [compile, h]
  rfl

end Verif.Props
