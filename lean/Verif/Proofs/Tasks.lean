import Verif.Spec.Tasks
/-! Proofs about the events of a query. -/
namespace Verif.Tasks

open Verif.TempMem

variable {ν R : Type} [DecidableEq ν]

/-- Failures come last, and only in a failed run. -/
def Shape (ok : Bool) (L : List (Ev ν R)) : Prop :=
  if ok then ∀ e ∈ L, e.isRaise = false
  else ∃ a b, L = a ++ b ∧ b ≠ [] ∧ (∀ e ∈ a, e.isRaise = false) ∧ ∀ e ∈ b, e.isRaise = true

/-- An act of a query comes after the end of its subqueries. -/
def OrderOk (ps : List (Task ν R)) (L : List (Ev ν R)) : Prop :=
  ∀ p ∈ ps, ∀ d ∈ p.deps, ∀ pre e post, L = pre ++ e :: post → e.isRaise = false → e.tid ∈ p.own.map Core.tid →
    (∀ c ∈ cores d, Ev.stop c.tid ∈ pre) ∧ ∀ e' ∈ post, e'.tid ∉ tids d

/-- The numbers of some queries' own tasks. -/
def idsOf (ps : List (Task ν R)) : List Nat := (ps.flatMap Task.own).map Core.tid

/-- What holds of the events of some queries. -/
structure Good (ps : List (Task ν R)) (ok : Bool) (L : List (Ev ν R)) : Prop where
  ids : ∀ e ∈ L, e.tid ∈ idsOf ps
  shape : Shape ok L
  stops : ok = true → ∀ p ∈ ps, ∀ c ∈ p.own, Ev.stop c.tid ∈ L
  order : OrderOk ps L

/-- Subqueries are included. -/
def Closed (ps : List (Task ν R)) : Prop := ∀ p ∈ ps, ∀ d ∈ p.deps, ∀ x ∈ subtasks d, x ∈ ps

theorem mem_idsOf {ps : List (Task ν R)} {p : Task ν R} {c : Core ν R} (hp : p ∈ ps) (hc : c ∈ p.own) : c.tid ∈ idsOf ps :=
  List.mem_map.mpr ⟨c, List.mem_flatMap.mpr ⟨p, hp, hc⟩, rfl⟩

theorem own_idsOf {ps : List (Task ν R)} {p : Task ν R} (hp : p ∈ ps) {i : Nat} (h : i ∈ p.own.map Core.tid) : i ∈ idsOf ps := by
  obtain ⟨c, hc, rfl⟩ := List.mem_map.mp h
  exact mem_idsOf hp hc

theorem tids_idsOf {ps : List (Task ν R)} (hc : Closed ps) {p d : Task ν R} (hp : p ∈ ps) (hd : d ∈ p.deps) {i : Nat}
    (h : i ∈ tids d) : i ∈ idsOf ps := by
  obtain ⟨c, hcc, rfl⟩ := List.mem_map.mp h
  obtain ⟨x, hx, hx'⟩ := List.mem_flatMap.mp hcc
  exact mem_idsOf (hc p hp d hd x hx) hx'

theorem idsOf_append (ps qs : List (Task ν R)) : idsOf (ps ++ qs) = idsOf ps ++ idsOf qs := by
  simp [idsOf]

theorem append_split {α : Type _} {A B pre post : List α} {e : α} (h : A ++ B = pre ++ e :: post) :
    (∃ post', A = pre ++ e :: post' ∧ post = post' ++ B) ∨ ∃ pre', pre = A ++ pre' ∧ B = pre' ++ e :: post := by
  rcases List.append_eq_append_iff.mp h with ⟨x, h1, h2⟩ | ⟨x, h1, h2⟩
  · exact Or.inr ⟨x, h1, h2⟩
  · cases x with
    | nil =>
      refine Or.inr ⟨[], by simpa using h1.symm, by simpa using h2.symm⟩
    | cons y ys =>
      rw [List.cons_append, List.cons.injEq] at h2
      obtain ⟨rfl, h3⟩ := h2
      exact Or.inl ⟨ys, h1, h3⟩

theorem Good.append {ps qs : List (Task ν R)} {ok : Bool} {L M : List (Ev ν R)} (hl : Good ps true L) (hm : Good qs ok M)
    (cp : Closed ps) (cq : Closed qs) (hd : ∀ i ∈ idsOf ps, i ∉ idsOf qs) : Good (ps ++ qs) ok (L ++ M) := by
  refine ⟨?_, ?_, ?_, ?_⟩
  · intro e he
    rw [idsOf_append]
    rcases List.mem_append.mp he with h | h
    · exact List.mem_append_left _ (hl.ids e h)
    · exact List.mem_append_right _ (hm.ids e h)
  · have h1 := hl.shape
    have h2 := hm.shape
    cases ok with
    | true =>
      simp only [Shape, if_true] at *
      intro e he
      rcases List.mem_append.mp he with h | h
      · exact h1 e h
      · exact h2 e h
    | false =>
      simp only [Shape, if_true, Bool.false_eq_true, if_false] at *
      obtain ⟨a, b, rfl, hb, ha, hb'⟩ := h2
      refine ⟨L ++ a, b, by simp, hb, ?_, hb'⟩
      intro e he
      rcases List.mem_append.mp he with h | h
      · exact h1 e h
      · exact ha e h
  · intro h p hp c hc
    rcases List.mem_append.mp hp with h' | h'
    · exact List.mem_append_left _ (hl.stops rfl p h' c hc)
    · exact List.mem_append_right _ (hm.stops h p h' c hc)
  · intro p hp d hdd pre e post he hr ht
    rcases List.mem_append.mp hp with h' | h'
    · rcases append_split he with ⟨post', hA, rfl⟩ | ⟨pre', rfl, hB⟩
      · obtain ⟨g1, g2⟩ := hl.order p h' d hdd pre e post' hA hr ht
        refine ⟨g1, ?_⟩
        intro e' he'
        rcases List.mem_append.mp he' with h | h
        · exact g2 e' h
        · intro hc
          exact hd _ (tids_idsOf cp h' hdd hc) (hm.ids e' h)
      · exact absurd (hm.ids e (by rw [hB]; simp)) (hd _ (own_idsOf h' ht))
    · rcases append_split he with ⟨post', hA, rfl⟩ | ⟨pre', rfl, hB⟩
      · exact absurd (own_idsOf h' ht) (hd _ (hl.ids e (by rw [hA]; simp)))
      · obtain ⟨g1, g2⟩ := hm.order p h' d hdd pre' e post hB hr ht
        exact ⟨fun c hc => List.mem_append_right _ (g1 c hc), g2⟩

theorem Good.fail {ps qs : List (Task ν R)} {L : List (Ev ν R)} (hl : Good ps false L)
    (hd : ∀ i ∈ idsOf ps, i ∉ idsOf qs) : Good (ps ++ qs) false L := by
  refine ⟨?_, hl.shape, (by intro h; cases h), ?_⟩
  · intro e he
    rw [idsOf_append]
    exact List.mem_append_left _ (hl.ids e he)
  · intro p hp d hdd pre e post he hr ht
    rcases List.mem_append.mp hp with h' | h'
    · exact hl.order p h' d hdd pre e post he hr ht
    · exact absurd (own_idsOf h' ht) (hd _ (hl.ids e (by rw [he]; simp)))

/-- One task's own events. -/
theorem runProg_log (temp : ν → Bool) (t : Nat) (p : Prog ν R) : ∀ s, ∃ L, (runProg temp t p s).1.log = s.log ++ L ∧
    (∀ e ∈ L, e.tid = t) ∧ Shape (runProg temp t p s).2 L ∧ ((runProg temp t p s).2 = true → Ev.stop t ∈ L) := by
  have step : ∀ (e : Ev ν R) (s s' : St ν R) (k : Prog ν R), e.tid = t → e.isRaise = false → s'.log = s.log ++ [e] →
      (∃ L, (runProg temp t k s').1.log = s'.log ++ L ∧
        (∀ e ∈ L, e.tid = t) ∧ Shape (runProg temp t k s').2 L ∧ ((runProg temp t k s').2 = true → Ev.stop t ∈ L)) →
      (∃ L, (runProg temp t k s').1.log = s.log ++ L ∧
        (∀ e ∈ L, e.tid = t) ∧ Shape (runProg temp t k s').2 L ∧ ((runProg temp t k s').2 = true → Ev.stop t ∈ L)) := by
    rintro e s s' k h1 h2 h3 ⟨L, a, b, c, d⟩
    refine ⟨e :: L, by rw [a, h3]; simp, ?_, ?_, fun h => List.mem_cons_of_mem _ (d h)⟩
    · intro e' he'
      rcases List.mem_cons.mp he' with rfl | h
      · exact h1
      · exact b e' h
    · cases hok : (runProg temp t k s').2 with
      | true =>
        rw [hok] at c
        simp only [Shape, if_true] at *
        intro e' he'
        rcases List.mem_cons.mp he' with rfl | h
        · exact h2
        · exact c e' h
      | false =>
        rw [hok] at c
        simp only [Shape, Bool.false_eq_true, if_false] at *
        obtain ⟨x, y, rfl, hy, hx, hy'⟩ := c
        refine ⟨e :: x, y, by simp, hy, ?_, hy'⟩
        intro e' he'
        rcases List.mem_cons.mp he' with rfl | h
        · exact h2
        · exact hx e' h
  induction p with
  | done => intro s; exact ⟨[.stop t], rfl, by simp [Ev.tid], by simp [runProg, Shape, Ev.isRaise], by simp⟩
  | raise =>
    intro s
    exact ⟨[.raise t], rfl, by simp [Ev.tid], by
      simp only [runProg, Shape, Bool.false_eq_true, if_false]
      exact ⟨[], [.raise t], rfl, by simp, by simp, by simp [Ev.isRaise]⟩, by simp [runProg]⟩
  | pause k ih => intro s; exact ih s
  | read n k ih => intro s; rw [runProg]; exact step (.read t n (s.store n)) s (s.emit (.read t n (s.store n))) (k (s.store n)) rfl rfl rfl (ih (s.store n) _)
  | write n rows k ih => intro s; rw [runProg]; exact step (.write t n rows) s ({ s with store := setStore s.store n (s.store n ++ rows) }.emit (.write t n rows)) k rfl rfl rfl (ih _)
  | delete n k ih => intro s; rw [runProg]; exact step (.delete t n) s ({ s with store := setStore s.store n [] }.emit (.delete t n)) k rfl rfl rfl (ih _)
  | reduce n k ih => intro s; exact ih _

theorem checkFree_log (temp : ν → Bool) (c : Core ν R) (s : St ν R) : (checkFree temp c s).log = s.log := by
  unfold checkFree
  split
  · rfl
  · split
    · rfl
    · split
      · rfl
      · dsimp only
        split <;> rfl

/-- A query with its final reduce. -/
def runFull (temp : ν → Bool) (t : Task ν R) (s : St ν R) : St ν R × Bool :=
  match runTask temp t s with
  | (s, true) => runFinal temp t.final s
  | (s, false) => (s, false)

theorem runDeps_cons (temp : ν → Bool) (d : Task ν R) (ds : List (Task ν R)) (s : St ν R) :
    runDeps temp (d :: ds) s = match runFull temp d s with
      | (s, false) => (s, false)
      | (s, true) => runDeps temp ds s := by
  obtain ⟨c, f, dd⟩ := d
  rw [runDeps, runFull]
  rcases runTask temp (.mk c f dd) s with ⟨s1, _ | _⟩ <;> rfl

theorem runTop_eq (temp : ν → Bool) (t : Task ν R) (s : St ν R) :
    runTop temp t s = (clear (runFull temp t s).1, (runFull temp t s).2) := rfl

mutual
theorem subtasks_closed : ∀ (t : Task ν R), ∀ p ∈ subtasks t, ∀ x ∈ subtasks p, x ∈ subtasks t
  | .mk c f ds => by
    intro p hp x hx
    rw [subtasks] at hp
    rcases List.mem_cons.mp hp with rfl | h
    · exact hx
    · rw [subtasks]
      exact List.mem_cons_of_mem _ (subtasksL_closed ds p h x hx)
theorem subtasksL_closed : ∀ (ds : List (Task ν R)), ∀ p ∈ subtasksL ds, ∀ x ∈ subtasks p, x ∈ subtasksL ds
  | [] => by intro p hp; simp [subtasksL] at hp
  | d :: ds => by
    intro p hp x hx
    rw [subtasksL] at hp ⊢
    rcases List.mem_append.mp hp with h | h
    · exact List.mem_append_left _ (subtasks_closed d p h x hx)
    · exact List.mem_append_right _ (subtasksL_closed ds p h x hx)
end

theorem mem_subtasks_self (t : Task ν R) : t ∈ subtasks t := by
  cases t; rw [subtasks]; exact List.mem_cons_self

theorem deps_mem_subtasksL {ds : List (Task ν R)} {d : Task ν R} (h : d ∈ ds) : ∀ x ∈ subtasks d, x ∈ subtasksL ds := by
  induction ds with
  | nil => cases h
  | cons a ds ih =>
    intro x hx
    rw [subtasksL]
    rcases List.mem_cons.mp h with rfl | h
    · exact List.mem_append_left _ hx
    · exact List.mem_append_right _ (ih h x hx)

theorem closed_subtasks (t : Task ν R) : Closed (subtasks t) := by
  intro p hp d hd x hx
  apply subtasks_closed t p hp x
  obtain ⟨c, f, ds⟩ := p
  rw [subtasks]
  exact List.mem_cons_of_mem _ (deps_mem_subtasksL hd x hx)

theorem closed_subtasksL (ds : List (Task ν R)) : Closed (subtasksL ds) := by
  intro p hp d hd x hx
  apply subtasksL_closed ds p hp x
  obtain ⟨c, f, ds'⟩ := p
  rw [subtasks]
  exact List.mem_cons_of_mem _ (deps_mem_subtasksL hd x hx)

theorem runCore_log (temp : ν → Bool) (c : Core ν R) (s : St ν R) : ∃ L, (runCore temp c s).1.log = s.log ++ L ∧
    (∀ e ∈ L, e.tid = c.tid) ∧ Shape (runCore temp c s).2 L ∧ ((runCore temp c s).2 = true → Ev.stop c.tid ∈ L) := by
  obtain ⟨L, h⟩ := runProg_log temp c.tid c.prog s
  exact ⟨L, by simpa only [runCore, checkFree_log] using h⟩

theorem runFinal_log (temp : ν → Bool) (f : Option (Core ν R)) (s : St ν R) : ∃ L, (runFinal temp f s).1.log = s.log ++ L ∧
    (∀ e ∈ L, e.tid ∈ f.toList.map Core.tid) ∧ Shape (runFinal temp f s).2 L ∧
    ((runFinal temp f s).2 = true → ∀ c ∈ f, Ev.stop c.tid ∈ L) := by
  cases f with
  | none => exact ⟨[], by simp [runFinal], by simp, by simp [runFinal, Shape], by simp⟩
  | some c =>
    obtain ⟨L, h1, h2, h3, h4⟩ := runCore_log temp c { s with mgr := compileCore temp c.loader c.outputer s.mgr }
    exact ⟨L, h1, by simpa using h2, h3, by simpa [runFinal] using h4⟩

theorem Shape.append {ok : Bool} {L M : List (Ev ν R)} (h : Shape true L) (h' : Shape ok M) : Shape ok (L ++ M) := by
  cases ok with
  | true =>
    simp only [Shape, if_true] at *
    intro e he
    rcases List.mem_append.mp he with g | g
    · exact h e g
    · exact h' e g
  | false =>
    simp only [Shape, if_true, Bool.false_eq_true, if_false] at *
    obtain ⟨a, b, rfl, hb, ha, hb'⟩ := h'
    refine ⟨L ++ a, b, by simp, hb, ?_, hb'⟩
    intro e he
    rcases List.mem_append.mp he with g | g
    · exact h e g
    · exact ha e g

/-- The events of a query itself, after those of its subqueries. -/
theorem Good.parent {c : Core ν R} {f : Option (Core ν R)} {ds : List (Task ν R)} {ok : Bool} {L M : List (Ev ν R)}
    (hl : Good (subtasksL ds) true L) (hi : ∀ e ∈ M, e.tid ∈ (Task.mk c f ds).own.map Core.tid) (hs : Shape ok M)
    (hst : ok = true → ∀ x ∈ (Task.mk c f ds).own, Ev.stop x.tid ∈ M)
    (hn : ∀ i ∈ (Task.mk c f ds).own.map Core.tid, i ∉ idsOf (subtasksL ds)) :
    Good (subtasks (.mk c f ds)) ok (L ++ M) := by
  have hsub : subtasks (.mk c f ds) = .mk c f ds :: subtasksL ds := by rw [subtasks]
  have hids : idsOf (subtasks (.mk c f ds)) = (Task.mk c f ds).own.map Core.tid ++ idsOf (subtasksL ds) := by
    rw [hsub]; simp [idsOf]
  refine ⟨?_, hl.shape.append hs, ?_, ?_⟩
  · intro e he
    rw [hids]
    rcases List.mem_append.mp he with h | h
    · exact List.mem_append_right _ (hl.ids e h)
    · exact List.mem_append_left _ (hi e h)
  · intro h p hp x hx
    rw [hsub] at hp
    rcases List.mem_cons.mp hp with rfl | h'
    · exact List.mem_append_right _ (hst h x hx)
    · exact List.mem_append_left _ (hl.stops rfl p h' x hx)
  · intro p hp d hdd pre e post he hr ht
    rw [hsub] at hp
    rcases List.mem_cons.mp hp with rfl | h'
    · rcases append_split he with ⟨post', hA, rfl⟩ | ⟨pre', rfl, hB⟩
      · exact absurd (hl.ids e (by rw [hA]; simp)) (hn _ ht)
      · refine ⟨?_, ?_⟩
        · intro x hx
          obtain ⟨y, hy, hy'⟩ := List.mem_flatMap.mp hx
          exact List.mem_append_left _ (hl.stops rfl y (deps_mem_subtasksL hdd y hy) x hy')
        · intro e' he' hc
          apply hn e'.tid (hi e' (by rw [hB]; simp [he']))
          obtain ⟨y, hy, hy'⟩ := List.mem_map.mp hc
          obtain ⟨z, hz, hz'⟩ := List.mem_flatMap.mp hy
          rw [← hy']
          exact mem_idsOf (deps_mem_subtasksL hdd z hz) hz'
    · rcases append_split he with ⟨post', hA, rfl⟩ | ⟨pre', rfl, hB⟩
      · obtain ⟨g1, g2⟩ := hl.order p h' d hdd pre e post' hA hr ht
        refine ⟨g1, ?_⟩
        intro e' he'
        rcases List.mem_append.mp he' with h | h
        · exact g2 e' h
        · intro hc
          exact hn _ (hi e' h) (tids_idsOf (closed_subtasksL ds) h' hdd hc)
      · exact absurd (own_idsOf h' ht) (hn _ (hi e (by rw [hB]; simp)))

theorem idsOf_subtasks (c : Core ν R) (f : Option (Core ν R)) (ds : List (Task ν R)) :
    idsOf (subtasks (.mk c f ds)) = (Task.mk c f ds).own.map Core.tid ++ idsOf (subtasksL ds) := by
  rw [subtasks]; simp [idsOf]

theorem idsOf_subtasksL (d : Task ν R) (ds : List (Task ν R)) :
    idsOf (subtasksL (d :: ds)) = idsOf (subtasks d) ++ idsOf (subtasksL ds) := by
  rw [subtasksL, idsOf_append]

mutual
theorem full_good (temp : ν → Bool) : ∀ (t : Task ν R), (idsOf (subtasks t)).Nodup → ∀ s, ∃ L,
    (runFull temp t s).1.log = s.log ++ L ∧ Good (subtasks t) (runFull temp t s).2 L
  | .mk c f ds => by
    intro hn s
    rw [idsOf_subtasks, List.nodup_append] at hn
    obtain ⟨hn1, hn2, hn3⟩ := hn
    have hdj : ∀ i ∈ (Task.mk c f ds).own.map Core.tid, i ∉ idsOf (subtasksL ds) := fun i h h' => hn3 i h i h' rfl
    obtain ⟨L, hL, gL⟩ := deps_good temp ds hn2 s
    rw [runFull, runTask]
    generalize hr : runDeps temp ds s = r at hL gL
    obtain ⟨s1, ok⟩ := r
    cases ok with
    | false =>
      refine ⟨L ++ [.raise c.tid], ?_, ?_⟩
      · simp only [checkFree_log, St.emit]
        simp only at hL
        rw [hL, List.append_assoc]
      · have hg := gL.fail (qs := [.mk c f ds]) (by
          intro i hi h
          exact hdj i (by simpa [idsOf] using h) hi)
        refine ⟨?_, ?_, (by intro h; cases h), ?_⟩
        · intro e he
          rw [idsOf_subtasks]
          rcases List.mem_append.mp he with h | h
          · exact List.mem_append_right _ (gL.ids e h)
          · refine List.mem_append_left _ ?_
            rw [List.mem_singleton.mp h]
            simp [Ev.tid, Task.own, Task.core]
        · have h := gL.shape
          simp only [Shape, Bool.false_eq_true, if_false] at h ⊢
          obtain ⟨a, b, rfl, hb, ha, hb'⟩ := h
          refine ⟨a, b ++ [.raise c.tid], by simp, by simp, ha, ?_⟩
          intro e he
          rcases List.mem_append.mp he with h | h
          · exact hb' e h
          · rw [List.mem_singleton.mp h]; rfl
        · intro p hp d hdd pre e post he hr' ht
          rcases append_split he with ⟨post', hA, rfl⟩ | ⟨pre', rfl, hB⟩
          · have hp' : p ∈ subtasksL ds ++ [Task.mk c f ds] := by
              rw [subtasks] at hp
              rcases List.mem_cons.mp hp with h | h
              · exact List.mem_append_right _ (by simp [h])
              · exact List.mem_append_left _ h
            have hps : p ∈ subtasksL ds := by
              rcases List.mem_append.mp hp' with h | h
              · exact h
              · rw [List.mem_singleton.mp h] at ht
                exact absurd (gL.ids e (by rw [hA]; simp)) (hdj _ ht)
            obtain ⟨g1, g2⟩ := hg.order p hp' d hdd pre e post' hA hr' ht
            refine ⟨g1, ?_⟩
            intro e' he'
            rcases List.mem_append.mp he' with h | h
            · exact g2 e' h
            · intro hc
              refine hdj e'.tid ?_ (tids_idsOf (closed_subtasksL ds) hps hdd hc)
              rw [List.mem_singleton.mp h]
              simp [Ev.tid, Task.own, Task.core]
          · cases pre' with
            | nil =>
              simp only [List.nil_append, List.cons.injEq] at hB
              rw [← hB.1] at hr'
              simp [Ev.isRaise] at hr'
            | cons x xs => simp at hB
    | true =>
      simp only at hL gL ⊢
      obtain ⟨M, m1, m2, m3, m4⟩ := runCore_log temp c s1
      generalize hr2 : runCore temp c s1 = r2 at m1 m3 m4
      obtain ⟨s2, ok2⟩ := r2
      cases ok2 with
      | false =>
        refine ⟨L ++ M, by simp only at m1 ⊢; rw [m1, hL, List.append_assoc], ?_⟩
        refine gL.parent ?_ m3 (by intro h; cases h) hdj
        intro e he
        rw [m2 e he]; simp [Task.own, Task.core]
      | true =>
        simp only at m1 m3 m4 ⊢
        obtain ⟨K, k1, k2, k3, k4⟩ := runFinal_log temp f s2
        refine ⟨L ++ (M ++ K), ?_, ?_⟩
        · show (runFinal temp f s2).1.log = _
          rw [k1, m1, hL]; simp
        · refine gL.parent ?_ (m3.append k3) ?_ hdj
          · intro e he
            rcases List.mem_append.mp he with h | h
            · rw [m2 e h]; simp [Task.own, Task.core]
            · have := k2 e h
              simp only [Task.own, Task.final, List.map_cons]
              exact List.mem_cons_of_mem _ this
          · intro h x hx
            simp only [Task.own, Task.core, Task.final] at hx
            rcases List.mem_cons.mp hx with rfl | h'
            · exact List.mem_append_left _ (m4 (by first | rfl | trivial))
            · exact List.mem_append_right _ (k4 h x (by simpa using h'))
theorem deps_good (temp : ν → Bool) : ∀ (ds : List (Task ν R)), (idsOf (subtasksL ds)).Nodup → ∀ s, ∃ L,
    (runDeps temp ds s).1.log = s.log ++ L ∧ Good (subtasksL ds) (runDeps temp ds s).2 L
  | [] => by
    intro _ s
    refine ⟨[], by simp [runDeps], ⟨by simp, by simp [runDeps, Shape], ?_, ?_⟩⟩
    · intro _ p hp; simp [subtasksL] at hp
    · intro p hp; simp [subtasksL] at hp
  | d :: ds => by
    intro hn s
    rw [idsOf_subtasksL, List.nodup_append] at hn
    obtain ⟨hn1, hn2, hn3⟩ := hn
    have hdj : ∀ i ∈ idsOf (subtasks d), i ∉ idsOf (subtasksL ds) := fun i h h' => hn3 i h i h' rfl
    obtain ⟨L, hL, gL⟩ := full_good temp d hn1 s
    rw [runDeps_cons, subtasksL]
    generalize runFull temp d s = r at hL gL
    obtain ⟨s1, ok⟩ := r
    cases ok with
    | false => exact ⟨L, hL, gL.fail hdj⟩
    | true =>
      simp only at hL gL ⊢
      obtain ⟨M, hM, gM⟩ := deps_good temp ds hn2 s1
      exact ⟨L ++ M, by rw [hM, hL, List.append_assoc], gL.append gM (closed_subtasks d) (closed_subtasksL ds) hdj⟩
end

theorem tids_eq (t : Task ν R) : tids t = idsOf (subtasks t) := rfl

/-- All that is known of the events of a statement. -/
theorem exec_good (temp : ν → Bool) (t : Task ν R) (hn : (tids t).Nodup) (store : ν → List R) :
    Good (subtasks t) (execQuery temp t store).2 (execQuery temp t store).1.log := by
  obtain ⟨L, hL, g⟩ := full_good temp t hn { store := store, mgr := start temp t fun _ => none, log := [] }
  rw [execQuery, runTop_eq]
  have : (clear (runFull temp t { store := store, mgr := start temp t fun _ => none, log := [] }).1).log = L := by
    rw [clear]; simpa using hL
  rw [this]
  exact g

end Verif.Tasks
