import Verif.Proofs.Tasks
/-! Proofs about what the collections hold while and after a query runs. -/
namespace Verif.Tasks

open Verif.TempMem

variable {ν R : Type} [DecidableEq ν]

theorem replay_append (A B : List (Ev ν R)) : ∀ (S : ν → List R), replay S (A ++ B) = replay (replay S A) B := by
  induction A with
  | nil => intro S; rfl
  | cons e A ih => intro S; cases e <;> exact ih _

/-- Collection `n` holds what the events say. -/
def Rep (S : ν → List R) (s : St ν R) (n : ν) : Prop := s.store n = replay S s.log n

structure Inv (temp : ν → Bool) (S : ν → List R) (s : St ν R) : Prop where
  tmp : ∀ n, (s.mgr n).isSome → temp n = true
  clean : ∀ n, temp n = true → S n = [] → s.store n ≠ [] → (s.mgr n).isSome
  reads : ∀ pre t n rows post, s.log = pre ++ Ev.read t n rows :: post → rows = replay S pre n
  user : ∀ n, temp n = false → Rep S s n

/-- What is kept from one state to a later one, for names outside `fr`. -/
structure Keep (S : ν → List R) (fr : List ν) (s s' : St ν R) : Prop where
  rep : ∀ n, n ∉ fr → Rep S s n → Rep S s' n
  reg : ∀ n, n ∉ fr → (s.mgr n).isSome → (s'.mgr n).isSome

theorem Keep.refl (S : ν → List R) (fr : List ν) (s : St ν R) : Keep S fr s s := ⟨fun _ _ h => h, fun _ _ h => h⟩

theorem Keep.trans {S : ν → List R} {a b c : List ν} {s s' s'' : St ν R} (h : Keep S a s s') (h' : Keep S b s' s'')
    (ha : ∀ n ∈ a, n ∈ c) (hb : ∀ n ∈ b, n ∈ c) : Keep S c s s'' :=
  ⟨fun n hn hr => h'.rep n (fun x => hn (hb n x)) (h.rep n (fun x => hn (ha n x)) hr),
   fun n hn hr => h'.reg n (fun x => hn (hb n x)) (h.reg n (fun x => hn (ha n x)) hr)⟩

theorem put_self (m : Mgr ν) (n : ν) (v : Option Int) : put m n v n = v := by simp [put]

theorem put_other (m : Mgr ν) {n k : ν} (v : Option Int) (h : k ≠ n) : put m n v k = m k := by simp [put, h]

theorem compileCore_reg (temp : ν → Bool) (l o : Option ν) (m : Mgr ν) (n : ν) (h : (m n).isSome) :
    (compileCore temp l o m n).isSome := by
  have add : ∀ (m : Mgr ν) k, (m n).isSome → (addCollection m k n).isSome := by
    intro m k hm
    unfold addCollection
    split
    · by_cases hk : n = k
      · subst hk; rw [put_self]; rfl
      · rw [put_other _ _ hk]; exact hm
    · exact hm
  have use : ∀ (m : Mgr ν) k, (m n).isSome → (useCollection m k n).isSome := by
    intro m k hm
    unfold useCollection
    by_cases hk : n = k
    · subst hk; rw [put_self]; rfl
    · rw [put_other _ _ hk]; exact hm
  unfold compileCore
  cases l with
  | none => cases o with
    | none => exact h
    | some b => dsimp only; split
                · exact add _ _ h
                · exact h
  | some a =>
    have h' : ((if temp a then useCollection m a else m) n).isSome := by
      split
      · exact use _ _ h
      · exact h
    cases o with
    | none => exact h'
    | some b => dsimp only; split
                · exact add _ _ h'
                · exact h'

theorem compileCore_tmp (temp : ν → Bool) (l o : Option ν) (m : Mgr ν) (hm : ∀ n, (m n).isSome → temp n = true) :
    ∀ n, (compileCore temp l o m n).isSome → temp n = true := by
  have add : ∀ (m : Mgr ν) k, temp k = true → (∀ n, (m n).isSome → temp n = true) → ∀ n, (addCollection m k n).isSome → temp n = true := by
    intro m k ht hm n hn
    unfold addCollection at hn
    split at hn
    · by_cases hk : n = k
      · rw [hk]; exact ht
      · rw [put_other _ _ hk] at hn; exact hm n hn
    · exact hm n hn
  have use : ∀ (m : Mgr ν) k, temp k = true → (∀ n, (m n).isSome → temp n = true) → ∀ n, (useCollection m k n).isSome → temp n = true := by
    intro m k ht hm n hn
    unfold useCollection at hn
    by_cases hk : n = k
    · rw [hk]; exact ht
    · rw [put_other _ _ hk] at hn; exact hm n hn
  unfold compileCore
  cases l with
  | none => cases o with
    | none => exact hm
    | some b => dsimp only; split
                · exact add _ _ ‹_› hm
                · exact hm
  | some a =>
    have h' : ∀ n, ((if temp a then useCollection m a else m) n).isSome → temp n = true := by
      split
      · exact use _ _ ‹_› hm
      · exact hm
    cases o with
    | none => exact h'
    | some b => dsimp only; split
                · exact add _ _ ‹_› h'
                · exact h'

theorem compileCore_out (temp : ν → Bool) (l : Option ν) (m : Mgr ν) (n : ν) (ht : temp n = true) :
    (compileCore temp l (some n) m n).isSome := by
  have add : ∀ m : Mgr ν, (addCollection m n n).isSome := by
    intro m
    unfold addCollection
    split
    · rw [put_self]; rfl
    · rename_i h
      cases hx : m n with
      | none => rw [hx] at h; simp at h
      | some v => rfl
  unfold compileCore
  dsimp only
  rw [if_pos ht]
  exact add _

/-- A new event that is not a read. -/
theorem Inv.emit {temp : ν → Bool} {S : ν → List R} {s : St ν R} (h : Inv temp S s) (e : Ev ν R)
    (he : ∀ t n rows, e = .read t n rows → rows = replay S s.log n)
    (hu : ∀ n, replay S (s.log ++ [e]) n = replay S s.log n) : Inv temp S (s.emit e) := by
  refine ⟨h.tmp, h.clean, ?_, ?_⟩
  · intro pre t n rows post hp
    simp only [St.emit] at hp
    rcases append_split hp with ⟨post', hA, _⟩ | ⟨pre', rfl, hB⟩
    · exact h.reads pre t n rows post' hA
    · cases pre' with
      | nil =>
        simp only [List.nil_append, List.cons.injEq] at hB
        simpa using he t n rows hB.1
      | cons x xs => simp at hB
  · intro n hn
    have := h.user n hn
    unfold Rep at *
    simp only [St.emit, hu]
    exact this

theorem Keep.emit (S : ν → List R) (s : St ν R) (e : Ev ν R) (hu : ∀ n, replay S (s.log ++ [e]) n = replay S s.log n) :
    Keep S [] s (s.emit e) := by
  refine ⟨fun n _ h => ?_, fun n _ h => h⟩
  unfold Rep at *
  simp only [St.emit, hu]
  exact h

/-- A change of one collection and the event of it. -/
theorem Inv.change {temp : ν → Bool} {S : ν → List R} {s : St ν R} (h : Inv temp S s) (e : Ev ν R) (k : ν) (v : List R)
    (hr : ∀ t n rows, e ≠ .read t n rows) (hm : temp k = true → (s.mgr k).isSome)
    (hk : s.store k = replay S s.log k → replay S (s.log ++ [e]) k = v)
    (hu : ∀ n, n ≠ k → replay S (s.log ++ [e]) n = replay S s.log n) :
    Inv temp S ({ s with store := setStore s.store k v }.emit e) ∧
    Keep S [] s ({ s with store := setStore s.store k v }.emit e) := by
  have hrep : ∀ n, Rep S s n → Rep S ({ s with store := setStore s.store k v }.emit e) n := by
    intro n hn
    unfold Rep at *
    simp only [St.emit, setStore]
    by_cases h' : n = k
    · subst h'; rw [if_pos rfl, hk hn]
    · rw [if_neg h', hu n h', hn]
  refine ⟨⟨h.tmp, ?_, ?_, fun n hn => hrep n (h.user n hn)⟩, ⟨fun n _ hn => hrep n hn, fun n _ hn => hn⟩⟩
  · intro n hn hS hs
    simp only [St.emit, setStore] at hs ⊢
    by_cases hk : n = k
    · subst hk; exact hm hn
    · rw [if_neg hk] at hs; exact h.clean n hn hS hs
  · intro pre t n rows post hp
    simp only [St.emit] at hp
    rcases append_split hp with ⟨post', hA, _⟩ | ⟨pre', rfl, hB⟩
    · exact h.reads pre t n rows post' hA
    · cases pre' with
      | nil =>
        simp only [List.nil_append, List.cons.injEq] at hB
        exact absurd hB.1 (hr t n rows)
      | cons x xs => simp at hB

theorem runProg_inv (temp : ν → Bool) (S : ν → List R) (t : Nat) (rd wr : List ν) (p : Prog ν R) (ht : Touches rd wr p) :
    ∀ s, Inv temp S s → (∀ n ∈ rd, Rep S s n) → (∀ n ∈ wr, temp n = true → (s.mgr n).isSome) →
      Inv temp S (runProg temp t p s).1 ∧ Keep S [] s (runProg temp t p s).1 := by
  have wrap : ∀ (s s' : St ν R) (k : Prog ν R), Inv temp S s' → Keep S [] s s' →
      (∀ n ∈ rd, Rep S s n) → (∀ n ∈ wr, temp n = true → (s.mgr n).isSome) →
      (Inv temp S s' → (∀ n ∈ rd, Rep S s' n) → (∀ n ∈ wr, temp n = true → (s'.mgr n).isSome) →
        Inv temp S (runProg temp t k s').1 ∧ Keep S [] s' (runProg temp t k s').1) →
      Inv temp S (runProg temp t k s').1 ∧ Keep S [] s (runProg temp t k s').1 := by
    intro s s' k hi hk hr hw ih
    obtain ⟨a, b⟩ := ih hi (fun n hn => hk.rep n (by simp) (hr n hn)) (fun n hn h => hk.reg n (by simp) (hw n hn h))
    exact ⟨a, hk.trans b (by simp) (by simp)⟩
  have quiet : ∀ (s : St ν R) (e : Ev ν R), (∀ S', replay S' [e] = S') → ∀ n, replay S (s.log ++ [e]) n = replay S s.log n := by
    intro s e he n
    rw [replay_append, he]
  induction ht with
  | done =>
    intro s hi hr hw
    exact ⟨hi.emit (.stop t) (by intro _ _ _ h; cases h) (quiet s _ (by intro; rfl)), Keep.emit S s _ (quiet s _ (by intro; rfl))⟩
  | raise =>
    intro s hi hr hw
    exact ⟨hi.emit (.raise t) (by intro _ _ _ h; cases h) (quiet s _ (by intro; rfl)), Keep.emit S s _ (quiet s _ (by intro; rfl))⟩
  | pause _ ih => intro s hi hr hw; exact ih s hi hr hw
  | @read n k hn _ ih =>
    intro s hi hr hw
    rw [runProg]
    refine wrap s (s.emit (.read t n (s.store n))) _ (hi.emit _ ?_ (quiet s _ (by intro; rfl))) (Keep.emit S s _ (quiet s _ (by intro; rfl))) hr hw (ih _ _)
    intro t' n' rows' h
    cases h
    exact hr n hn
  | @write n rows k hn _ ih =>
    intro s hi hr hw
    rw [runProg]
    obtain ⟨a, b⟩ := hi.change (.write t n rows) n (s.store n ++ rows) (by intro _ _ _ h; cases h) (hw n hn) (by
        intro hs
        rw [replay_append, hs]
        simp [replay]) (by
        intro m hm
        rw [replay_append]
        simp [replay, hm])
    exact wrap s _ _ a b hr hw (ih _)
  | @delete n k hn _ ih =>
    intro s hi hr hw
    rw [runProg]
    obtain ⟨a, b⟩ := hi.change (.delete t n) n [] (by intro _ _ _ h; cases h) (hw n hn) (by
        intro hs
        rw [replay_append]
        simp [replay]) (by
        intro m hm
        rw [replay_append]
        simp [replay, hm])
    exact wrap s _ _ a b hr hw (ih _)
  | @reduce n k hn _ ih =>
    intro s hi hr hw
    rw [runProg]
    refine wrap s { s with mgr := compileCore temp (some n) (some n) s.mgr } _ ?_ ?_ hr hw (ih _)
    · exact ⟨compileCore_tmp temp (some n) (some n) _ hi.tmp, fun n' h1 h2 h3 => compileCore_reg temp (some n) (some n) _ _ (hi.clean n' h1 h2 h3), hi.reads, hi.user⟩
    · exact ⟨fun n' _ h => h, fun n' _ h => compileCore_reg temp (some n) (some n) _ _ h⟩

/-- The temporary collections a task may free. -/
def Core.freed (temp : ν → Bool) (c : Core ν R) : List ν := c.loader.toList.filter temp

/-- The collections a task may touch. -/
def Core.names (c : Core ν R) : List ν := c.loader.toList ++ c.joins ++ c.outputer.toList

theorem checkFree_inv (temp : ν → Bool) (S : ν → List R) (c : Core ν R) (s : St ν R) (hi : Inv temp S s) :
    Inv temp S (checkFree temp c s) ∧ Keep S (c.freed temp) s (checkFree temp c s) := by
  unfold checkFree Core.freed
  cases hl : c.loader with
  | none => exact ⟨hi, Keep.refl _ _ _⟩
  | some n =>
    dsimp only
    split
    · exact ⟨hi, Keep.refl _ _ _⟩
    rename_i htn
    have htn : temp n = true := by simpa using htn
    have hfr : ∀ k, k ∉ ((some n).toList.filter temp) → k ≠ n := by
      intro k hk h
      subst h
      apply hk
      simp [htn]
    split
    · exact ⟨hi, Keep.refl _ _ _⟩
    have hu : ∀ k, k ≠ n → (unuseCollection s.mgr n).1 k = s.mgr k := by
      intro k hk
      unfold unuseCollection
      split
      · rfl
      · exact put_other _ _ hk
    have hut : ∀ k, ((unuseCollection s.mgr n).1 k).isSome → (s.mgr k).isSome := by
      intro k hk
      by_cases h : k = n
      · subst h
        unfold unuseCollection at hk
        split at hk
        · exact hk
        · rename_i heq; rw [heq]; rfl
      · rw [hu k h] at hk; exact hk
    have huk : ∀ k, (s.mgr k).isSome → ((unuseCollection s.mgr n).1 k).isSome := by
      intro k hk
      by_cases h : k = n
      · subst h
        unfold unuseCollection
        split
        · exact hk
        · dsimp only; rw [put_self]; rfl
      · rw [hu k h]; exact hk
    split
    · have hf : ∀ k, k ≠ n → (freeCollection (unuseCollection s.mgr n).1 n).1 k = s.mgr k := by
        intro k hk
        unfold freeCollection
        split
        · exact hu k hk
        · split
          · exact hu k hk
          · dsimp only; rw [put_other _ _ hk]; exact hu k hk
      have hft : ∀ k, ((freeCollection (unuseCollection s.mgr n).1 n).1 k).isSome → (s.mgr k).isSome := by
        intro k hk
        by_cases h : k = n
        · subst h
          unfold freeCollection at hk
          split at hk
          · exact hut _ hk
          · split at hk
            · exact hut _ hk
            · dsimp only at hk; rw [put_self] at hk; simp at hk
        · rw [hf k h] at hk; exact hk
      have hrep : ∀ k, k ≠ n → Rep S s k → Rep S { s with store := setStore s.store n [], mgr := (freeCollection (unuseCollection s.mgr n).1 n).1 } k := by
        intro k hk h
        unfold Rep at *
        simp only [setStore, if_neg hk]
        exact h
      refine ⟨⟨fun k hk => hi.tmp k (hft k hk), ?_, hi.reads, ?_⟩, ⟨fun k hk => hrep k (hfr k hk), ?_⟩⟩
      · intro k h1 h2 h3
        by_cases hk : k = n
        · subst hk; simp [setStore] at h3
        · simp only [setStore, if_neg hk] at h3
          simp only [hf k hk]
          exact hi.clean k h1 h2 h3
      · intro k hk
        refine hrep k ?_ (hi.user k hk)
        rintro rfl
        rw [htn] at hk
        cases hk
      · intro k hk h
        simp only [hf k (hfr k hk)]
        exact h
    · refine ⟨⟨fun k hk => hi.tmp k (hut k hk), fun k h1 h2 h3 => huk k (hi.clean k h1 h2 h3), hi.reads, hi.user⟩,
        ⟨fun k _ h => h, fun k _ h => huk k h⟩⟩

theorem runCore_inv (temp : ν → Bool) (S : ν → List R) (c : Core ν R) (hh : c.Honest) (s : St ν R) (hi : Inv temp S s)
    (hr : ∀ n ∈ c.names, Rep S s n) (hw : ∀ n ∈ c.outputer, temp n = true → (s.mgr n).isSome) :
    Inv temp S (runCore temp c s).1 ∧ Keep S (c.freed temp) s (runCore temp c s).1 := by
  obtain ⟨a, b⟩ := runProg_inv temp S c.tid _ _ c.prog hh s hi hr (by simpa using hw)
  obtain ⟨a', b'⟩ := checkFree_inv temp S c _ a
  exact ⟨a', b.trans b' (by simp) (by simp)⟩

theorem runFinal_inv (temp : ν → Bool) (S : ν → List R) (f : Option (Core ν R)) (hh : ∀ c ∈ f, c.Honest) (s : St ν R)
    (hi : Inv temp S s) (hr : ∀ c ∈ f, ∀ n ∈ c.names, Rep S s n) :
    Inv temp S (runFinal temp f s).1 ∧ Keep S (f.toList.flatMap (Core.freed temp)) s (runFinal temp f s).1 := by
  cases f with
  | none => exact ⟨hi, Keep.refl _ _ _⟩
  | some c =>
    have hi' : Inv temp S { s with mgr := compileCore temp c.loader c.outputer s.mgr } :=
      ⟨compileCore_tmp _ _ _ _ hi.tmp, fun n h1 h2 h3 => compileCore_reg temp _ _ _ _ (hi.clean n h1 h2 h3), hi.reads, hi.user⟩
    obtain ⟨a, b⟩ := runCore_inv temp S c (hh c rfl) _ hi' (hr c rfl) (by
      intro n hn ht
      simp only [Option.mem_def] at hn
      rw [hn]
      exact compileCore_out _ _ _ _ ht)
    refine ⟨a, ⟨fun n hn h => b.rep n (by simpa using hn) h, fun n hn h => b.reg n (by simpa using hn) (compileCore_reg temp _ _ _ _ h)⟩⟩

mutual
/-- The temporary collections freed while a query runs. -/
def frees (temp : ν → Bool) : Task ν R → List ν
  | .mk c f ds => freesL temp ds ++ (c.freed temp ++ f.toList.flatMap (Core.freed temp))
def freesL (temp : ν → Bool) : List (Task ν R) → List ν
  | [] => []
  | d :: ds => frees temp d ++ freesL temp ds
end

mutual
/-- The collections touched while a query runs. -/
def touched : Task ν R → List ν
  | .mk c f ds => touchedL ds ++ (c.names ++ f.toList.flatMap Core.names)
def touchedL : List (Task ν R) → List ν
  | [] => []
  | d :: ds => touched d ++ touchedL ds
end

mutual
/-- What a subquery frees is not touched afterwards. -/
def Scoped (temp : ν → Bool) : Task ν R → Prop
  | .mk c f ds => ScopedL temp ds ∧ (∀ n ∈ freesL temp ds, n ∉ c.names ++ f.toList.flatMap Core.names) ∧
      ∀ n ∈ c.freed temp, n ∉ f.toList.flatMap Core.names
def ScopedL (temp : ν → Bool) : List (Task ν R) → Prop
  | [] => True
  | d :: ds => Scoped temp d ∧ ScopedL temp ds ∧ ∀ n ∈ frees temp d, n ∉ touchedL ds
end

/-- The collections the main tasks write to, registered when the query starts. -/
def outs (ps : List (Task ν R)) : List ν := ps.flatMap fun p => p.core.outputer.toList

theorem own_names {ps : List (Task ν R)} {p : Task ν R} (hp : p ∈ ps) {n : ν} (hn : n ∈ p.core.outputer) : n ∈ outs ps :=
  List.mem_flatMap.mpr ⟨p, hp, by simpa using hn⟩

mutual
theorem outs_touched : ∀ (t : Task ν R), ∀ n ∈ outs (subtasks t), n ∈ touched t
  | .mk c f ds => by
    intro n hn
    rw [subtasks] at hn
    rw [touched]
    simp only [outs, List.flatMap_cons, Task.core] at hn
    rcases List.mem_append.mp hn with h | h
    · refine List.mem_append_right _ (List.mem_append_left _ ?_)
      exact List.mem_append_right _ h
    · exact List.mem_append_left _ (outsL_touched ds n h)
theorem outsL_touched : ∀ (ds : List (Task ν R)), ∀ n ∈ outs (subtasksL ds), n ∈ touchedL ds
  | [] => by intro n hn; simp [subtasksL, outs] at hn
  | d :: ds => by
    intro n hn
    rw [subtasksL] at hn
    rw [touchedL]
    simp only [outs, List.flatMap_append] at hn
    rcases List.mem_append.mp hn with h | h
    · exact List.mem_append_left _ (outs_touched d n h)
    · exact List.mem_append_right _ (outsL_touched ds n h)
end

theorem raise_quiet (S : ν → List R) (s : St ν R) (t : Nat) (n : ν) : replay S (s.log ++ [.raise t]) n = replay S s.log n := by
  rw [replay_append]; rfl

mutual
theorem full_inv (temp : ν → Bool) (S : ν → List R) : ∀ (t : Task ν R), Scoped temp t →
    (∀ p ∈ subtasks t, ∀ c ∈ p.own, c.Honest) → ∀ s, Inv temp S s → (∀ n ∈ touched t, Rep S s n) →
    (∀ n ∈ outs (subtasks t), temp n = true → (s.mgr n).isSome) →
    Inv temp S (runFull temp t s).1 ∧ Keep S (frees temp t) s (runFull temp t s).1
  | .mk c f ds => by
    intro hs hh s hi hr hw
    rw [Scoped] at hs
    obtain ⟨hs1, hs2, hs3⟩ := hs
    rw [touched] at hr
    rw [subtasks] at hh hw
    obtain ⟨a1, b1⟩ := deps_inv temp S ds hs1 (fun p hp => hh p (List.mem_cons_of_mem _ hp)) s hi
      (fun n hn => hr n (List.mem_append_left _ hn))
      (fun n hn => hw n (by simp only [outs, List.flatMap_cons]; exact List.mem_append_right _ hn))
    rw [runFull, runTask, frees]
    generalize hrr : runDeps temp ds s = r at a1 b1
    obtain ⟨s1, ok⟩ := r
    cases ok with
    | false =>
      simp only at a1 b1 ⊢
      have a2 := a1.emit (.raise c.tid) (by intro _ _ _ h; cases h) (raise_quiet S s1 c.tid)
      have b2 := Keep.emit S s1 (.raise c.tid) (raise_quiet S s1 c.tid)
      obtain ⟨a3, b3⟩ := checkFree_inv temp S c _ a2
      exact ⟨a3, (b1.trans b2 (c := freesL temp ds) (fun n h => h) (by simp)).trans b3
        (fun n h => List.mem_append_left _ h) (fun n h => List.mem_append_right _ (List.mem_append_left _ h))⟩
    | true =>
      simp only at a1 b1 ⊢
      have nin : ∀ n ∈ c.names ++ f.toList.flatMap Core.names, n ∉ freesL temp ds := fun n h h' => hs2 n h' h
      have hr1 : ∀ n ∈ c.names ++ f.toList.flatMap Core.names, Rep S s1 n :=
        fun n h => b1.rep n (nin n h) (hr n (List.mem_append_right _ h))
      obtain ⟨a2, b2⟩ := runCore_inv temp S c (hh _ List.mem_cons_self c (by simp [Task.own, Task.core])) s1 a1
        (fun n h => hr1 n (List.mem_append_left _ h))
        (fun n hn ht => b1.reg n (nin n (List.mem_append_left _ (List.mem_append_right _ (by simpa using hn))))
          (hw n (own_names List.mem_cons_self hn) ht))
      have b12 := b1.trans b2 (c := freesL temp ds ++ (c.freed temp ++ f.toList.flatMap (Core.freed temp)))
        (fun n h => List.mem_append_left _ h) (fun n h => List.mem_append_right _ (List.mem_append_left _ h))
      generalize hrr2 : runCore temp c s1 = r2 at a2 b2 b12
      obtain ⟨s2, ok2⟩ := r2
      cases ok2 with
      | false => exact ⟨a2, b12⟩
      | true =>
        simp only at a2 b2 b12 ⊢
        obtain ⟨a3, b3⟩ := runFinal_inv temp S f (fun x hx => hh _ List.mem_cons_self x (by
            simp only [Task.own, Task.final]; exact List.mem_cons_of_mem _ (by simpa using hx))) s2 a2
          (fun x hx n hn => by
            have hnf : n ∈ f.toList.flatMap Core.names := List.mem_flatMap.mpr ⟨x, by simpa using hx, hn⟩
            exact b2.rep n (fun h => hs3 n h hnf) (hr1 n (List.mem_append_right _ hnf)))
        exact ⟨a3, b12.trans b3 (fun n h => h) (fun n h => List.mem_append_right _ (List.mem_append_right _ h))⟩
theorem deps_inv (temp : ν → Bool) (S : ν → List R) : ∀ (ds : List (Task ν R)), ScopedL temp ds →
    (∀ p ∈ subtasksL ds, ∀ c ∈ p.own, c.Honest) → ∀ s, Inv temp S s → (∀ n ∈ touchedL ds, Rep S s n) →
    (∀ n ∈ outs (subtasksL ds), temp n = true → (s.mgr n).isSome) →
    Inv temp S (runDeps temp ds s).1 ∧ Keep S (freesL temp ds) s (runDeps temp ds s).1
  | [] => by intro _ _ s hi _ _; exact ⟨hi, Keep.refl _ _ _⟩
  | d :: ds => by
    intro hs hh s hi hr hw
    rw [ScopedL] at hs
    obtain ⟨hs1, hs2, hs3⟩ := hs
    rw [touchedL] at hr
    rw [subtasksL] at hh hw
    obtain ⟨a1, b1⟩ := full_inv temp S d hs1 (fun p hp => hh p (List.mem_append_left _ hp)) s hi
      (fun n hn => hr n (List.mem_append_left _ hn))
      (fun n hn => hw n (by simp only [outs, List.flatMap_append]; exact List.mem_append_left _ hn))
    rw [runDeps_cons, freesL]
    generalize hrr : runFull temp d s = r at a1 b1
    obtain ⟨s1, ok⟩ := r
    cases ok with
    | false => exact ⟨a1, b1.trans (Keep.refl S [] _) (fun n h => List.mem_append_left _ h) (by simp)⟩
    | true =>
      simp only at a1 b1 ⊢
      obtain ⟨a2, b2⟩ := deps_inv temp S ds hs2 (fun p hp => hh p (List.mem_append_right _ hp)) s1 a1
        (fun n hn => b1.rep n (fun h => hs3 n h hn) (hr n (List.mem_append_right _ hn)))
        (fun n hn ht => b1.reg n (fun h => hs3 n h (outsL_touched ds n hn))
          (hw n (by simp only [outs, List.flatMap_append]; exact List.mem_append_right _ hn) ht))
      exact ⟨a2, b1.trans b2 (fun n h => List.mem_append_left _ h) (fun n h => List.mem_append_right _ h)⟩
end

mutual
theorem start_reg (temp : ν → Bool) : ∀ (t : Task ν R) (m : Mgr ν) (n : ν), (m n).isSome → (start temp t m n).isSome
  | .mk c f ds, m, n, h => by rw [start]; exact compileCore_reg _ _ _ _ _ (startDeps_reg temp ds m n h)
theorem startDeps_reg (temp : ν → Bool) : ∀ (ds : List (Task ν R)) (m : Mgr ν) (n : ν), (m n).isSome → (startDeps temp ds m n).isSome
  | [], m, n, h => by rw [startDeps]; exact h
  | d :: ds, m, n, h => by rw [startDeps]; exact startDeps_reg temp ds _ n (start_reg temp d m n h)
end

mutual
theorem start_tmp (temp : ν → Bool) : ∀ (t : Task ν R) (m : Mgr ν), (∀ n, (m n).isSome → temp n = true) →
    ∀ n, (start temp t m n).isSome → temp n = true
  | .mk c f ds, m, h => by rw [start]; exact compileCore_tmp _ _ _ _ (startDeps_tmp temp ds m h)
theorem startDeps_tmp (temp : ν → Bool) : ∀ (ds : List (Task ν R)) (m : Mgr ν), (∀ n, (m n).isSome → temp n = true) →
    ∀ n, (startDeps temp ds m n).isSome → temp n = true
  | [], m, h => by rw [startDeps]; exact h
  | d :: ds, m, h => by rw [startDeps]; exact startDeps_tmp temp ds _ (start_tmp temp d m h)
end

mutual
theorem start_outs (temp : ν → Bool) : ∀ (t : Task ν R) (m : Mgr ν), ∀ n ∈ outs (subtasks t), temp n = true → (start temp t m n).isSome
  | .mk c f ds, m => by
    intro n hn ht
    rw [start]
    rw [subtasks] at hn
    simp only [outs, List.flatMap_cons, Task.core] at hn
    rcases List.mem_append.mp hn with h | h
    · have h : c.outputer = some n := by simpa using h
      rw [h]
      exact compileCore_out _ _ _ _ ht
    · exact compileCore_reg _ _ _ _ _ (startDeps_outs temp ds m n h ht)
theorem startDeps_outs (temp : ν → Bool) : ∀ (ds : List (Task ν R)) (m : Mgr ν), ∀ n ∈ outs (subtasksL ds), temp n = true → (startDeps temp ds m n).isSome
  | [], m => by intro n hn; simp [subtasksL, outs] at hn
  | d :: ds, m => by
    intro n hn ht
    rw [startDeps]
    rw [subtasksL] at hn
    simp only [outs, List.flatMap_append] at hn
    rcases List.mem_append.mp hn with h | h
    · exact startDeps_reg temp ds _ n (start_outs temp d m n h ht)
    · exact startDeps_outs temp ds _ n h ht
end

/-- Everything about the collections of a statement. -/
theorem exec_inv (temp : ν → Bool) (t : Task ν R) (hs : Scoped temp t) (hh : ∀ c ∈ cores t, c.Honest) (S : ν → List R) :
    (∀ n, temp n = true → S n = [] → (execQuery temp t S).1.store n = []) ∧
    (∀ n, temp n = false → (execQuery temp t S).1.store n = replay S (execQuery temp t S).1.log n) ∧
    (∀ pre i n rows post, (execQuery temp t S).1.log = pre ++ Ev.read i n rows :: post → rows = replay S pre n) := by
  obtain ⟨a, -⟩ := full_inv temp S t hs (fun p hp c hc => hh c (List.mem_flatMap.mpr ⟨p, hp, hc⟩))
    { store := S, mgr := start temp t fun _ => none, log := [] }
    ⟨start_tmp temp t _ (by simp), by intro n _ h1 h2; exact absurd h1 h2, by intro pre i n rows post h; simp at h, fun n _ => rfl⟩
    (fun n _ => rfl) (fun n hn => start_outs temp t _ n hn)
  rw [execQuery, runTop_eq]
  generalize (runFull temp t { store := S, mgr := start temp t fun _ => none, log := [] }).1 = s at a
  refine ⟨?_, ?_, a.reads⟩
  · intro n ht hS
    simp only [clear]
    split
    · rfl
    · rename_i hm
      cases hx : s.store n with
      | nil => rfl
      | cons y ys => exact absurd (a.clean n ht hS (by rw [hx]; simp)) hm
  · intro n ht
    simp only [clear]
    split
    · rename_i hm
      rw [a.tmp n hm] at ht
      cases ht
    · exact a.user n ht

end Verif.Tasks
