import Verif.Model.Streaming
import Verif.Spec.Streaming
import Verif.Props.Tasks
import Verif.Props.Value
/-! C176: `@streaming` changes no result — where this holds and where not. -/
namespace Verif.Props.StreamLemmas
open Verif.Tasks Verif.TempMem Verif.Streaming Verif.StreamSpec

variable {ν R : Type} [DecidableEq ν]

/-- The step that ends as `runProg`. -/
def ended (ok : Bool) : Step ν R := if ok then .stopped else .raised

theorem step_noPause (temp : ν → Bool) (t : Nat) {p : Prog ν R} (h : NoPause p) :
    ∀ s, stepProg temp t p s = ((runProg temp t p s).1, ended (runProg temp t p s).2) := by
  induction h with
  | done => intro s; rfl
  | raise => intro s; rfl
  | read h ih => intro s; simp only [stepProg, runProg]; exact ih _ _
  | write h ih => intro s; simp only [stepProg, runProg]; exact ih _
  | delete h ih => intro s; simp only [stepProg, runProg]; exact ih _
  | reduce h ih => intro s; simp only [stepProg, runProg]; exact ih _

/-- What `send` gives for a task that ends in one step. -/
def sent (r : St ν R × Bool) : St ν R × Sent ν R := (r.1, if r.2 then .stopped else .raised)

mutual
theorem send_gen (temp : ν → Bool) (t : Task ν R) (h : ∀ p ∈ subtasks t, NoPause p.core.prog) :
    ∀ s, send temp (gen t) s = sent (runTask temp t s) := by
  match t with
  | .mk c f ds =>
    intro s
    have hd := sendDeps_gens temp ds (fun p hp => h p (by simp only [subtasks, List.mem_cons]; exact .inr hp)) s
    have hc : NoPause c.prog := h (.mk c f ds) (by simp only [subtasks, List.mem_cons, true_or])
    simp only [gen, send, runTask, hd]
    generalize runDeps temp ds s = r
    obtain ⟨s, ok⟩ := r
    cases ok with
    | false => rfl
    | true =>
      simp only [if_true, step_noPause temp c.tid hc s, runCore]
      generalize runProg temp c.tid c.prog s = r
      obtain ⟨s, ok⟩ := r
      cases ok <;> rfl
theorem sendDeps_gens (temp : ν → Bool) (ds : List (Task ν R)) (h : ∀ p ∈ subtasksL ds, NoPause p.core.prog) :
    ∀ s, sendDeps temp (gens ds) s = ((runDeps temp ds s).1, if (runDeps temp ds s).2 then some [] else none) := by
  match ds with
  | [] => intro s; rfl
  | .mk c f e :: ds =>
    intro s
    have hd := send_gen temp (.mk c f e) (fun p hp => h p (by simp only [subtasksL, List.mem_append]; exact .inl hp)) s
    have ih := sendDeps_gens temp ds (fun p hp => h p (by simp only [subtasksL, List.mem_append]; exact .inr hp))
    rcases hr : runTask temp (.mk c f e) s with ⟨s1, _ | _⟩
    · rw [hr] at hd
      simp only [gens, sendDeps, runDeps, hd, hr, sent, Bool.false_eq_true, if_false]
    · rw [hr] at hd
      rcases hf : runFinal temp f s1 with ⟨s2, _ | _⟩
      · have hf' : runFinal temp (gen (.mk c f e)).final s1 = (s2, false) := hf
        simp only [gens, sendDeps, runDeps, hd, hr, sent, if_true, hf', hf, Bool.false_eq_true, if_false]
      · have hf' : runFinal temp (gen (.mk c f e)).final s1 = (s2, true) := hf
        simp only [gens, sendDeps, runDeps, hd, hr, sent, if_true, hf', hf]
        exact ih s2
end

/-- The end of a statement whose generator has ended. -/
theorem drives_gen (temp str : ν → Bool) (t : Task ν R) (s : St ν R) (h : ∀ p ∈ subtasks t, NoPause p.core.prog) :
    Drives temp str (gen t) s (runTop temp t s) := by
  have hs := send_gen temp t h s
  unfold runTop
  generalize runTask temp t s = r at hs ⊢
  obtain ⟨s', ok⟩ := r
  cases ok with
  | true =>
    have := Drives.stop (isStreaming := str) hs
    cases t with
    | mk c f ds => exact this
  | false => exact .fail hs

theorem send_fail {temp : ν → Bool} {c : Core ν R} {f : Option (Core ν R)} {p : Prog ν R} {ds : List (Gen ν R)} {s s1 : St ν R}
    (h : sendDeps temp ds s = (s1, none)) : send temp (.mk c f p ds) s = (checkFree temp c (s1.emit (.raise c.tid)), .raised) := by
  simp only [send, h]

theorem send_stop {temp : ν → Bool} {c : Core ν R} {f : Option (Core ν R)} {p : Prog ν R} {ds ds1 : List (Gen ν R)} {s s1 s2 : St ν R}
    (h : sendDeps temp ds s = (s1, some ds1)) (h2 : stepProg temp c.tid p s1 = (s2, .stopped)) :
    send temp (.mk c f p ds) s = (checkFree temp c s2, .stopped) := by
  simp only [send, h, h2]

theorem send_raise {temp : ν → Bool} {c : Core ν R} {f : Option (Core ν R)} {p : Prog ν R} {ds ds1 : List (Gen ν R)} {s s1 s2 : St ν R}
    (h : sendDeps temp ds s = (s1, some ds1)) (h2 : stepProg temp c.tid p s1 = (s2, .raised)) :
    send temp (.mk c f p ds) s = (checkFree temp c s2, .raised) := by
  simp only [send, h, h2]

theorem send_pause {temp : ν → Bool} {c : Core ν R} {f : Option (Core ν R)} {p k : Prog ν R} {ds ds1 : List (Gen ν R)} {s s1 s2 : St ν R}
    (h : sendDeps temp ds s = (s1, some ds1)) (h2 : stepProg temp c.tid p s1 = (s2, .paused k)) :
    send temp (.mk c f p ds) s = (s2, .paused (.mk c f k ds1)) := by
  simp only [send, h, h2]

/-- A step leaves a smaller program, so a streaming statement ends. -/
theorem drives_ends (temp str : ν → Bool) (c : Core ν R) (f : Option (Core ν R)) (p : Prog ν R) :
    ∀ (ds : List (Gen ν R)) (s : St ν R), ∃ r, Drives temp str (.mk c f p ds) s r := by
  -- once the dependencies have made their step
  suffices H : ∀ (ds : List (Gen ν R)) (s : St ν R), (∃ s' , stepProg temp c.tid p s = (s', .stopped)) ∨
      (∃ s', stepProg temp c.tid p s = (s', .raised)) ∨
      (∃ s' k, stepProg temp c.tid p s = (s', .paused k) ∧ ∀ ds s, ∃ r, Drives temp str (.mk c f k ds) s r) by
    intro ds s
    rcases hd : sendDeps temp ds s with ⟨s1, _ | ds1⟩
    · exact ⟨_, .fail (send_fail hd)⟩
    · rcases H ds1 s1 with ⟨s2, h⟩ | ⟨s2, h⟩ | ⟨s2, k, h, hk⟩
      · exact ⟨_, .stop (send_stop hd h)⟩
      · exact ⟨_, .fail (send_raise hd h)⟩
      · obtain ⟨r, hr⟩ := hk ds1 (clearPaused str s2)
        exact ⟨r, .again (send_pause hd h) hr⟩
  intro ds s
  clear ds
  induction p generalizing s with
  | done => exact .inl ⟨_, rfl⟩
  | raise => exact .inr (.inl ⟨_, rfl⟩)
  | pause k ih =>
    refine .inr (.inr ⟨s, k, rfl, ?_⟩)
    intro ds s
    rcases hd : sendDeps temp ds s with ⟨s1, _ | ds1⟩
    · exact ⟨_, .fail (send_fail hd)⟩
    · rcases ih s1 with ⟨s2, h⟩ | ⟨s2, h⟩ | ⟨s2, k, h, hk⟩
      · exact ⟨_, .stop (send_stop hd h)⟩
      · exact ⟨_, .fail (send_raise hd h)⟩
      · obtain ⟨r, hr⟩ := hk ds1 (clearPaused str s2)
        exact ⟨r, .again (send_pause hd h) hr⟩
  | read n k ih => exact ih _ _
  | write n rows k ih => exact ih _
  | delete n k ih => exact ih _
  | reduce n k ih => exact ih _

theorem drives_unique (temp str : ν → Bool) (g : Gen ν R) (s : St ν R) {r r' : St ν R × Bool} (h : Drives temp str g s r)
    (h' : Drives temp str g s r') : r = r' := by
  induction h with
  | stop h =>
    cases h' with
    | stop h2 => rw [h] at h2; cases h2; rfl
    | fail h2 => rw [h] at h2; cases h2
    | again h2 _ => rw [h] at h2; cases h2
  | fail h =>
    cases h' with
    | stop h2 => rw [h] at h2; cases h2
    | fail h2 => rw [h] at h2; cases h2; rfl
    | again h2 _ => rw [h] at h2; cases h2
  | again h _ ih =>
    cases h' with
    | stop h2 => rw [h] at h2; cases h2
    | fail h2 => rw [h] at h2; cases h2
    | again h2 hr => rw [h] at h2; cases h2; exact ih hr

/-- The same but for the rows of temporary collections. -/
structure Same (temp : ν → Bool) (a b : St ν R) : Prop where
  log : a.log = b.log
  mgr : a.mgr = b.mgr
  store : ∀ n, temp n = false → a.store n = b.store n

theorem same_free (temp : ν → Bool) (c : Core ν R) {a b : St ν R} (h : Same temp a b) : Same temp (checkFree temp c a) (checkFree temp c b) := by
  unfold checkFree
  cases c.loader with
  | none => exact h
  | some n =>
    simp only []
    cases ht : temp n with
    | false => simpa using h
    | true =>
      simp only [Bool.true_eq_false, if_false, h.mgr]
      split
      · exact h
      · split
        · refine ⟨h.log, rfl, fun m hm => ?_⟩
          have : m ≠ n := by rintro rfl; rw [ht] at hm; cases hm
          simp only [setStore, if_neg this]
          exact h.store m hm
        · exact ⟨h.log, rfl, h.store⟩

theorem same_clear (temp : ν → Bool) {a b : St ν R} (h : Same temp a b) : Same temp (clear a) (clear b) := by
  refine ⟨h.log, h.mgr, fun n hn => ?_⟩
  simp only [clear, h.mgr]
  split
  · rfl
  · exact h.store n hn

/-- Only temporary collections are in the bookkeeping. -/
def TempOnly (temp : ν → Bool) (m : Mgr ν) : Prop := ∀ n, temp n = false → m n = none

theorem same_paused (temp str : ν → Bool) {a b : St ν R} (h : Same temp a b) (hm : TempOnly temp a.mgr) :
    Same temp (clearPaused str a) b := by
  refine ⟨h.log, h.mgr, fun n hn => ?_⟩
  simp only [clearPaused, hm n hn, Option.isSome_none, Bool.false_and, Bool.false_eq_true, if_false]
  exact h.store n hn

theorem tempOnly_compile (temp : ν → Bool) (l o : Option ν) (m : Mgr ν) (h : TempOnly temp m) : TempOnly temp (compileCore temp l o m) := by
  have key : ∀ (m : Mgr ν) (n : ν) (v : Option Int), TempOnly temp m → temp n = true → TempOnly temp (put m n v) := by
    intro m n v hm hn k hk
    have : k ≠ n := by rintro rfl; rw [hn] at hk; cases hk
    simp only [put, if_neg this]
    exact hm k hk
  have h1 : ∀ n, TempOnly temp (if temp n then useCollection m n else m) := by
    intro n
    split
    · exact key _ _ _ h (by assumption)
    · exact h
  have h2 : ∀ m n, TempOnly temp m → TempOnly temp (if temp n then addCollection m n else m) := by
    intro m n hm
    split
    · unfold addCollection
      split
      · exact key _ _ _ hm (by assumption)
      · exact hm
    · exact hm
  unfold compileCore
  cases l <;> cases o <;> simp only []
  · exact h
  · exact h2 _ _ h
  · exact h1 _
  · exact h2 _ _ (h1 _)

theorem tempOnly_free (temp : ν → Bool) (c : Core ν R) (s : St ν R) (h : TempOnly temp s.mgr) : TempOnly temp (checkFree temp c s).mgr := by
  have key : ∀ (m : Mgr ν) (n : ν) (v : Option Int), TempOnly temp m → temp n = true → TempOnly temp (put m n v) := by
    intro m n v hm hn k hk
    have : k ≠ n := by rintro rfl; rw [hn] at hk; cases hk
    simp only [put, if_neg this]
    exact hm k hk
  unfold checkFree
  cases c.loader with
  | none => exact h
  | some n =>
    simp only []
    cases ht : temp n with
    | false => simpa using h
    | true =>
      have hu : TempOnly temp (unuseCollection s.mgr n).1 := by
        unfold unuseCollection
        split
        · exact h
        · exact key _ _ _ h ht
      simp only [Bool.true_eq_false, if_false]
      split
      · exact h
      · split
        · simp only []
          unfold freeCollection
          split
          · exact hu
          · split
            · exact hu
            · exact key _ _ _ hu ht
        · exact hu

theorem tempOnly_prog (temp : ν → Bool) (t : Nat) (p : Prog ν R) : ∀ s : St ν R, TempOnly temp s.mgr → TempOnly temp (runProg temp t p s).1.mgr := by
  induction p with
  | done => intro s h; exact h
  | raise => intro s h; exact h
  | pause k ih => intro s h; exact ih s h
  | read n k ih => intro s h; exact ih _ _ h
  | write n rows k ih => intro s h; exact ih _ h
  | delete n k ih => intro s h; exact ih _ h
  | reduce n k ih => intro s h; exact ih _ (tempOnly_compile temp (some n) (some n) s.mgr h)

theorem tempOnly_core (temp : ν → Bool) (c : Core ν R) (s : St ν R) (h : TempOnly temp s.mgr) : TempOnly temp (runCore temp c s).1.mgr :=
  tempOnly_free temp c _ (tempOnly_prog temp _ _ s h)

theorem tempOnly_final (temp : ν → Bool) (f : Option (Core ν R)) (s : St ν R) (h : TempOnly temp s.mgr) :
    TempOnly temp (runFinal temp f s).1.mgr := by
  cases f with
  | none => exact h
  | some c => exact tempOnly_core temp c _ (tempOnly_compile temp _ _ _ h)

mutual
theorem tempOnly_task (temp : ν → Bool) (t : Task ν R) (s : St ν R) (h : TempOnly temp s.mgr) : TempOnly temp (runTask temp t s).1.mgr := by
  match t with
  | .mk c f ds =>
    have hd := tempOnly_deps temp ds s h
    simp only [runTask]
    rcases hr : runDeps temp ds s with ⟨s1, _ | _⟩
    · rw [hr] at hd; exact tempOnly_free temp c _ hd
    · rw [hr] at hd; exact tempOnly_core temp c _ hd
theorem tempOnly_deps (temp : ν → Bool) (ds : List (Task ν R)) (s : St ν R) (h : TempOnly temp s.mgr) : TempOnly temp (runDeps temp ds s).1.mgr := by
  match ds with
  | [] => exact h
  | .mk c f e :: ds =>
    have hd := tempOnly_task temp (.mk c f e) s h
    simp only [runDeps]
    rcases hr : runTask temp (.mk c f e) s with ⟨s1, _ | _⟩
    · rw [hr] at hd; exact hd
    · rw [hr] at hd
      have hf := tempOnly_final temp f s1 hd
      simp only []
      rcases hr : runFinal temp f s1 with ⟨s2, _ | _⟩
      · rw [hr] at hf; exact hf
      · rw [hr] at hf; exact tempOnly_deps temp ds s2 hf
end

mutual
theorem tempOnly_start (temp : ν → Bool) (t : Task ν R) (m : Mgr ν) (h : TempOnly temp m) : TempOnly temp (start temp t m) := by
  match t with
  | .mk c f ds => exact tempOnly_compile temp _ _ _ (tempOnly_startDeps temp ds m h)
theorem tempOnly_startDeps (temp : ν → Bool) (ds : List (Task ν R)) (m : Mgr ν) (h : TempOnly temp m) : TempOnly temp (startDeps temp ds m) := by
  match ds with
  | [] => exact h
  | d :: ds => exact tempOnly_startDeps temp ds _ (tempOnly_start temp d m h)
end

/-- How the step of a task without dependencies goes on, compared with running it to its end from `b`. -/
def GoesOn (temp str : ν → Bool) (c : Core ν R) (p : Prog ν R) (a b : St ν R) : Prop :=
  (∃ s', stepProg temp c.tid p a = (s', .stopped) ∧ Same temp s' (runProg temp c.tid p b).1 ∧ (runProg temp c.tid p b).2 = true) ∨
  (∃ s', stepProg temp c.tid p a = (s', .raised) ∧ Same temp s' (runProg temp c.tid p b).1 ∧ (runProg temp c.tid p b).2 = false) ∨
  ∃ s' k, stepProg temp c.tid p a = (s', .paused k) ∧ ∃ r, Drives temp str (.mk c none k []) (clearPaused str s') r ∧
    Same temp r.1 (clear (checkFree temp c (runProg temp c.tid p b).1)) ∧ r.2 = (runProg temp c.tid p b).2

theorem drives_of (temp str : ν → Bool) (c : Core ν R) (p : Prog ν R) (a b : St ν R) (h : GoesOn temp str c p a b) :
    ∃ r, Drives temp str (.mk c none p []) a r ∧ Same temp r.1 (clear (checkFree temp c (runProg temp c.tid p b).1)) ∧
      r.2 = (runProg temp c.tid p b).2 := by
  rcases h with ⟨s, hs, h1, h2⟩ | ⟨s, hs, h1, h2⟩ | ⟨s, k, hs, r, hr, h1, h2⟩
  · refine ⟨_, .stop (send_stop rfl hs), ?_, h2.symm⟩
    exact same_clear temp (same_free temp c h1)
  · refine ⟨_, .fail (send_raise rfl hs), ?_, h2.symm⟩
    exact same_clear temp (same_free temp c h1)
  · exact ⟨r, .again (send_pause rfl hs) hr, h1, h2⟩

theorem same_emit (temp : ν → Bool) {a b : St ν R} (h : Same temp a b) (e : Ev ν R) : Same temp (a.emit e) (b.emit e) :=
  ⟨by simp only [St.emit, h.log], h.mgr, h.store⟩

theorem goesOn (temp str : ν → Bool) (c : Core ν R) {p : Prog ν R} (h : NoTmpRead temp p) :
    ∀ a b, Same temp a b → TempOnly temp a.mgr → GoesOn temp str c p a b := by
  induction h with
  | done => intro a b h _; exact .inl ⟨_, rfl, same_emit temp h _, rfl⟩
  | raise => intro a b h _; exact .inr (.inl ⟨_, rfl, same_emit temp h _, rfl⟩)
  | pause _ ih =>
    intro a b h hm
    exact .inr (.inr ⟨a, _, rfl, drives_of temp str c _ _ b (ih (clearPaused str a) b (same_paused temp str h hm) hm)⟩)
  | @read n k hn _ ih =>
    intro a b h hm
    have e := h.store n hn
    have := ih (a.store n) (a.emit (.read c.tid n (a.store n))) (b.emit (.read c.tid n (a.store n))) (same_emit temp h _) hm
    unfold GoesOn at this ⊢
    simp only [stepProg, runProg, ← e]
    exact this
  | @write n rows k _ ih =>
    intro a b h hm
    have e : Same temp { a with store := setStore a.store n (a.store n ++ rows) } { b with store := setStore b.store n (b.store n ++ rows) } := by
      refine ⟨h.log, h.mgr, fun m hm' => ?_⟩
      simp only [setStore]
      split
      · next e => subst e; rw [h.store m hm']
      · exact h.store m hm'
    exact ih _ _ (same_emit temp e _) hm
  | @delete n k _ ih =>
    intro a b h hm
    have e : Same temp { a with store := setStore a.store n [] } { b with store := setStore b.store n [] } := by
      refine ⟨h.log, h.mgr, fun m hm' => ?_⟩
      simp only [setStore]
      split
      · rfl
      · exact h.store m hm'
    exact ih _ _ (same_emit temp e _) hm
  | @reduce n k _ ih =>
    intro a b h hm
    exact ih _ _ ⟨h.log, by simp only [h.mgr], h.store⟩ (tempOnly_compile temp (some n) (some n) a.mgr hm)

theorem goesOn_late (temp str : ν → Bool) (c : Core ν R) {p : Prog ν R} (h : Late temp p) :
    ∀ a, TempOnly temp a.mgr → GoesOn temp str c p a a := by
  have refl : ∀ a : St ν R, Same temp a a := fun a => ⟨rfl, rfl, fun _ _ => rfl⟩
  induction h with
  | done => intro a _; exact .inl ⟨_, rfl, refl _, rfl⟩
  | raise => intro a _; exact .inr (.inl ⟨_, rfl, refl _, rfl⟩)
  | pause h =>
    intro a hm
    exact .inr (.inr ⟨a, _, rfl, drives_of temp str c _ _ a (goesOn temp str c h _ a (same_paused temp str (refl a) hm) hm)⟩)
  | read _ ih => intro a hm; exact ih _ _ hm
  | write _ ih => intro a hm; exact ih _ hm
  | delete _ ih => intro a hm; exact ih _ hm
  | @reduce n k _ ih => intro a hm; exact ih _ (tempOnly_compile temp (some n) (some n) a.mgr hm)

theorem drives_same (temp str : ν → Bool) (c : Core ν R) (ds : List (Task ν R)) (s : St ν R) (hm : TempOnly temp s.mgr)
    (hd : ∀ p ∈ subtasksL ds, NoPause p.core.prog) (hl : Late temp c.prog) :
    ∃ r, Drives temp str (gen (.mk c none ds)) s r ∧ Same temp r.1 (runTop temp (.mk c none ds) s).1 ∧
      r.2 = (runTop temp (.mk c none ds) s).2 := by
  have h1 := sendDeps_gens temp ds hd s
  have hm1 := tempOnly_deps temp ds s hm
  have refl : ∀ a : St ν R, Same temp a a := fun a => ⟨rfl, rfl, fun _ _ => rfl⟩
  rcases hr : runDeps temp ds s with ⟨s1, _ | _⟩
  · rw [hr] at h1
    refine ⟨_, .fail (send_fail h1), ?_, ?_⟩
    · simp only [runTop, runTask, hr]; exact refl _
    · simp only [runTop, runTask, hr]
  · rw [hr] at h1 hm1
    simp only [if_true] at h1
    have hrun : runTop temp (.mk c none ds) s = (clear (checkFree temp c (runProg temp c.tid c.prog s1).1), (runProg temp c.tid c.prog s1).2) := by
      simp only [runTop, runTask, hr, runCore, Task.final]
      rcases runProg temp c.tid c.prog s1 with ⟨s2, _ | _⟩ <;> rfl
    rw [hrun]
    rcases goesOn_late temp str c hl s1 hm1 with ⟨s2, hs, g1, g2⟩ | ⟨s2, hs, g1, g2⟩ | ⟨s2, k, hs, r, hr, g1, g2⟩
    · refine ⟨_, .stop (send_stop h1 hs), ?_, g2.symm⟩
      exact same_clear temp (same_free temp c g1)
    · refine ⟨_, .fail (send_raise h1 hs), ?_, g2.symm⟩
      exact same_clear temp (same_free temp c g1)
    · exact ⟨r, .again (send_pause h1 hs) hr, g1, g2⟩

end Verif.Props.StreamLemmas

namespace Verif.Props
open Verif.Tasks Verif.TempMem Verif.Streaming Verif.StreamSpec StreamLemmas

variable {R : Type}

/-- A streaming query inserting in the user's table `out`; `str`: the collections the memory database calls streaming. -/
def Streamed (P : Nat → Prog Name R) (q : Query) (out : Nat) (str : Name → Bool) (db : Name → List R) (r : St Name R × Bool) : Prop :=
  Streams isTmp str (queryTask P q out) db r

/-- **C176**: a streaming statement ends, in exactly one way, whatever its tasks do and whenever they yield. -/
theorem C176_ends (P : Nat → Prog Name R) (q : Query) (out : Nat) (str : Name → Bool) (db : Name → List R) :
    ∃ r, Streamed P q out str db r ∧ ∀ r', Streamed P q out str db r' → r' = r := by
  unfold Streamed Streams
  obtain ⟨r, hr⟩ : ∃ r, Drives isTmp str (gen (queryTask P q out)) { store := db, mgr := start isTmp (queryTask P q out) fun _ => none, log := [] } r := by
    generalize ({ store := db, mgr := start isTmp (queryTask P q out) fun _ => none, log := [] } : St Name R) = s
    cases queryTask P q out with
    | mk c f ds => exact drives_ends isTmp str c f c.prog (gens ds) s
  exact ⟨r, hr, fun r' h => drives_unique isTmp str _ _ h hr⟩

/-- **C176** (full statement: `@streaming` changes nothing of what a statement does; false, see the violations).  Proved: so it is when no
task yields before it has ended. -/
theorem C176_same_partial (P : Nat → Prog Name R) (q : Query) (out : Nat) (str : Name → Bool) (db : Name → List R)
    (h : ∀ t ∈ subtasks (queryTask P q out), NoPause t.core.prog) (r : St Name R × Bool) :
    Streamed P q out str db r ↔ r = runQuery P q out db := by
  have hd := drives_gen isTmp str (queryTask P q out) { store := db, mgr := start isTmp (queryTask P q out) fun _ => none, log := [] } h
  constructor
  · intro hr; exact drives_unique isTmp str _ _ hr hd
  · rintro rfl; exact hd

/-- **C176**: the outermost task may yield wherever it likes, if it reads no temporary collection afterwards and no second pass follows:
the events, success and the user's tables are those of the statement without `@streaming`. -/
theorem C176_outermost_partial (P : Nat → Prog Name R) (q : Query) (out : Nat) (str : Name → Bool) (db : Name → List R)
    (hd : ∀ d ∈ (queryTask P q out).deps, ∀ t ∈ subtasks d, NoPause t.core.prog) (hf : (queryTask P q out).final = none)
    (hl : Late isTmp (queryTask P q out).core.prog) (r : St Name R × Bool) (hr : Streamed P q out str db r) :
    r.1.log = (runQuery P q out db).1.log ∧ r.2 = (runQuery P q out db).2 ∧
      ∀ k, r.1.store (.user k) = (runQuery P q out db).1.store (.user k) := by
  unfold Streamed Streams at hr
  unfold runQuery execQuery
  have hm : TempOnly isTmp (start isTmp (queryTask P q out) fun _ => none) := tempOnly_start isTmp _ _ fun _ _ => rfl
  generalize hs : ({ store := db, mgr := start isTmp (queryTask P q out) fun _ => none, log := [] } : St Name R) = s at hr
  have hm' : TempOnly isTmp s.mgr := by rw [← hs]; exact hm
  clear hs hm
  generalize queryTask P q out = t at hr hd hf hl ⊢
  cases t with
  | mk c f ds =>
    cases hf
    have hsub : ∀ (l : List (Tasks.Task Name R)) (p : Tasks.Task Name R), p ∈ subtasksL l → ∃ d ∈ l, p ∈ subtasks d := by
      intro l p
      induction l with
      | nil => intro h; simp [subtasksL] at h
      | cons d l ih =>
        intro h
        simp only [subtasksL, List.mem_append] at h
        rcases h with h | h
        · exact ⟨d, List.mem_cons_self, h⟩
        · obtain ⟨e, he, h⟩ := ih h; exact ⟨e, List.mem_cons_of_mem _ he, h⟩
    obtain ⟨r', hr', h1, h2⟩ := drives_same isTmp str c ds s hm' (fun p hp => by
      obtain ⟨d, hd', h⟩ := hsub ds p hp
      exact hd d hd' p h) hl
    rw [drives_unique isTmp str _ _ hr hr']
    exact ⟨h1.log, h2, fun k => h1.store _ rfl⟩

/-- **C176**: a SELECT from the user's tables, joins included, without subqueries and without a second pass does the same with
`@streaming`, whenever it yields. -/
theorem C176_tables_partial (P : Nat → Prog Name R) (tables : List Nat) (out : Nat) (str : Name → Bool) (db : Name → List R)
    (hP : ∀ c ∈ cores (queryTask P (.select false false tables []) out), c.Honest) (r : St Name R × Bool)
    (hr : Streamed P (.select false false tables []) out str db r) :
    r.1.log = (runQuery P (.select false false tables []) out db).1.log ∧ r.2 = (runQuery P (.select false false tables []) out db).2 ∧
      ∀ k, r.1.store (.user k) = (runQuery P (.select false false tables []) out db).1.store (.user k) := by
  refine C176_outermost_partial P _ out str db ?_ rfl ?_ r hr
  · intro d hd; cases hd
  · have h := hP (queryTask P (.select false false tables []) out).core (List.mem_flatMap.2 ⟨_, by
      rw [subtasks.eq_def]; exact List.mem_cons_self, List.mem_cons_self⟩)
    have hrd : ∀ n ∈ ((queryTask P (.select false false tables []) out).core.loader.toList ++
        (queryTask P (.select false false tables []) out).core.joins ++
        (queryTask P (.select false false tables []) out).core.outputer.toList), isTmp n = false := by
      intro n hn
      simp only [queryTask, build, buildSubs, Task.core, List.map_nil, List.append_nil, Bool.false_eq_true, if_false,
        List.mem_append, Option.mem_toList, Option.map_eq_some_iff, List.mem_map, Option.toList_some, List.mem_singleton] at hn
      rcases hn with (⟨k, _, rfl⟩ | ⟨k, _, rfl⟩) | rfl <;> rfl
    unfold Core.Honest at h
    generalize ((queryTask P (.select false false tables []) out).core.loader.toList ++
        (queryTask P (.select false false tables []) out).core.joins ++
        (queryTask P (.select false false tables []) out).core.outputer.toList) = rd at h hrd
    have no : ∀ {p : Prog Name R} {wr : List Name}, Touches rd wr p → NoTmpRead isTmp p := by
      intro p wr h
      induction h with
      | done => exact .done
      | raise => exact .raise
      | pause _ ih => exact .pause ih
      | read hn _ ih => exact .read (hrd _ hn) ih
      | write _ _ ih => exact .write ih
      | delete _ _ ih => exact .delete ih
      | reduce _ _ ih => exact .reduce ih
    have late : ∀ {p : Prog Name R}, NoTmpRead isTmp p → Late isTmp p := by
      intro p h
      induction h with
      | done => exact .done
      | raise => exact .raise
      | pause h _ => exact .pause h
      | read _ _ ih => exact .read ih
      | write _ ih => exact .write ih
      | delete _ ih => exact .delete ih
      | reduce _ ih => exact .reduce ih
    exact late (no h)

namespace StreamCases

/-- `INSERT INTO t9 SELECT … FROM (SELECT … FROM t1)`. -/
def nested : Query := .select true false [] [.select false false [1] []]

/-- The subquery writes the row `a`, yields, then writes `b`; the statement copies what the subquery gives. -/
def batches (a b : R) : Nat → Prog Name R
  | 0 => .read (.tmp 3) fun rows => .write (.user 9) rows .done
  | 4 => .read (.user 1) fun _ => .write (.tmp 3) [a] (.pause (.write (.tmp 3) [b] .done))
  | _ => .done

/-- `INSERT INTO t9 SELECT … FROM t1 JOIN (SELECT … FROM t2)`. -/
def joined : Query := .select false false [1] [.select false false [2] []]

/-- The statement reads the table, yields, then reads the joined subquery; the subquery ends in one step. -/
def lookup (a : R) : Nat → Prog Name R
  | 0 => .read (.user 1) fun _ => .pause (.read (.tmp 3) fun rows => .write (.user 9) rows .done)
  | 4 => .read (.user 2) fun _ => .write (.tmp 3) [a] .done
  | _ => .done

/-- As `batches`, with a statement that yields once before it reads. -/
def patient (a b : R) : Nat → Prog Name R
  | 0 => .pause (.read (.tmp 3) fun rows => .write (.user 9) rows .done)
  | n => batches a b n

end StreamCases
open StreamCases

/-- **C176**: a subquery that has yielded goes on where it was: a statement that yields as often as its subquery finds all its rows, when
the database calls the collection streaming. -/
theorem C176_resumed (a b : R) (str : Name → Bool) (db : Name → List R) (hs : str (.tmp 3) = true) (h3 : db (.tmp 3) = [])
    (h9 : db (.user 9) = []) :
    ∃ r, Streamed (patient a b) nested 9 str db r ∧ r.2 = true ∧ r.1.store (.user 9) = [a, b] := by
  refine ⟨_, .again (send_pause (ds1 := _) (s1 := _) (k := _) rfl rfl) (.stop (send_stop (ds1 := _) (s1 := _) rfl rfl)), rfl, ?_⟩
  simp [runFinal, Gen.final, gen, queryTask, build, buildSubs, nested, patient, batches, clear, checkFree, start, startDeps, compileCore, isTmp,
      setStore, St.emit, h3, h9, useCollection, addCollection, put, unuseCollection, freeCollection, clearPaused, hs]

/-- **C176 is violated by a subquery that yields**: the statement goes on with what the subquery has given so far, and when it has ended
the rest is dropped: of two rows only the first arrives.  Without `@streaming` both do. -/
theorem C176_subquery_violated (a b : R) (str : Name → Bool) (db : Name → List R) (h3 : db (.tmp 3) = []) (h9 : db (.user 9) = []) :
    (∃ r, Streamed (batches a b) nested 9 str db r ∧ r.2 = true ∧ r.1.store (.user 9) = [a]) ∧
    (runQuery (batches a b) nested 9 db).2 = true ∧ (runQuery (batches a b) nested 9 db).1.store (.user 9) = [a, b] := by
  refine ⟨⟨_, .stop (send_stop (ds1 := _) (s1 := _) rfl rfl), rfl, ?_⟩, rfl, ?_⟩
  · simp [runFinal, Gen.final, gen, queryTask, build, buildSubs, nested, batches, clear, checkFree, start, startDeps, compileCore, isTmp,
      setStore, St.emit, h3, h9, useCollection, addCollection, put, unuseCollection, freeCollection]
  · simp [runQuery, execQuery, runTop, runTask, runDeps, runCore, runProg, runFinal, queryTask, build, buildSubs, nested, batches, clear,
      checkFree, start, startDeps, compileCore, isTmp, setStore, St.emit, h3, h9, Task.final, useCollection, addCollection, put,
      unuseCollection, freeCollection]

/-- **C176 is violated by a statement that yields before it reads its subquery**: in between the rows of the subquery are deleted, unless
the database calls the collection streaming. -/
theorem C176_cleared_violated (a : R) (str : Name → Bool) (db : Name → List R) (hs : str (.tmp 3) = false) (h3 : db (.tmp 3) = [])
    (h9 : db (.user 9) = []) :
    (∃ r, Streamed (lookup a) joined 9 str db r ∧ r.2 = true ∧ r.1.store (.user 9) = []) ∧
    (runQuery (lookup a) joined 9 db).2 = true ∧ (runQuery (lookup a) joined 9 db).1.store (.user 9) = [a] := by
  refine ⟨⟨_, .again (send_pause (ds1 := _) (s1 := _) (k := _) rfl rfl) (.stop (send_stop (ds1 := _) (s1 := _) rfl rfl)), rfl, ?_⟩, rfl, ?_⟩
  · simp [runFinal, Gen.final, gen, queryTask, build, buildSubs, joined, lookup, clear, checkFree, start, startDeps, compileCore, isTmp,
      setStore, St.emit, h3, h9, useCollection, addCollection, put, unuseCollection, freeCollection, clearPaused, hs]
  · simp [runQuery, execQuery, runTop, runTask, runDeps, runCore, runProg, runFinal, queryTask, build, buildSubs, joined, lookup, clear,
      checkFree, start, startDeps, compileCore, isTmp, setStore, St.emit, h3, h9, Task.final, useCollection, addCollection, put,
      unuseCollection, freeCollection]

/-- **C176**: columns of aggregates without a final step (COUNT, SUM, MAX, MIN …) are the same with `@streaming`. -/
theorem C176_aggregates_partial {ε α σ V : Type} (A : Agg.Calc α σ V) (hasFinal : List Char → Bool) (c : AggCall.Call ε)
    (h : SecondPass.callFinal hasFinal c = false) (rows : List α) : cell A hasFinal true c rows = cell A hasFinal false c rows := by
  have : SecondPass.requireReduce hasFinal 0 (some ⟨[.call c], []⟩) = false := by
    simp [SecondPass.requireReduce, SecondPass.entryFinal, h]
  simp only [cell, this, Bool.false_and]

/-- **C176 is violated by AVG** (and COUNT(DISTINCT), GROUP_CONCAT, every aggregate with a final step): with `@streaming` the column holds
the state of the calculater, the number of rows and their sum, whatever the rows; without, the average. -/
theorem C176_average_violated {ε : Type} (py : Val.Py) (hasFinal : List Char → Bool) (arg : AggCall.This ε) (more : List ε)
    (rows : List Val.Val) (s : Option (Nat × Val.Num)) (h : (Agg.avg py).run none rows = some s) :
    cell (Agg.avg py) hasFinal true (.typed .avg arg more) rows = some (.state s) ∧
    cell (Agg.avg py) hasFinal false (.typed .avg arg more) rows = some (.value ((Agg.avg py).final s)) := by
  constructor <;> simp [cell, h, SecondPass.requireReduce, SecondPass.entryFinal, SecondPass.callFinal]

/-! ### Cases -/

/-- Non-vacuity: a statement that copies its subquery's rows and yields in between, over a subquery that ends in one step. -/
def oneStep : Nat → Prog Name Nat
  | 0 => copyProg (.tmp 3) (.user 9)
  | 4 => .read (.user 1) fun rows => .write (.tmp 3) rows .done
  | _ => .done

example : (∀ d ∈ (queryTask oneStep nested 9).deps, ∀ t ∈ subtasks d, NoPause t.core.prog) ∧ (queryTask oneStep nested 9).final = none ∧
    Late isTmp (queryTask oneStep nested 9).core.prog ∧ (runQuery oneStep nested 9 db66).1.store (.user 9) = [5, 6] := by
  refine ⟨?_, rfl, .read fun _ => .pause (.write .done), by decide +kernel⟩
  intro d hd t ht
  have e : (queryTask oneStep nested 9).deps = [.mk ⟨4, some (.user 1), [], some (.tmp 3), oneStep 4⟩ none []] := rfl
  rw [e] at hd
  simp only [List.mem_singleton] at hd
  subst hd
  simp only [subtasks, subtasksL, List.mem_singleton] at ht
  subst ht
  exact .read fun _ => .write .done

/-- The same with statements that never yield. -/
example : ∀ t ∈ subtasks (queryTask (fun k => if k = 0 then .read (.tmp 3) fun rows => .write (.user 9) rows .done else oneStep k) nested 9),
    NoPause t.core.prog := by
  intro t ht
  have e : subtasks (queryTask (fun k => if k = 0 then .read (.tmp 3) fun rows => .write (.user 9) rows .done else oneStep k) nested 9) =
    [.mk ⟨0, some (.tmp 3), [], some (.user 9), .read (.tmp 3) fun rows => .write (.user 9) rows .done⟩ none
      [.mk ⟨4, some (.user 1), [], some (.tmp 3), oneStep 4⟩ none []],
     .mk ⟨4, some (.user 1), [], some (.tmp 3), oneStep 4⟩ none []] := rfl
  rw [e] at ht
  simp only [List.mem_cons, List.not_mem_nil, or_false] at ht
  rcases ht with rfl | rfl
  · exact .read fun _ => .write .done
  · exact .read fun _ => .write .done

/-- A SELECT from one table that yields between two batches. -/
example : ∀ c ∈ cores (queryTask (fun _ => copyProg (.user 1) (.user 9)) (.select false false [1] []) 9), c.Honest := by
  have h : cores (queryTask (R := Nat) (fun _ => copyProg (.user 1) (.user 9)) (.select false false [1] []) 9) =
    [⟨0, some (.user 1), [], some (.user 9), copyProg (.user 1) (.user 9)⟩] := rfl
  rw [h]
  intro c hc
  simp only [List.mem_singleton] at hc
  subst hc
  exact touches_copy _ _ _ _ (by decide) (by decide)

example : ∃ s, (Agg.avg plainPy).run none [.int 1, .int 3] = some s ∧ cell (Agg.avg plainPy) (fun _ => false) true
    (AggCall.Call.typed .avg (.one ()) []) [.int 1, .int 3] = some (.state s) := ⟨_, rfl, rfl⟩

end Verif.Props
