import Verif.Props.Command
/-! Property theorems C83 (EXECUTE), C84 (EXPLAIN), C85 (USE, SHOW). -/
namespace Verif.Props
open Verif.Val Verif.Env Verif.Command Verif.Spec.Command
open Verif.Config (Cfg setKey)

variable {T Q V S : Type}

namespace Exe

mutual
/-- The executors of the files in a queue. -/
def heads : Job Q → List Nat
  | .query _ => []
  | .into _ _ => []
  | .shell _ => []
  | .file c ts => c.head?.getD 0 :: headsAll ts
def headsAll : List (Job Q) → List Nat
  | [] => []
  | t :: ts => heads t ++ headsAll ts
end

theorem headsAll_append (a b : List (Job Q)) : headsAll (a ++ b) = headsAll a ++ headsAll b := by
  induction a with
  | nil => rfl
  | cons t a ih => simp [headsAll, ih]

/-- What starting a statement can change. -/
structure Frame (ctx : List Nat) (w : World Q V S) (r : World Q V S × Option (List (Job Q))) : Prop where
  store : r.1.store = w.store
  log : r.1.log = w.log
  next : w.env.next ≤ r.1.env.next
  same : ∀ b < w.env.next, b ≠ 0 → b ≠ ctx.head?.getD 0 → Same w r.1 b
  heads : ∀ ts, r.2 = some ts → ∀ h ∈ headsAll ts, w.env.next ≤ h

theorem Frame.refl_none (ctx : List Nat) (w : World Q V S) : Frame ctx w (w, none) :=
  ⟨rfl, rfl, Nat.le_refl _, fun _ _ _ _ => ⟨rfl, rfl⟩, by simp⟩

theorem Frame.refl (ctx : List Nat) (w : World Q V S) (ts : List (Job Q)) (h : headsAll ts = []) : Frame ctx w (w, some ts) :=
  ⟨rfl, rfl, Nat.le_refl _, fun _ _ _ _ => ⟨rfl, rfl⟩, by intro ts' e; cases e; simp [h]⟩

theorem Frame.env (ctx : List Nat) (w : World Q V S) (a : Nat) (ha : a = 0 ∨ a = ctx.head?.getD 0) (k : Key) (v : V)
    (r : Option (List (Job Q))) (h : ∀ ts, r = some ts → headsAll ts = []) : Frame ctx w ({ w with env := w.env.write a k v }, r) := by
  refine ⟨rfl, rfl, Nat.le_refl _, ?_, ?_⟩
  · intro b _ h0 h1
    have : b ≠ a := by rcases ha with rfl | rfl <;> assumption
    exact ⟨by simp [Cmd.dict_write, this], rfl⟩
  · intro ts e; simp [h ts e]

theorem Frame.cfg (L : Lang T Q V S) (ctx : List Nat) (w : World Q V S) (a : Nat) (ha : a = 0 ∨ a = ctx.head?.getD 0) (k : Str) (v : Val)
    (r : Option (List (Job Q))) (h : ∀ ts, r = some ts → headsAll ts = []) : Frame ctx w (setConfig L w a k v, r) := by
  refine ⟨rfl, rfl, Nat.le_refl _, ?_, ?_⟩
  · intro b _ h0 h1
    have : b ≠ a := by rcases ha with rfl | rfl <;> assumption
    exact ⟨rfl, by simp [setConfig, this]⟩
  · intro ts e; simp [h ts e]

theorem Frame.define (L : Lang T Q V S) (ctx : List Nat) (w : World Q V S) (x : Key) (r : Option (List (Job Q)))
    (h : ∀ ts, r = some ts → headsAll ts = []) : Frame ctx w (define L ctx w x, r) := by
  have h0 : Frame ctx w (w, r) := ⟨rfl, rfl, Nat.le_refl _, fun _ _ _ _ => ⟨rfl, rfl⟩, by intro ts e; simp [h ts e]⟩
  unfold Command.define
  cases ctx with
  | nil => exact h0
  | cons a as =>
    simp only
    split
    · exact h0
    · exact Frame.env _ w a (Or.inr rfl) x _ r h

theorem frame_set (L : Lang T Q V S) (ctx : List Nat) (w : World Q V S) (text : Str) : Frame ctx w (startSet L ctx w text) := by
  have hn : ∀ ts : List (Job Q), some ([] : List (Job Q)) = some ts → headsAll ts = [] := by intro ts e; cases e; rfl
  unfold startSet
  simp only
  split
  · exact Frame.refl_none _ _
  · exact Frame.cfg L ctx w 0 (Or.inl rfl) _ _ _ (by simp)
  · exact Frame.cfg L ctx w _ (Or.inr rfl) _ _ _ hn
  · exact Frame.env ctx w 0 (Or.inl rfl) _ _ _ hn
  · exact Frame.env ctx w _ (Or.inr rfl) _ _ _ hn
  · split
    · split
      · exact Frame.define L ctx w _ _ (by intro ts e; cases e; rfl)
      · exact Frame.refl_none _ _
    · exact Frame.refl_none _ _

theorem frame_use (L : Lang T Q V S) (ctx : List Nat) (w : World Q V S) (text : Str) : Frame ctx w (startUse L ctx w text) := by
  unfold startUse
  split
  · exact Frame.refl_none _ _
  · split
    · exact Frame.refl _ _ [] rfl
    · split
      · exact Frame.refl_none _ _
      · exact Frame.cfg L ctx w _ (Or.inr rfl) _ _ _ (by intro ts e; cases e; rfl)

theorem frame_all (L : Lang T Q V S) (n : Nat) (hs : ∀ ctx w s, Frame ctx w (start L n ctx w s)) (ss : List T) :
    ∀ ctx w, Frame ctx w (startAll L n ctx w ss) := by
  induction ss with
  | nil => intro ctx w; rw [startAll]; exact Frame.refl _ _ [] rfl
  | cons t ss ih =>
    intro ctx w
    rw [startAll]
    split
    · exact Frame.refl_none _ _
    · next s _ =>
      have f1 := hs ctx w s
      split
      · next w' e => rw [e] at f1; exact f1
      · next w' ts e =>
        rw [e] at f1
        have f2 := ih ctx w'
        have base : ∀ r2, startAll L n ctx w' ss = r2 → r2.1.store = w.store ∧ r2.1.log = w.log ∧ w.env.next ≤ r2.1.env.next ∧
            ∀ b < w.env.next, b ≠ 0 → b ≠ ctx.head?.getD 0 → Same w r2.1 b := by
          intro r2 e2
          rw [e2] at f2
          refine ⟨f2.store.trans f1.store, f2.log.trans f1.log, Nat.le_trans f1.next f2.next, ?_⟩
          intro b hb h0 h1
          have s1 := f1.same b hb h0 h1
          have s2 := f2.same b (Nat.lt_of_lt_of_le hb f1.next) h0 h1
          exact ⟨s2.1.trans s1.1, s2.2.trans s1.2⟩
        split
        · next w'' ts' e2 =>
          obtain ⟨b1, b2, b3, b4⟩ := base _ e2
          rw [e2] at f2
          refine ⟨b1, b2, b3, b4, ?_⟩
          intro tt ett h hm
          cases ett
          rw [headsAll_append] at hm
          rcases List.mem_append.1 hm with hm | hm
          · exact f1.heads ts rfl h hm
          · exact Nat.le_trans f1.next (f2.heads ts' rfl h hm)
        · next w'' e2 =>
          obtain ⟨b1, b2, b3, b4⟩ := base _ e2
          exact ⟨b1, b2, b3, b4, by simp⟩

theorem child_next (L : Lang T Q V S) (ctx : List Nat) (w : World Q V S) :
    (child L ctx w).1.env.next = w.env.next + 1 ∧ (child L ctx w).2 = w.env.next :: ctx ∧ (child L ctx w).1.store = w.store ∧
    (child L ctx w).1.log = w.log ∧ ∀ b < w.env.next, Same w (child L ctx w).1 b := by
  refine ⟨rfl, rfl, rfl, rfl, ?_⟩
  intro b hb
  have : b ≠ w.env.next := by omega
  exact ⟨by simp [child, newContext, this], by simp [child, this]⟩

/-- EXECUTE changes no session that was there, except the global one. -/
theorem frame_execute (L : Lang T Q V S) (n : Nat) (hs : ∀ ctx w s, Frame ctx w (start L n ctx w s)) (ctx ctx' : List Nat)
    (w : World Q V S) (f : Str) : Frame ctx' w (start L (n + 1) ctx w (.execute f)) := by
  obtain ⟨c1, c2, c3, c4, c5⟩ := child_next L ctx w
  rw [start]
  split
  · simp only
    split
    · exact ⟨c3, c4, by simp [c1], fun b hb _ _ => c5 b hb, by simp⟩
    · next ss _ =>
      have f2 := frame_all L n hs ss (child L ctx w).2 (child L ctx w).1
      have base : ∀ r2, startAll L n (child L ctx w).2 (child L ctx w).1 ss = r2 →
          r2.1.store = w.store ∧ r2.1.log = w.log ∧ w.env.next ≤ r2.1.env.next ∧
          ∀ b < w.env.next, b ≠ 0 → Same w r2.1 b := by
        intro r2 e2
        rw [e2] at f2
        refine ⟨f2.store.trans c3, f2.log.trans c4, Nat.le_trans (by omega) f2.next, ?_⟩
        intro b hb h0
        have s1 := c5 b hb
        have s2 := f2.same b (by omega) h0 (by rw [c2]; simp; omega)
        exact ⟨s2.1.trans s1.1, s2.2.trans s1.2⟩
      split
      · next w' ts e2 =>
        obtain ⟨b1, b2, b3, b4⟩ := base _ e2
        rw [e2] at f2
        refine ⟨b1, b2, b3, fun b hb h0 _ => b4 b hb h0, ?_⟩
        intro tt ett h hm
        cases ett
        simp only [headsAll, heads, List.append_nil, List.mem_cons] at hm
        rcases hm with rfl | hm
        · rw [c2]; simp
        · have := f2.heads ts rfl h hm
          omega
      · next w' e2 =>
        obtain ⟨b1, b2, b3, b4⟩ := base _ e2
        exact ⟨b1, b2, b3, fun b hb h0 _ => b4 b hb h0, by simp⟩
  · split
    · simp only
      split
      · exact ⟨c3, c4, by simp [c1], fun b hb _ _ => c5 b hb, by simp⟩
      · refine ⟨c3, c4, by simp [c1], fun b hb _ _ => c5 b hb, ?_⟩
        intro tt ett h hm
        cases ett
        simp [headsAll, heads, c2] at hm
        omega
    · exact Frame.refl _ _ _ rfl

theorem frame_start (L : Lang T Q V S) (n : Nat) : ∀ ctx w s, Frame ctx w (start L n ctx w s) := by
  have common : ∀ n ctx w s, (∀ f, s ≠ Stmt.execute f) → Frame ctx w (start L n ctx w s) := by
    intro n ctx w s hx
    cases s with
    | query q => rw [start]; exact Frame.refl _ _ _ rfl
    | into q x => rw [start]; exact Frame.define L ctx w x _ (by intro ts e; cases e; rfl)
    | delete q => rw [start]; exact Frame.refl _ _ _ rfl
    | set t => rw [start]; exact frame_set L ctx w t
    | use t => rw [start]; exact frame_use L ctx w t
    | «show» t => rw [start]; exact Frame.refl _ _ _ rfl
    | execute f => exact absurd rfl (hx f)
    | explain s =>
      cases s with
      | query q => rw [start]; exact Frame.refl _ _ _ rfl
      | _ => rw [start]; exact Frame.refl_none _ _; try simp
  induction n with
  | zero =>
    intro ctx w s
    cases s with
    | execute f => rw [start]; exact Frame.refl_none _ _
    | _ => exact common _ _ _ _ (by simp)
  | succ n ih =>
    intro ctx w s
    cases s with
    | execute f => exact frame_execute L n ih ctx ctx w f
    | _ => exact common _ _ _ _ (by simp)

mutual
/-- What running changes. -/
theorem runTask_same (L : Lang T Q V S) (ctx : List Nat) (w : World Q V S) (t : Job Q) (b : Nat) (h0 : b ≠ ctx.head?.getD 0)
    (hb : b ∉ heads t) : Same w (runTask L ctx w t).1 b := by
  cases t with
  | query q => exact ⟨rfl, rfl⟩
  | into q x =>
    rw [runTask]
    simp only
    split
    · exact ⟨rfl, rfl⟩
    · exact ⟨by simp [Cmd.dict_write, h0], rfl⟩
  | shell c => exact ⟨rfl, rfl⟩
  | file c ts =>
    rw [runTask]
    simp only [heads, List.mem_cons, not_or] at hb
    exact runTasks_same L c w ts b hb.1 hb.2
theorem runTasks_same (L : Lang T Q V S) (ctx : List Nat) (w : World Q V S) (ts : List (Job Q)) (b : Nat) (h0 : b ≠ ctx.head?.getD 0)
    (hb : b ∉ headsAll ts) : Same w (runTasks L ctx w ts).1 b := by
  cases ts with
  | nil => exact ⟨rfl, rfl⟩
  | cons t ts =>
    simp only [headsAll, List.mem_append, not_or] at hb
    have h1 := runTask_same L ctx w t b h0 hb.1
    rw [runTasks]
    split
    · next w' e =>
      rw [e] at h1
      have h2 := runTasks_same L ctx w' ts b h0 hb.2
      exact ⟨h2.1.trans h1.1, h2.2.trans h1.2⟩
    · next w' e => rw [e] at h1; exact h1
end

mutual
theorem runTask_log (L : Lang T Q V S) (ctx : List Nat) (w : World Q V S) (t : Job Q) :
    ((runTask L ctx w t).2 = true → (runTask L ctx w t).1.log = w.log ++ events ctx t) ∧
    ((runTask L ctx w t).2 = false → ∃ p e r, events ctx t = p ++ e :: r ∧ (runTask L ctx w t).1.log = w.log ++ (p ++ [e])) := by
  cases t with
  | query q =>
    refine ⟨fun _ => rfl, fun _ => ⟨[], .query ctx q, [], rfl, rfl⟩⟩
  | into q x =>
    rw [runTask]
    simp only
    split
    · exact ⟨fun h => by simp at h, fun _ => ⟨[], .into ctx q x, [], rfl, rfl⟩⟩
    · exact ⟨fun _ => rfl, fun h => by simp at h⟩
  | shell c => exact ⟨fun _ => rfl, fun h => by simp [runTask] at h⟩
  | file c ts =>
    rw [runTask, events]
    exact runTasks_log L c w ts
theorem runTasks_log (L : Lang T Q V S) (ctx : List Nat) (w : World Q V S) (ts : List (Job Q)) :
    ((runTasks L ctx w ts).2 = true → (runTasks L ctx w ts).1.log = w.log ++ eventsAll ctx ts) ∧
    ((runTasks L ctx w ts).2 = false → ∃ p e r, eventsAll ctx ts = p ++ e :: r ∧ (runTasks L ctx w ts).1.log = w.log ++ (p ++ [e])) := by
  cases ts with
  | nil => exact ⟨fun _ => by simp [runTasks, eventsAll], fun h => by simp [runTasks] at h⟩
  | cons t ts =>
    have h1 := runTask_log L ctx w t
    rw [runTasks, eventsAll]
    split
    · next w' e =>
      rw [e] at h1
      have h1' := h1.1 rfl
      have h2 := runTasks_log L ctx w' ts
      constructor
      · intro h; rw [h2.1 h, h1', List.append_assoc]
      · intro h
        obtain ⟨p, ev, r, e1, e2⟩ := h2.2 h
        exact ⟨events ctx t ++ p, ev, r, by rw [e1]; simp, by rw [e2, h1']; simp⟩
    · next w' e =>
      rw [e] at h1
      refine ⟨fun h => by simp at h, fun _ => ?_⟩
      obtain ⟨p, ev, r, e1, e2⟩ := h1.2 rfl
      exact ⟨p, ev, r ++ eventsAll ctx ts, by rw [e1]; simp, e2⟩
end

end Exe
open Exe

namespace Exe

theorem execute_jobs (L : Lang T Q V S) (n : Nat) (ctx : List Nat) (w w' : World Q V S) (f : Str) (js : List (Job Q))
    (h : start L n ctx w (.execute f) = (w', some js)) :
    js = [.shell f] ∨ ∃ tf, js = [.file (w.env.next :: ctx) tf] ∧
      (isSqlFile f = true → ∃ m ss, n = m + 1 ∧ L.files f = some ss ∧
        startAll L m (w.env.next :: ctx) (child L ctx w).1 ss = (w', some tf)) := by
  cases n with
  | zero => rw [start] at h; simp at h
  | succ n =>
    rw [start] at h
    split at h
    · simp only at h
      split at h
      · simp at h
      · next ss hss =>
        split at h
        · next w'' ts e =>
          simp only [Prod.mk.injEq, Option.some.injEq] at h
          obtain ⟨rfl, rfl⟩ := h
          exact Or.inr ⟨ts, rfl, fun _ => ⟨n, ss, rfl, hss, e⟩⟩
        · simp at h
    · next hf =>
      split at h
      · simp only at h
        split at h
        · simp at h
        · simp only [Prod.mk.injEq, Option.some.injEq] at h
          exact Or.inr ⟨_, h.2.symm, fun hh => absurd hh hf⟩
      · simp only [Prod.mk.injEq, Option.some.injEq] at h
        exact Or.inl h.2.symm

theorem startAll_append (L : Lang T Q V S) (n : Nat) (ctx : List Nat) (s1 s2 : List T) : ∀ (w w' : World Q V S) (ts : List (Job Q)),
    startAll L n ctx w (s1 ++ s2) = (w', some ts) → ∃ w1 t1 t2, startAll L n ctx w s1 = (w1, some t1) ∧
      startAll L n ctx w1 s2 = (w', some t2) ∧ ts = t1 ++ t2 := by
  induction s1 with
  | nil =>
    intro w w' ts h
    exact ⟨w, [], ts, by rw [startAll], h, rfl⟩
  | cons t s1 ih =>
    intro w w' ts h
    rw [List.cons_append, startAll] at h
    split at h
    · simp at h
    · next s hs =>
      split at h
      · simp at h
      · next w1 ta e1 =>
        split at h
        · next w2 tb e2 =>
          obtain ⟨w3, t1, t2, h1, h2, h3⟩ := ih _ _ _ e2
          simp only [Prod.mk.injEq, Option.some.injEq] at h
          refine ⟨w3, ta ++ t1, t2, ?_, ?_, ?_⟩
          · rw [startAll, hs]; simp only [e1, h1]
          · rw [← h.1]; exact h2
          · rw [← h.2, h3, List.append_assoc]
        · simp at h

theorem eventsAll_append (ctx : List Nat) (a b : List (Job Q)) : eventsAll ctx (a ++ b) = eventsAll ctx a ++ eventsAll ctx b := by
  induction a with
  | nil => rfl
  | cons t a ih => simp [eventsAll, ih]

theorem startAll_none (L : Lang T Q V S) (n : Nat) (s1 s2 : List T) (t : T) (s : Stmt Q) (hc : ∀ ch, L.compile ch t = some s)
    (hs : ∀ ctx w, (start L n ctx w s).2 = none) : ∀ ctx w, (startAll L n ctx w (s1 ++ t :: s2)).2 = none := by
  induction s1 with
  | nil =>
    intro ctx w
    rw [List.nil_append, startAll, hc]
    simp only
    have := hs ctx w
    split
    · rfl
    · next e => rw [e] at this; simp at this
  | cons a s1 ih =>
    intro ctx w
    rw [List.cons_append, startAll]
    split
    · rfl
    · split
      · rfl
      · next w1 ts e1 =>
        have := ih ctx w1
        split
        · next e => rw [e] at this; simp at this
        · rfl

end Exe

/-- **C83**, isolation: EXECUTE, and later running what it queued, leave the variables and the settings of every session that was
there before as they were, the caller's included (the global ones excepted: SET GLOBAL). -/
theorem C83_isolation (L : Lang T Q V S) (n : Nat) (ctx : List Nat) (w w' : World Q V S) (f : Str) (js : List (Job Q))
    (h : start L n ctx w (.execute f) = (w', some js)) (b : Nat) (hb : b < w.env.next) (h0 : b ≠ 0) :
    Same w w' b ∧ Same w (runTasks L ctx w' js).1 b := by
  have hw : Same w w' b := by
    cases n with
    | zero => rw [start] at h; simp at h
    | succ n =>
      have := frame_execute L n (frame_start L n) ctx [0] w f
      rw [h] at this
      exact this.same b hb h0 (by simpa using h0)
  have hh : ∀ h ∈ headsAll js, w.env.next ≤ h := by
    have := frame_start L n ctx w (.execute f)
    rw [h] at this
    exact this.heads js rfl
  refine ⟨hw, ?_⟩
  have hr : Same w' (runTasks L ctx w' js).1 b := by
    rcases execute_jobs L n ctx w w' f js h with rfl | ⟨tf, rfl, _⟩
    · exact ⟨rfl, rfl⟩
    · have hs : Same w' (runTasks L (w.env.next :: ctx) w' tf).1 b := by
        refine runTasks_same L _ w' tf b (by simp; omega) ?_
        intro hm
        have := hh b (by simp [headsAll, heads, hm])
        omega
      rw [runTasks, runTask]
      split
      · next e => rw [e] at hs; exact hs
      · next e => rw [e] at hs; exact hs
  exact ⟨hr.1.trans hw.1, hr.2.trans hw.2⟩

/-- **C83**, inheritance: the file begins with the caller's variables. -/
theorem C83_inherits (L : Lang T Q V S) (ctx : List Nat) (w : World Q V S) (hctx : ∀ a ∈ ctx, a < w.env.next) (k : Key) :
    getValue ((child L ctx w).1.env.chain (child L ctx w).2) k = getValue (w.env.chain ctx) k := by
  have e : (child L ctx w).1.env.chain (child L ctx w).2 = [] :: w.env.chain ctx := by
    simp only [child, newContext, Heap.chain, List.map_cons, if_true, List.cons.injEq, true_and]
    apply List.map_congr_left
    intro b hb
    have := hctx b hb
    have : b ≠ w.env.next := by omega
    simp [this]
  rw [e, getValue_cons]
  simp only [Dict.get?_nil]
  split <;> rfl

/-- **C83**, order: when a script with EXECUTE of an SQL file runs without failing, the statements of the file run after those before
the EXECUTE and before those after it, in the order of the file. -/
theorem C83_in_place (L : Lang T Q V S) (n : Nat) (ctx : List Nat) (w w' : World Q V S) (s1 s2 : List T) (t : T) (g f : Str)
    (ts : List (Job Q)) (hf : f = g ++ ".sql".toList ∨ f = g ++ ".sqlx".toList ∨ f = g ++ ".prql".toList)
    (hc : ∀ ch, L.compile ch t = some (.execute f))
    (h : startAll L n ctx w (s1 ++ t :: s2) = (w', some ts)) :
    ∃ c t1 tf t2 m w1 w2 w3 ss, ts = t1 ++ .file c tf :: t2 ∧ startAll L n ctx w s1 = (w1, some t1) ∧
      L.files f = some ss ∧ startAll L m c w2 ss = (w3, some tf) ∧ startAll L n ctx w3 s2 = (w', some t2) ∧
      ((runTasks L ctx w' ts).2 = true →
        (runTasks L ctx w' ts).1.log = w.log ++ eventsAll ctx t1 ++ eventsAll c tf ++ eventsAll ctx t2) := by
  have hsql : isSqlFile f = true := by
    rcases hf with rfl | rfl | rfl <;> simp [isSqlFile, endsWith]
  have hlog : w'.log = w.log := by
    have := (frame_all L n (frame_start L n) (s1 ++ t :: s2) ctx w).log
    rw [h] at this
    exact this
  obtain ⟨w1, t1, t', h1, h2, rfl⟩ := startAll_append L n ctx s1 (t :: s2) w w' ts h
  rw [startAll, hc] at h2
  simp only at h2
  split at h2
  · simp at h2
  · next wx ta ex =>
    split at h2
    · next wy tb ey =>
      simp only [Prod.mk.injEq, Option.some.injEq] at h2
      obtain ⟨rfl, rfl⟩ := h2
      rcases execute_jobs L n ctx w1 wx f ta ex with rfl | ⟨tf, rfl, hx⟩
      · cases n with
        | zero => rw [start] at ex; simp at ex
        | succ n =>
          rw [start, if_pos hsql] at ex
          simp only at ex
          split at ex
          · simp at ex
          · split at ex
            · simp at ex
            · simp at ex
      · obtain ⟨m, ss, rfl, hss, hm⟩ := hx hsql
        refine ⟨_, t1, tf, tb, m, w1, _, wx, ss, rfl, h1, hss, hm, ey, ?_⟩
        intro hr
        rw [(runTasks_log L ctx wy _).1 hr, hlog]
        simp [eventsAll_append, eventsAll, events]
    · simp at h2

namespace Exe
/-- An example: statements are given, queries leave their number; `a.sql` sets a variable, asks 1 and 2. -/
def exL : Lang (Stmt Nat) Nat Val (List Nat) where
  py := ⟨fun _ => none, fun _ => none, fun _ => []⟩
  ofVal := id
  D := []
  loads := fun _ => none
  compile := fun _ t => some t
  selectOf := fun _ => none
  files := fun f => if f = "a.sql".toList then some [.set "@x = 5".toList, .query 1, .query 2] else none
  jsons := fun _ => none
  importable := fun _ => true
  pathExists := fun _ => false
  query := fun q _ s => (s ++ [q], true)
  value := fun q _ s => (s, some (.int q))

def exW : World Nat Val (List Nat) := ⟨⟨fun _ => [], 2⟩, fun _ => [], [], []⟩

theorem says_x : Says "@x = 5".toList "@x".toList "5".toList := by
  refine ⟨⟨by decide, by decide, by decide⟩, by decide, ⟨by decide, by decide, by decide⟩, [], [' '], [' '], [], rfl, ?_⟩
  simp [isBlank]

theorem ex_set (ctx : List Nat) (a : Nat) (w : World Nat Val (List Nat)) : ∃ w', startSet exL (a :: ctx) w "@x = 5".toList = (w', some []) := by
  obtain ⟨w', h, _⟩ := C82_set_variable exL a ctx w "@x = 5".toList "x".toList "5".toList (.int 5) says_x
    ⟨by decide, by decide⟩ (by decide +kernel)
  exact ⟨w', h⟩

end Exe

/-- A script that meets the hypotheses of `C83_in_place` and runs. -/
example : ∃ w' ts, startAll exL 3 [1, 0] exW [.query 0, .execute "a.sql".toList, .query 3] = (w', some ts) ∧
    (runTasks exL [1, 0] w' ts).2 = true ∧ eventsAll [1, 0] ts = [.query [1, 0] 0, .query [2, 1, 0] 1, .query [2, 1, 0] 2, .query [1, 0] 3] := by
  obtain ⟨w1, h1⟩ := ex_set [1, 0] 2 (child exL [1, 0] exW).1
  have hc : (child exL [1, 0] exW).2 = [2, 1, 0] := rfl
  have hf : exL.files "a.sql".toList = some [.set "@x = 5".toList, .query 1, .query 2] := by unfold exL; rfl
  have hs : isSqlFile "a.sql".toList = true := by decide +kernel
  have hfile : startAll exL 2 [2, 1, 0] (child exL [1, 0] exW).1 [.set "@x = 5".toList, .query 1, .query 2] =
      (w1, some [.query 1, .query 2]) := by
    have hset : start exL 2 [2, 1, 0] (child exL [1, 0] exW).1 (.set "@x = 5".toList) = (w1, some []) := by rw [start]; exact h1
    have hq : ∀ (w : World Nat Val (List Nat)) i, start exL 2 [2, 1, 0] w (.query i) = (w, some [.query i]) := by intro w i; rw [start]
    have hcomp : ∀ ch t, exL.compile ch t = some t := fun _ _ => rfl
    simp only [startAll, hcomp, hq, hset, List.singleton_append, List.append_nil, List.nil_append]
  have hex : start exL 3 [1, 0] exW (.execute "a.sql".toList) = (w1, some [.file [2, 1, 0] [.query 1, .query 2]]) := by
    rw [start, if_pos hs]
    simp only [hf, hc, hfile]
  refine ⟨w1, [.query 0, .file [2, 1, 0] [.query 1, .query 2], .query 3], ?_, ?_, rfl⟩
  · have hq : ∀ (w : World Nat Val (List Nat)) i, start exL 3 [1, 0] w (.query i) = (w, some [.query i]) := by intro w i; rw [start]
    have hcomp : ∀ ch t, exL.compile ch t = some t := fun _ _ => rfl
    simp only [startAll, hcomp, hq, hex, List.singleton_append, List.append_nil]
  · simp [runTasks, runTask, exL]

/-- **C83**: a file of queries runs exactly these, each once. -/
theorem C83_queries (L : Lang T Q V S) (n : Nat) (c : List Nat) (w : World Q V S) (q : T → Q) (ss : List T)
    (hc : ∀ t ∈ ss, ∀ ch, L.compile ch t = some (.query (q t))) :
    ∃ tf, startAll L n c w ss = (w, some tf) ∧ eventsAll c tf = ss.map fun t => .query c (q t) := by
  induction ss with
  | nil => exact ⟨[], by rw [startAll], rfl⟩
  | cons t ss ih =>
    obtain ⟨tf, h1, h2⟩ := ih (fun t ht => hc t (by simp [ht]))
    refine ⟨.query (q t) :: tf, ?_, by simp [eventsAll, events, h2]⟩
    rw [startAll, hc t (by simp), ]
    simp only [start, h1, List.singleton_append]

/-- **C83**: when a file cannot be read or one of its statements is refused, none of its statements runs, and no session is
changed but the global one. -/
theorem C83_refused_file (L : Lang T Q V S) (n : Nat) (ctx : List Nat) (w : World Q V S) (f : Str)
    (h : (start L n ctx w (.execute f)).2 = none) :
    (start L n ctx w (.execute f)).1.store = w.store ∧ (start L n ctx w (.execute f)).1.log = w.log ∧
    ∀ b < w.env.next, b ≠ 0 → Same w (start L n ctx w (.execute f)).1 b := by
  have hf := frame_start L n ctx w (.execute f)
  refine ⟨hf.store, hf.log, ?_⟩
  intro b hb h0
  cases n with
  | zero => rw [start]; exact ⟨rfl, rfl⟩
  | succ n => exact (frame_execute L n (frame_start L n) ctx [0] w f).same b hb h0 (by simpa using h0)

/-- **C83**: after a failure nothing else runs, neither the rest of the file nor the rest of the script. -/
theorem C83_failure_stops (L : Lang T Q V S) (ctx : List Nat) (w : World Q V S) (ts : List (Job Q))
    (h : (runTasks L ctx w ts).2 = false) :
    ∃ done failed rest, eventsAll ctx ts = done ++ failed :: rest ∧ (runTasks L ctx w ts).1.log = w.log ++ (done ++ [failed]) :=
  (runTasks_log L ctx w ts).2 h

/-- **C83**: a file that executes itself is refused, whatever the depth of the stack. -/
theorem C83_self_execution (L : Lang T Q V S) (f : Str) (hf : isSqlFile f = true) (s1 s2 : List T) (t : T)
    (hfile : L.files f = some (s1 ++ t :: s2)) (hc : ∀ ch, L.compile ch t = some (.execute f)) (n : Nat) :
    ∀ (ctx : List Nat) (w : World Q V S), (start L n ctx w (.execute f)).2 = none := by
  induction n with
  | zero => intro ctx w; rw [start]
  | succ n ih =>
    intro ctx w
    have := startAll_none L n s1 s2 t (.execute f) hc ih (child L ctx w).2 (child L ctx w).1
    rw [start, if_pos hf]
    simp only [hfile]
    split
    · next e => rw [e] at this; simp at this
    · rfl

/-- **C98** (violated): a name with any other ending is not refused but handed to the shell. -/
theorem C98_shell_violated (L : Lang T Q V S) (n : Nat) (ctx : List Nat) (w : World Q V S) (f : Str) (h1 : isSqlFile f = false)
    (h2 : endsWith f ".json".toList = false) :
    start L (n + 1) ctx w (.execute f) = (w, some [.shell f]) ∧ (runTasks L ctx w [.shell f]).1.log = w.log ++ [.shell f] := by
  constructor
  · rw [start, h1, h2]; rfl
  · simp [runTasks, runTask]

example : isSqlFile "report.SQL".toList = false ∧ endsWith "report.SQL".toList ".json".toList = false ∧
    isSqlFile "a.sql".toList = true := by decide +kernel

/-- **C84** (violated): EXPLAIN of a query has the query's effects. -/
theorem C84_explain_violated (L : Lang T Q V S) (n : Nat) (ctx : List Nat) (w : World Q V S) (q : Q) :
    start L n ctx w (.explain (.query q)) = start L n ctx w (.query q) ∧
    ∃ js, (start L n ctx w (.explain (.query q))).2 = some js ∧
      (runTasks L ctx w js).1.store = (L.query q (w.env.chain ctx) w.store).1 := by
  refine ⟨by rw [start, start], [.query q], by rw [start], ?_⟩
  cases hq : (L.query q (w.env.chain ctx) w.store).2 <;> simp [runTasks, runTask, hq]

/-- **C84**: EXPLAIN of any other statement is refused and changes nothing. -/
theorem C84_explain_others_partial (L : Lang T Q V S) (n : Nat) (ctx : List Nat) (w : World Q V S) (s : Stmt Q)
    (hs : ∀ q, s ≠ .query q) : start L n ctx w (.explain s) = (w, none) := by
  cases s with
  | query q => exact absurd rfl (hs q)
  | _ => rw [start]; try simp

namespace Exe

theorem setConfig_import (L : Lang T Q V S) (w : World Q V S) (a : Nat) (x m : Str) (hx : '.' ∉ x) (k : Str)
    (hk : k = "imports.".toList ++ x) : OnlyConfig w (setConfig L w a k (.str m)) ∧
      (∀ b ≠ a, (setConfig L w a k (.str m)).own b = w.own b) ∧
      (setConfig L w a k (.str m)).own a = setKey L.loads (w.own a) ["imports".toList, x] (some (.str m)) := by
  have hp : pathOf k = ["imports".toList, x] := by
    have e : k = Str.join ['.'] ["imports".toList, x] := hk
    rw [e]
    exact splitGo_join '.' "imports".toList [x] (by
      intro y hy
      rcases List.mem_cons.1 hy with rfl | hy
      · decide
      · rw [List.mem_singleton.1 hy]; exact hx)
  refine ⟨⟨rfl, rfl, rfl⟩, fun b hb => if_neg hb, ?_⟩
  show (if a = a then setKey L.loads (w.own a) (pathOf k) (toJ (.str m)) else w.own a) = _
  rw [if_pos rfl, hp]
  rfl

theorem noblank_infix (m : Str) (h : ' ' ∉ m) : ¬ " as ".toList <:+: m := by
  rintro ⟨x, y, e⟩
  apply h
  rw [← e]
  simp

theorem first_as (m x : Str) (h : ' ' ∉ m) : Text.FirstOcc " as ".toList (m ++ " as ".toList ++ x) m x := by
  refine ⟨rfl, ?_⟩
  intro i hi hp
  obtain ⟨y, hy⟩ := hp
  rw [List.append_assoc, List.drop_append_of_le_length (by omega)] at hy
  have h1 : (m.drop i).head? = some ' ' := by
    cases hd : m.drop i with
    | nil => have := congrArg List.length hd; simp at this; omega
    | cons c t =>
      rw [hd] at hy
      have : ' ' = c := (List.cons.inj hy).1
      simp [← this]
  apply h
  have := List.mem_of_mem_head? (by rw [h1]; simp : ' ' ∈ (m.drop i).head?)
  exact List.mem_of_mem_drop this

end Exe

/-- **C85**, USE: the module is known under the name after ` as `, or under the last part of its own name, in this session; nothing
else changes.  (The module can be imported and is no path; names without blanks.) -/
theorem C85_use (L : Lang T Q V S) (n a : Nat) (as : List Nat) (w : World Q V S) (m : Str) (hm : Trim m) (hb : ' ' ∉ m)
    (hi : L.importable m = true) (hp : L.pathExists m = false) :
    (∀ x, Trim x → ' ' ∉ x → '.' ∉ x →
      ∃ w', start L n (a :: as) w (.use (m ++ " as ".toList ++ x)) = (w', some []) ∧ OnlyConfig w w' ∧ (∀ b ≠ a, w'.own b = w.own b) ∧
        w'.own a = setKey L.loads (w.own a) ["imports".toList, x] (some (.str m))) ∧
    (∀ p ps x, m = Str.join ['.'] (p :: ps) → (∀ y ∈ p :: ps, '.' ∉ y) → (p :: ps).getLast? = some x →
      ∃ w', start L n (a :: as) w (.use m) = (w', some []) ∧ OnlyConfig w w' ∧ (∀ b ≠ a, w'.own b = w.own b) ∧
        w'.own a = setKey L.loads (w.own a) ["imports".toList, x] (some (.str m))) := by
  have hstrip : ∀ s, Trim s → strip s = s := fun s hs => by simpa using Cmd.strip_around [] s [] (by simp) (by simp) hs
  constructor
  · intro x hx hxb hxdot
    refine ⟨setConfig L w a ("imports.".toList ++ x) (.str m), ?_, setConfig_import L w a x m hxdot _ rfl⟩
    rw [start, startUse, splitGo_first _ (by decide) _ _ _ _ (first_as m x hb), splitGo_noOcc _ (by decide) _ _ (noblank_infix x hxb)]
    simp only [List.reverse_nil, List.nil_append, List.map_cons, List.map_nil, hstrip m hm, hstrip x hx, hm.1, if_false, hi, hp,
      Bool.true_eq_false, Bool.false_eq_true, List.head?_cons, Option.getD_some]
  · intro p ps x e hdots hlast
    have hxdot : '.' ∉ x := hdots x (List.mem_of_getLast? hlast)
    refine ⟨setConfig L w a ("imports.".toList ++ x) (.str m), ?_, setConfig_import L w a x m hxdot _ rfl⟩
    have hpath : (pathOf m).getLast? = some x := by
      rw [e, ← hlast]
      exact congrArg List.getLast? (splitGo_join '.' p ps hdots)
    rw [start, startUse, splitGo_noOcc _ (by decide) _ _ (noblank_infix m hb)]
    simp only [List.reverse_nil, List.nil_append, List.map_cons, List.map_nil, hstrip m hm, hm.1, if_false, hi, hp,
      Bool.true_eq_false, Bool.false_eq_true, List.head?_cons, Option.getD_some, hpath]

/-- **C103** (violated): a file that exists but cannot be imported under its path is not usable as a source, and ` AS ` in capitals is
taken for part of the module's name. -/
theorem C103_use_violated (L : Lang T Q V S) (n : Nat) (ctx : List Nat) (w : World Q V S) (m : Str) (hm : Trim m)
    (hno : ¬ " as ".toList <:+: m) (hi : L.importable m = false) : start L n ctx w (.use m) = (w, none) := by
  have hstrip : strip m = m := by simpa using Cmd.strip_around [] m [] (by simp) (by simp) hm
  rw [start, startUse, splitGo_noOcc _ (by decide) _ _ hno]
  simp [hstrip, hm.1, hi]

/-- **C85**, SHOW changes nothing and queues nothing. -/
theorem C85_show (L : Lang T Q V S) (n : Nat) (ctx : List Nat) (w : World Q V S) (text : Str) :
    start L n ctx w (.show text) = (w, some []) := by rw [start]

end Verif.Props
