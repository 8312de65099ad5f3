import Verif.Spec.Prompt
import Verif.Props.Executor
import Verif.Props.Parser
import Verif.Proofs.RawSql
/-! C153 (the interactive loop) and C154 (leaving it). -/
namespace Verif.Props.PromptLemmas
open Verif.Exec Verif.Prompt Verif.PromptSpec Verif.Parser

variable {σ Task : Type}

/-! ### The ghost log does not matter -/

/-- The same state with the log put before. -/
def logged (l : List (Task × Outcome)) (x : State σ Task) : State σ Task := { x with log := l ++ x.log }

theorem step_logged (m : Machine σ Stmt Task) (l) (x : State σ Task) :
    step m (logged l x) = (logged l (step m x).1, (step m x).2) := by
  obtain ⟨w, rs, g⟩ := x
  cases rs with
  | nil => rfl
  | cons t q =>
    simp only [step, logged]
    rcases hm : m.run t w with ⟨w, o⟩
    cases o <;> simp

theorem executes_logged (m : Machine σ Stmt Task) (l) {x y : State σ Task} {s : Status} (h : Executes m x y s) :
    Executes m (logged l x) (logged l y) s := by
  induction h with
  | returned h => exact .returned (by rw [step_logged, h])
  | raised h => exact .raised (by rw [step_logged, h])
  | next h _ ih => exact .next (by rw [step_logged, h]) ih

theorem executes_unlogged (m : Machine σ Stmt Task) (l) {x' y' : State σ Task} {s : Status} (h : Executes m x' y' s) :
    ∀ x, x' = logged l x → ∃ y, y' = logged l y ∧ Executes m x y s := by
  induction h with
  | returned h =>
    rintro x rfl
    rw [step_logged] at h
    injection h with h1 h2
    exact ⟨_, h1.symm, .returned (by rw [← h2])⟩
  | raised h =>
    rintro x rfl
    rw [step_logged] at h
    injection h with h1 h2
    exact ⟨_, h1.symm, .raised (by rw [← h2])⟩
  | next h _ ih =>
    rintro x rfl
    rw [step_logged] at h
    injection h with h1 h2
    obtain ⟨y, e, hy⟩ := ih _ h1.symm
    exact ⟨y, e, .next (by rw [← h2]) hy⟩

theorem iterates_logged (m : Machine σ Stmt Task) (l) {x y : State σ Task} (h : Iterates m x y) :
    Iterates m (logged l x) (logged l y) := by
  induction h with
  | here => exact .here _
  | next h _ ih => exact .next (by rw [step_logged, h]) ih

theorem iterates_unlogged (m : Machine σ Stmt Task) (l) {x' y' : State σ Task} (h : Iterates m x' y') :
    ∀ x, x' = logged l x → ∃ y, y' = logged l y ∧ Iterates m x y := by
  induction h with
  | here => rintro x rfl; exact ⟨x, rfl, .here _⟩
  | next h _ ih =>
    rintro x rfl
    rw [step_logged] at h
    injection h with h1 h2
    obtain ⟨y, e, hy⟩ := ih _ h1.symm
    exact ⟨y, e, .next (by rw [← h2]) hy⟩

/-! ### Reading the line -/

theorem strip_spec (isS : Char → Bool) (s : List Char) : ∃ a b, s = a ++ strip isS s ++ b ∧ (∀ c ∈ a, isS c = true) ∧ (∀ c ∈ b, isS c = true) := by
  refine ⟨s.takeWhile isS, ((s.dropWhile isS).reverse.takeWhile isS).reverse, ?_, ?_, ?_⟩
  · have h1 := List.takeWhile_append_dropWhile (p := isS) (l := s)
    have h2 := List.takeWhile_append_dropWhile (p := isS) (l := (s.dropWhile isS).reverse)
    have h3 := congrArg List.reverse h2
    rw [List.reverse_append, List.reverse_reverse] at h3
    rw [strip, List.append_assoc, h3, h1]
  · intro c hc
    exact List.all_eq_true.1 (List.all_takeWhile) c hc
  · intro c hc
    exact List.all_eq_true.1 (List.all_takeWhile) c (List.mem_reverse.1 hc)

theorem dropWhile_first (isS : Char → Bool) (s : List Char) (c : Char) (h : (s.dropWhile isS).head? = some c) : isS c = false := by
  induction s with
  | nil => cases h
  | cons x s ih =>
    rw [List.dropWhile_cons] at h
    split at h
    · exact ih h
    · next hx => simp only [List.head?_cons, Option.some.injEq] at h; subst h; simpa using hx

theorem strip_last (isS : Char → Bool) (s : List Char) (c : Char) (h : (strip isS s).getLast? = some c) : isS c = false := by
  unfold strip at h
  rw [List.getLast?_reverse] at h
  exact dropWhile_first isS _ c h

theorem strip_first (isS : Char → Bool) (s : List Char) (c : Char) (h : (strip isS s).head? = some c) : isS c = false := by
  have hp : strip isS s <+: s.dropWhile isS := by
    have h1 := List.dropWhile_suffix isS (l := (s.dropWhile isS).reverse)
    have h2 := List.reverse_prefix.2 h1
    rwa [List.reverse_reverse] at h2
  obtain ⟨r, hr⟩ := hp
  cases hs : strip isS s with
  | nil => rw [hs] at h; cases h
  | cons x xs =>
    rw [hs] at h hr
    exact dropWhile_first isS s c (by rw [← hr]; exact h)

theorem isText_iff (o : Outside σ Task) (t text : List Char) : IsText o t text ↔ strip o.isSpace t = text ∧ text ≠ [] := by
  constructor
  · rintro ⟨a, b, rfl, ha, hb, hne, h1, h2⟩
    refine ⟨?_, hne⟩
    rw [List.append_assoc]
    exact RawSql.strip_blanks ha hb ⟨fun c h => h1 c h, fun c h => h2 c h⟩
  · rintro ⟨rfl, hne⟩
    obtain ⟨a, b, e, ha, hb⟩ := strip_spec o.isSpace t
    exact ⟨a, b, e, ha, hb, hne, fun c h => strip_first _ _ c h, fun c h => strip_last _ _ c h⟩

theorem blank_iff (o : Outside σ Task) (t : List Char) : (∀ c ∈ t, o.isSpace c = true) ↔ strip o.isSpace t = [] := by
  constructor
  · intro h
    have := RawSql.strip_blanks (isS := o.isSpace) (w1 := t) (w2 := []) (s := []) h (by simp) ⟨by simp, by simp⟩
    rw [List.nil_append, List.append_nil] at this
    exact this
  · intro h
    obtain ⟨a, b, e, ha, hb⟩ := strip_spec o.isSpace t
    rw [h] at e
    intro c hc
    rw [e] at hc
    simp only [List.append_nil, List.mem_append] at hc
    exact hc.elim (ha c) (hb c)

/-! ### One turn -/

theorem run_one (m : Machine σ Stmt Task) (x : State σ Task) (q : Stmt) : run m x [q] =
    match m.start q x.world with
    | (w, some ts) => ({ x with world := w, runners := x.runners ++ ts }, true)
    | (w, none) => ({ x with world := w }, false) := rfl

/-- With an empty queue, the statement acts as alone. -/
theorem refused_iff (m : Machine σ Stmt Task) (x y : State σ Task) (q : Stmt) (h : run m x [q] = (y, false)) :
    m.start q x.world = (y.world, none) ∧ y = { x with world := y.world } := by
  rw [run_one] at h
  rcases hs : m.start q x.world with ⟨w, _ | ts⟩
  · rw [hs] at h; simp only [Prod.mk.injEq, and_true] at h; subst h; exact ⟨rfl, rfl⟩
  · rw [hs] at h; simp at h

theorem accepted_iff (m : Machine σ Stmt Task) (x y : State σ Task) (q : Stmt) (hr : x.runners = []) (h : run m x [q] = (y, true)) :
    ∃ ts, m.start q x.world = (y.world, some ts) ∧ y = logged x.log ⟨y.world, ts, []⟩ := by
  rw [run_one] at h
  rcases hs : m.start q x.world with ⟨w, _ | ts⟩
  · rw [hs] at h; simp at h
  · rw [hs] at h
    simp only [Prod.mk.injEq, and_true] at h
    subst h
    exact ⟨ts, rfl, by simp [logged, hr]⟩

theorem kind_cons (o : Outside σ Task) {t : List Char} {c : Char} {r : List Char} (h : strip o.isSpace t = c :: r) : kind o t =
    if (o.lower (c :: r)).take 4 = ['e', 'x', 'i', 't'] then .exit
    else if c = '!' then .system r
    else if c = '%' then .magic r
    else .sql (c :: r) := by
  unfold kind; rw [h]

theorem kind_cases (o : Outside σ Task) (t : List Char) :
    (strip o.isSpace t = [] ∧ kind o t = .blank) ∨
    ∃ c r, strip o.isSpace t = c :: r ∧
      (((o.lower (c :: r)).take 4 = ['e', 'x', 'i', 't'] ∧ kind o t = .exit) ∨
       ((o.lower (c :: r)).take 4 ≠ ['e', 'x', 'i', 't'] ∧
        ((c = '!' ∧ kind o t = .system r) ∨ (c = '%' ∧ kind o t = .magic r) ∨ (c ≠ '!' ∧ c ≠ '%' ∧ kind o t = .sql (c :: r))))) := by
  cases h : strip o.isSpace t with
  | nil => left; exact ⟨rfl, by unfold kind; rw [h]⟩
  | cons c r =>
    right
    refine ⟨c, r, rfl, ?_⟩
    rw [kind_cons o h]
    by_cases h1 : (o.lower (c :: r)).take 4 = ['e', 'x', 'i', 't']
    · left; exact ⟨h1, if_pos h1⟩
    · right
      refine ⟨h1, ?_⟩
      rw [if_neg h1]
      by_cases h2 : c = '!'
      · left; exact ⟨h2, if_pos h2⟩
      · rw [if_neg h2]
        by_cases h3 : c = '%'
        · right; left; exact ⟨h3, if_pos h3⟩
        · right; right; exact ⟨h2, h3, if_neg h3⟩

/-- Whether the loop goes on. -/
def goes : Ctl → Bool
  | .go => true
  | .exit => false

/-- One turn with an empty queue is one event of the specification, and leaves the queue empty. -/
theorem act_of_turn (m : Machine σ Stmt Task) (o : Outside σ Task) {s s' : PState σ Task} {e : Event} {c : Ctl} (h : Turn m o s e s' c)
    (hr : s.x.runners = []) : s'.x.runners = [] ∧ Act m o s.x.world s.lineno e s'.x.world s'.lineno (goes c) := by
  cases h with
  | interrupt => exact ⟨hr, .interrupt _ _⟩
  | eof => exact ⟨hr, .eof _ _⟩
  | blank t hk =>
    refine ⟨hr, .blank _ _ ?_⟩
    rcases kind_cases o t with ⟨e, _⟩ | ⟨c, r, hs, ⟨_, e⟩ | ⟨_, ⟨_, e⟩ | ⟨_, e⟩ | ⟨_, _, e⟩⟩⟩
    · exact (blank_iff o t).2 e
    all_goals (rw [hk] at e; cases e)
  | exit t hk =>
    refine ⟨hr, ?_⟩
    rcases kind_cases o t with ⟨_, e⟩ | ⟨c, r, hs, ⟨h, e⟩ | ⟨_, ⟨_, e⟩ | ⟨_, e⟩ | ⟨_, _, e⟩⟩⟩
    · rw [hk] at e; cases e
    · exact .exit _ _ ((isText_iff o t _).2 ⟨hs, by simp⟩) h
    all_goals (rw [hk] at e; cases e)
  | system t cmd hk =>
    refine ⟨hr, ?_⟩
    rcases kind_cases o t with ⟨_, e⟩ | ⟨c, r, hs, ⟨h, e⟩ | ⟨h, ⟨rfl, e⟩ | ⟨_, e⟩ | ⟨_, _, e⟩⟩⟩
    · rw [hk] at e; cases e
    · rw [hk] at e; cases e
    · rw [hk] at e; cases e
      exact .system _ _ ((isText_iff o t _).2 ⟨hs, by simp⟩) h
    all_goals (rw [hk] at e; cases e)
  | magic t cmd hk =>
    refine ⟨hr, ?_⟩
    rcases kind_cases o t with ⟨_, e⟩ | ⟨c, r, hs, ⟨h, e⟩ | ⟨h, ⟨_, e⟩ | ⟨rfl, e⟩ | ⟨_, _, e⟩⟩⟩
    · rw [hk] at e; cases e
    · rw [hk] at e; cases e
    · rw [hk] at e; cases e
    · rw [hk] at e; cases e
      have ht := (isText_iff o t _).2 ⟨hs, by simp⟩
      by_cases hc : o.lower (cmd.take 3) = ['c', 'd', ' ']
      · simp only [magic, if_pos hc]
        exact .chdir _ _ ht h hc
      · simp only [magic, if_neg hc]
        exact .unknown _ _ ht h hc
    · rw [hk] at e; cases e
  | refused t q y hk hrun =>
    obtain ⟨h1, h2⟩ := refused_iff m s.x y _ hrun
    refine ⟨by rw [h2]; exact hr, ?_⟩
    rcases kind_cases o t with ⟨_, e⟩ | ⟨c, r, hs, ⟨h, e⟩ | ⟨h, ⟨_, e⟩ | ⟨_, e⟩ | ⟨hc1, hc2, e⟩⟩⟩
    · rw [hk] at e; cases e
    · rw [hk] at e; cases e
    · rw [hk] at e; cases e
    · rw [hk] at e; cases e
    · rw [hk] at e; cases e
      exact Act.sql (ok := false) _ _ ((isText_iff o t _).2 ⟨hs, by simp⟩) h (by simpa using hc1) (by simpa using hc2) (.refused h1)
  | executed t q y z st hk hrun hx =>
    obtain ⟨ts, h1, h2⟩ := accepted_iff m s.x y _ hr hrun
    refine ⟨rfl, ?_⟩
    rcases kind_cases o t with ⟨_, e⟩ | ⟨c, r, hs, ⟨h, e⟩ | ⟨h, ⟨_, e⟩ | ⟨_, e⟩ | ⟨hc1, hc2, e⟩⟩⟩
    · rw [hk] at e; cases e
    · rw [hk] at e; cases e
    · rw [hk] at e; cases e
    · rw [hk] at e; cases e
    · rw [hk] at e; cases e
      obtain ⟨z', rfl, hz⟩ := executes_unlogged m s.x.log hx _ h2
      have ha : Alone m o (c :: r, s.lineno) s.x.world z'.world true := .executed h1 hz
      exact Act.sql (ok := true) _ _ ((isText_iff o t _).2 ⟨hs, by simp⟩) h (by simpa using hc1) (by simpa using hc2) ha
  | broken t q y z j js w hk hrun hi hj hb =>
    obtain ⟨ts, h1, h2⟩ := accepted_iff m s.x y _ hr hrun
    refine ⟨rfl, ?_⟩
    rcases kind_cases o t with ⟨_, e⟩ | ⟨c, r, hs, ⟨h, e⟩ | ⟨h, ⟨_, e⟩ | ⟨_, e⟩ | ⟨hc1, hc2, e⟩⟩⟩
    · rw [hk] at e; cases e
    · rw [hk] at e; cases e
    · rw [hk] at e; cases e
    · rw [hk] at e; cases e
    · rw [hk] at e; cases e
      obtain ⟨z', rfl, hz⟩ := iterates_unlogged m s.x.log hi _ h2
      exact Act.sql (ok := true) _ _ ((isText_iff o t _).2 ⟨hs, by simp⟩) h (by simpa using hc1) (by simpa using hc2)
        (.broken h1 hz hj hb)

theorem kind_of_text (o : Outside σ Task) {t text : List Char} (h : IsText o t text) : ∃ c r, text = c :: r ∧ kind o t =
    if (o.lower text).take 4 = ['e', 'x', 'i', 't'] then .exit
    else if c = '!' then .system r
    else if c = '%' then .magic r
    else .sql text := by
  obtain ⟨hs, hne⟩ := (isText_iff o t text).1 h
  cases text with
  | nil => exact absurd rfl hne
  | cons c r => exact ⟨c, r, rfl, kind_cons o hs⟩

/-- And conversely. -/
theorem turn_of_act (m : Machine σ Stmt Task) (o : Outside σ Task) {w w' : σ} {n n' : Nat} {e : Event} {b : Bool}
    (h : Act m o w n e w' n' b) (l : List (Task × Outcome)) :
    ∃ l' c, goes c = b ∧ Turn m o ⟨⟨w, [], l⟩, n⟩ e ⟨⟨w', [], l'⟩, n'⟩ c := by
  cases h with
  | eof => exact ⟨l, .exit, rfl, .eof _⟩
  | interrupt => exact ⟨l, .go, rfl, .interrupt _⟩
  | blank _ _ h =>
    refine ⟨l, .go, rfl, .blank _ _ ?_⟩
    unfold kind
    rw [(blank_iff o _).1 h]
  | exit _ _ h he =>
    obtain ⟨c, r, e, hk⟩ := kind_of_text o h
    exact ⟨l, .exit, rfl, .exit _ _ (by rw [hk, if_pos he])⟩
  | @system t cmd _ _ h he =>
    obtain ⟨c, r, e, hk⟩ := kind_of_text o h
    cases e
    exact ⟨l, .go, rfl, .system ⟨⟨w, [], l⟩, n⟩ t cmd (by rw [hk, if_neg he]; rfl)⟩
  | @chdir t cmd _ _ h he hc =>
    obtain ⟨c, r, e, hk⟩ := kind_of_text o h
    cases e
    have := Turn.magic (m := m) (o := o) ⟨⟨w, [], l⟩, n⟩ t cmd (by rw [hk, if_neg he]; rfl)
    simp only [magic, if_pos hc] at this
    exact ⟨l, .go, rfl, this⟩
  | @unknown t cmd _ _ h he hc =>
    obtain ⟨c, r, e, hk⟩ := kind_of_text o h
    cases e
    have := Turn.magic (m := m) (o := o) ⟨⟨w, [], l⟩, n⟩ t cmd (by rw [hk, if_neg he]; rfl)
    simp only [magic, if_neg hc] at this
    exact ⟨l, .go, rfl, this⟩
  | @sql t text _ ok _ _ h he h1 h2 ha =>
    obtain ⟨c, r, e, hk⟩ := kind_of_text o h
    have hk : kind o t = .sql text := by
      subst e
      rw [hk, if_neg he, if_neg (by simpa using h1), if_neg (by simpa using h2)]
    cases ha with
    | refused hs =>
      refine ⟨l, .go, rfl, .refused ⟨⟨w, [], l⟩, n⟩ t text ⟨w', [], l⟩ hk ?_⟩
      rw [run_one, hs]
    | @executed w1 ts z st hs hx =>
      refine ⟨l ++ z.log, .go, rfl, ?_⟩
      refine .executed ⟨⟨w, [], l⟩, n⟩ t text (logged l ⟨w1, ts, []⟩) (logged l z) st hk ?_ (executes_logged m l hx)
      rw [run_one, hs]
      simp [logged]
    | @broken w1 ts z j js w' hs hi hj hb =>
      refine ⟨l ++ z.log, .go, rfl, ?_⟩
      refine .broken ⟨⟨w, [], l⟩, n⟩ t text (logged l ⟨w1, ts, []⟩) (logged l z) j js w' hk ?_ (iterates_logged m l hi) hj hb
      rw [run_one, hs]
      simp [logged]

end Verif.Props.PromptLemmas

namespace Verif.Props
open Verif.Exec Verif.Prompt Verif.PromptSpec Verif.Parser PromptLemmas

variable {σ Task : Type}

/-- **C153**: whatever the user types, interrupts and breaks off, a session from an empty queue ends in exactly the worlds that giving
each statement alone to a new executor, one after the other, ends in; the queue is empty again whenever the prompt is shown. -/
theorem C153_statements_act_alone (m : Machine σ Stmt Task) (o : Outside σ Task) (w : σ) (n : Nat) (es : List Event) (w' : σ) (n' : Nat) :
    (∃ s, Session m o ⟨⟨w, [], []⟩, n⟩ es s ∧ s.x.world = w' ∧ s.lineno = n') ↔ Sees m o w n es w' n' := by
  constructor
  · rintro ⟨s, h, rfl, rfl⟩
    have key : ∀ {s s' : PState σ Task} {es : List Event}, Session m o s es s' → s.x.runners = [] →
        Sees m o s.x.world s.lineno es s'.x.world s'.lineno := by
      intro s s' es h
      induction h with
      | nil => intro _; exact .nil _ _
      | stop ht => intro hr; exact .last _ (act_of_turn m o ht hr).2
      | more ht _ ih =>
        intro hr
        obtain ⟨a, b⟩ := act_of_turn m o ht hr
        exact .more b (ih a)
    exact key h rfl
  · have key : ∀ {w n es w' n'}, Sees m o w n es w' n' → ∀ l, ∃ s, Session m o ⟨⟨w, [], l⟩, n⟩ es s ∧ s.x.world = w' ∧ s.lineno = n' := by
      intro w n es w' n' h
      induction h with
      | nil w n => intro l; exact ⟨_, .nil _, rfl, rfl⟩
      | last es ha =>
        intro l
        obtain ⟨l', c, hc, ht⟩ := turn_of_act m o ha l
        cases c with
        | go => cases hc
        | exit => exact ⟨_, .stop ht, rfl, rfl⟩
      | more ha _ ih =>
        intro l
        obtain ⟨l', c, hc, ht⟩ := turn_of_act m o ha l
        cases c with
        | exit => cases hc
        | go =>
          obtain ⟨s, h1, h2⟩ := ih l'
          exact ⟨s, .more ht h1, h2⟩
    exact fun h => key h []

/-- **C153**: the queue is empty whenever the prompt is shown. -/
theorem C153_queue_empty (m : Machine σ Stmt Task) (o : Outside σ Task) {s s' : PState σ Task} {es : List Event} (h : Session m o s es s')
    (hr : s.x.runners = []) : s'.x.runners = [] := by
  induction h with
  | nil => exact hr
  | stop ht => exact (act_of_turn m o ht hr).1
  | more ht _ ih => exact ih (act_of_turn m o ht hr).1

/-- **C153**: nothing typed after `exit` (or the end of the input) has any effect. -/
theorem C153_nothing_after_exit (m : Machine σ Stmt Task) (o : Outside σ Task) (s : PState σ Task) (t text : List Char) (es : List Event)
    (h : IsText o t text) (he : (o.lower text).take 4 = ['e', 'x', 'i', 't']) (s' : PState σ Task) :
    Session m o s (.line t :: es) s' ↔ s' = s := by
  obtain ⟨c, r, e, hk⟩ := kind_of_text o h
  rw [if_pos he] at hk
  constructor
  · intro h
    cases h with
    | stop ht => cases ht; rfl
    | more ht _ => cases ht <;> simp_all
  · rintro rfl
    exact .stop (.exit _ _ hk)

namespace PromptLemmas

/-- A machine that writes down the texts it executes; `bad` is refused, `err` fails when it runs. -/
def demoPrompt : Machine (List (List Char)) Stmt (List Char) where
  start q w := if q.1 = ['b', 'a', 'd'] then (w, none) else (w, some [q.1])
  run t w := if t = ['e', 'r', 'r'] then (w, .fail) else (w ++ [t], .done)

/-- ASCII blanks and case. -/
def demoOutside : Outside (List (List Char)) (List Char) where
  isSpace c := c = ' '
  lower := List.map Char.toLower
  system c w := w ++ ['!' :: c]
  chdir _ w := w
  broken _ _ _ := False

theorem demo_text (s : List Char) (h : s ≠ []) (h1 : ∀ c ∈ s.head?, c ≠ ' ') (h2 : ∀ c ∈ s.getLast?, c ≠ ' ') :
    IsText demoOutside (' ' :: s) s :=
  ⟨[' '], [], by simp, by simp [demoOutside], by simp, h, fun c hc => by simpa [demoOutside] using h1 c hc,
    fun c hc => by simpa [demoOutside] using h2 c hc⟩

end PromptLemmas

/-- Non-vacuity for C153: a statement, one that is refused, one that fails, another statement, `Exit`, and a text after it. -/
example : ∃ s, Session demoPrompt demoOutside ⟨⟨[], [], []⟩, 1⟩
    [.line [' ', 'a'], .line [' ', 'b', 'a', 'd'], .line [' ', 'e', 'r', 'r'], .interrupt, .line [' ', 'b'],
     .line [' ', 'E', 'x', 'i', 't'], .line [' ', 'c']] s ∧ s.x.world = [['a'], ['b']] ∧ s.lineno = 4 := by
  rw [C153_statements_act_alone]
  refine .more (.sql (ok := true) _ _ (demo_text ['a'] (by simp) (by simp) (by simp)) (by decide) (by decide) (by decide)
    (.executed (z := ⟨[['a']], [], [(['a'], .done)]⟩) (st := .returned) rfl (.next rfl (.returned rfl)))) ?_
  refine .more (.sql (ok := false) _ _ (demo_text ['b', 'a', 'd'] (by simp) (by simp) (by simp)) (by decide) (by decide) (by decide)
    (.refused rfl)) ?_
  refine .more (.sql (ok := true) _ _ (demo_text ['e', 'r', 'r'] (by simp) (by simp) (by simp)) (by decide) (by decide) (by decide)
    (.executed (z := ⟨[['a']], [], [(['e', 'r', 'r'], .fail)]⟩) (st := .raised) rfl (.raised rfl))) ?_
  refine .more (.interrupt _ _) ?_
  refine .more (.sql (ok := true) _ _ (demo_text ['b'] (by simp) (by simp) (by simp)) (by decide) (by decide) (by decide)
    (.executed (z := ⟨[['a'], ['b']], [], [(['b'], .done)]⟩) (st := .returned) rfl (.next rfl (.returned rfl)))) ?_
  exact .last _ (.exit _ _ (demo_text ['E', 'x', 'i', 't'] (by simp) (by simp) (by simp)) (by decide))

/-! ## C154 -/

/-- **C154** (full statement: typing `exit` in any case at the prompt leaves it; false, see `C154_capitals_violated`).  Proved: with
`exit` in small letters, whatever follows, the text is submitted at once and ends the session.  Missing: capitals without `;`. -/
theorem C154_exit_partial (o : Outside σ Task) (t text : List Char) (h : IsText o t text) (he : text.take 4 = "exit".toList)
    (hl : (o.lower text).take 4 = "exit".toList) : needsMoreInput o.isSpace t = false ∧ kind o t = .exit := by
  obtain ⟨hs, hne⟩ := (isText_iff o t text).1 h
  refine ⟨C49_prompt_submits_commands _ _ (.inr (.inl (by rw [hs, he]))), ?_⟩
  obtain ⟨c, r, e, hk⟩ := kind_of_text o h
  rw [hk]
  exact if_pos hl

/-- **C154 is violated**: `exit` written with a capital, without a `;` behind it, is an exit command to the loop, but the prompt never
submits it: it asks for more lines. -/
theorem C154_capitals_violated (o : Outside σ Task) (t text : List Char) (h : IsText o t text) (he : text.take 4 ≠ "exit".toList)
    (hl : (o.lower text).take 4 = "exit".toList) (hq : text.head? ≠ some '!' ∧ text.head? ≠ some '%')
    (hs : ¬ Script.OccursOutside Script.isQuote [';'] text) : kind o t = .exit ∧ needsMoreInput o.isSpace t = true := by
  obtain ⟨hst, hne⟩ := (isText_iff o t text).1 h
  obtain ⟨c, r, e, hk⟩ := kind_of_text o h
  refine ⟨by rw [hk]; exact if_pos hl, ?_⟩
  have := (C49_prompt_submits_iff o.isSpace t (by rw [hst]; exact hne) (by rw [hst]; exact he) (by rw [hst]; exact hq.1)
    (by rw [hst]; exact hq.2))
  rw [hst] at this
  cases hn : needsMoreInput o.isSpace t with
  | true => rfl
  | false => exact absurd (this.1 hn) hs

/-- Non-vacuity: `EXIT`. -/
example : kind demoOutside [' ', 'E', 'X', 'I', 'T'] = .exit ∧ needsMoreInput demoOutside.isSpace [' ', 'E', 'X', 'I', 'T'] = true := by
  decide +kernel

end Verif.Props
