import Verif.Model.Engine
/-! Property theorems C56 (embedding API), C61 (command line), C62 (task taskNumbers). -/
namespace Verif.Props
open Verif.Engine

section
variable {D : Type}

/-! ## C56 -/

/-- A freshEngine engine. -/
def freshEngine : St D := {}

/-- Specification: what the table `n` holds after a history of calls with their results: everything pushed successfully since it was
last emptied. -/
def pushedSince (n : Name) : List (Call D × Res D) → List D :=
  List.foldl (fun l c => match c with
    | (.push m a, .done) => if m = n then l ++ (match a with | .one d => [d] | .many ds => ds) else l
    | (.pop m, _) => if m = n then [] else l
    | (.ctxPop m, _) => if m = n then [] else l
    | (.close, _) => []
    | _ => l) []

theorem engine_run_append (ok : Bool) (s : St D) (a b : List (Call D)) :
    run ok s (a ++ b) = ((run ok (run ok s a).1 b).1, (run ok s a).2 ++ (run ok (run ok s a).1 b).2) := by
  induction a generalizing s with
  | nil => rfl
  | cons c a ih => simp only [List.cons_append, run, ih]

theorem engine_run_length (ok : Bool) (s : St D) (a : List (Call D)) : (run ok s a).2.length = a.length := by
  induction a generalizing s with
  | nil => rfl
  | cons c a ih => simp only [run, List.length_cons, ih]

/-- A history with its results. -/
def traceOf (ok : Bool) (h : List (Call D)) : List (Call D × Res D) := h.zip (run ok freshEngine h).2

theorem engine_trace_snoc (ok : Bool) (h : List (Call D)) (c : Call D) :
    traceOf ok (h ++ [c]) = traceOf ok h ++ [(c, (step ok (run ok freshEngine h).1 c).2)] := by
  unfold traceOf
  rw [engine_run_append, List.zip_append (by rw [engine_run_length])]
  rfl

theorem engine_state_snoc (ok : Bool) (h : List (Call D)) (c : Call D) :
    (run ok freshEngine (h ++ [c])).1 = (step ok (run ok freshEngine h).1 c).1 := by rw [engine_run_append]; rfl

theorem stored_snoc (n : Name) (t : List (Call D × Res D)) (c : Call D × Res D) :
    pushedSince n (t ++ [c]) = match c with
      | (.push m a, .done) => if m = n then pushedSince n t ++ (match a with | .one d => [d] | .many ds => ds) else pushedSince n t
      | (.pop m, _) => if m = n then [] else pushedSince n t
      | (.ctxPop m, _) => if m = n then [] else pushedSince n t
      | (.close, _) => []
      | _ => pushedSince n t := by
  unfold pushedSince
  rw [List.foldl_append]
  rfl

theorem snoc_ind {β : Type} {P : List β → Prop} (nil : P []) (snoc : ∀ l a, P l → P (l ++ [a])) (l : List β) : P l := by
  have h : ∀ r : List β, P r.reverse := by
    intro r
    induction r with
    | nil => exact nil
    | cons a r ih => rw [List.reverse_cons]; exact snoc _ _ ih
  simpa using h l.reverse

/-- The tables of a ready engine are as specified; an engine that is not ready stores nothing. -/
theorem mem_inv (ok : Bool) (h : List (Call D)) :
    let s := (run ok freshEngine h).1
    (s.config = false → s.ready = false) ∧
    (s.ready = true → ∀ n, s.mem n = pushedSince n (traceOf ok h)) ∧
    (s.ready = false → ∀ n, pushedSince n (traceOf ok h) = []) ∧
    (s.ready = false → s.config = true → ∀ n, s.mem n = []) := by
  induction h using snoc_ind with
  | nil => simp [run, freshEngine, traceOf, pushedSince]
  | snoc h c ih =>
    simp only
    rw [engine_trace_snoc, engine_state_snoc]
    simp only [stored_snoc]
    generalize (run ok freshEngine h).1 = s at ih
    generalize traceOf ok h = t at ih
    obtain ⟨i0, i1, i2, i3⟩ := ih
    obtain ⟨cf, rd, ini, mem, cur, stp⟩ := s
    have flip : ∀ (m n : Name), (n = m) = (m = n) := fun m n => propext ⟨Eq.symm, Eq.symm⟩
    cases c with
    | get n => simp only [step, getMem]; split <;> exact ⟨i0, i1, i2, i3⟩
    | ctxGet n => simp only [step, getMem]; split <;> exact ⟨i0, i1, i2, i3⟩
    | pop m =>
      cases rd with
      | false => simp_all [step, popMem]
      | true =>
        simp only [step, popMem] at i0 i1 ⊢
        rw [if_neg (by simp)]
        refine ⟨i0, fun _ n => ?_, fun h => by simp at h, fun h => by simp at h⟩
        simp only [flip m n, i1 trivial n]
    | ctxPop m =>
      cases rd with
      | false => simp_all [step, popMem]
      | true =>
        simp only [step, popMem] at i0 i1 ⊢
        rw [if_neg (by simp)]
        refine ⟨i0, fun _ n => ?_, fun h => by simp at h, fun h => by simp at h⟩
        simp only [flip m n, i1 trivial n]
    | push m a =>
      cases rd with
      | true =>
        simp only [step, pushMem, setup] at i0 i1 ⊢
        simp only [if_true]
        refine ⟨i0, fun _ n => ?_, fun h => by simp at h, fun h => by simp at h⟩
        simp only [flip m n, i1 trivial n]
        cases a <;> rfl
      | false =>
        cases cf with
        | false => simp_all [step, pushMem, setup]
        | true =>
          cases ok with
          | false => simp_all [step, pushMem, setup]
          | true =>
            simp only [step, pushMem, setup] at i2 i3 ⊢
            simp only [Bool.false_eq_true, Bool.true_eq_false, if_false, if_true]
            refine ⟨fun h => by simp at h, fun _ n => ?_, fun h => by simp at h, fun h => by simp at h⟩
            simp only [flip m n, i2 trivial n, i3 trivial trivial n]
            cases a <;> rfl
    | ctxPush m a => exact ⟨i0, i1, i2, i3⟩
    | modPush m a => exact ⟨i0, i1, i2, i3⟩
    | use => cases rd <;> cases cf <;> cases ok <;> simp_all [step, setup]
    | enter c => exact ⟨i0, i1, i2, i3⟩
    | exit => exact ⟨i0, i1, i2, i3⟩
    | terminal =>
      simp only [step, terminal]
      split
      · exact ⟨i0, i1, i2, i3⟩
      · split <;> exact ⟨i0, i1, i2, i3⟩
      · exact ⟨i0, i1, i2, i3⟩
    | close => simp [step]

/-- **C56**: after every history of calls, reading a memory table (from the engine or from a context) returns what was pushed
successfully since it was last emptied, in order, and changes nothing; emptying it returns the same. -/
theorem C56_memory (ok : Bool) (h : List (Call D)) (n : Name) :
    let s := (run ok freshEngine h).1
    step ok s (.get n) = (s, .rows (pushedSince n (traceOf ok h))) ∧
    step ok s (.ctxGet n) = (s, .rows (pushedSince n (traceOf ok h))) ∧
    (step ok s (.pop n)).2 = .rows (pushedSince n (traceOf ok h)) ∧
    (step ok s (.ctxPop n)).2 = .rows (pushedSince n (traceOf ok h)) := by
  obtain ⟨_, i1, i2, _⟩ := mem_inv ok h
  simp only at i1 i2 ⊢
  simp only [step, getMem, popMem]
  by_cases hr : (run ok freshEngine h).1.ready = false
  · simp [hr, i2 hr]
  · have hr' : (run ok freshEngine h).1.ready = true := by simpa using hr
    simp [hr, i1 hr']

theorem closed_iff_config (ok : Bool) (h : List (Call D)) : (run ok freshEngine h).1.config = true ↔ .close ∉ h := by
  induction h using snoc_ind with
  | nil => simp [run, freshEngine]
  | snoc h c ih =>
    rw [engine_state_snoc]
    have key : ∀ s : St D, (step ok s c).1.config = true ↔ s.config = true ∧ c ≠ .close := by
      intro s
      cases c with
      | push n a =>
        simp only [step, pushMem, setup]
        by_cases hr : s.ready = true
        · simp [hr]
        · by_cases hc : s.config = false
          · simp [hr, hc]
          · cases ok <;> simp [hr, hc]
      | use =>
        simp only [step, setup]
        by_cases hr : s.ready = true
        · simp [hr]
        · by_cases hc : s.config = false
          · simp [hr, hc]
          · cases ok <;> simp [hr, hc]
      | get n => simp only [step, getMem]; split <;> simp
      | pop n => simp only [step, popMem]; split <;> simp
      | ctxGet n => simp only [step, getMem]; split <;> simp
      | ctxPop n => simp only [step, popMem]; split <;> simp
      | terminal =>
        simp only [step, terminal]
        split
        · simp
        · split <;> simp
        · simp
      | _ => simp [step]
    rw [key, ih]
    simp [eq_comm]

/-- **C56**: as long as the engine is not closed and its init files run, every push to the engine succeeds. -/
theorem C56_push_succeeds (h : List (Call D)) (hc : .close ∉ h) (n : Name) (a : Arg D) :
    (step true (run true freshEngine h).1 (.push n a)).2 = .done := by
  have := (closed_iff_config true h).2 hc
  simp only [step, pushMem, setup]
  by_cases hr : (run true freshEngine h).1.ready = true <;> simp [hr, this]

/-- **C56**: a closed engine stays closed: whatever happened before and after `close`, reading and emptying tables gives no rows,
and everything that needs the engine raises. -/
theorem C56_closed (ok : Bool) (h : List (Call D)) (hc : .close ∈ h) (n : Name) (a : Arg D) :
    let s := (run ok freshEngine h).1
    (step ok s (.get n)).2 = .rows [] ∧ (step ok s (.pop n)).2 = .rows [] ∧
    (step ok s (.push n a)).2 = .raised .attribute ∧ (step ok s .use).2 = .raised .attribute ∧
    (step ok s .close).2 = .done := by
  have h1 : (run ok freshEngine h).1.config = false := by
    cases hb : (run ok freshEngine h).1.config with
    | false => rfl
    | true => exact absurd hc ((closed_iff_config ok h).1 hb)
  have h2 := (mem_inv ok h).1 h1
  simp [step, getMem, popMem, pushMem, setup, h1, h2]

/-- **C56**: the init files are run at most once. -/
theorem C56_init_once (ok : Bool) (h : List (Call D)) : (run ok freshEngine h).1.inits ≤ 1 ∧
    ((run ok freshEngine h).1.inits = 0 → (run ok freshEngine h).1.ready = false) ∧
    ((run ok freshEngine h).1.inits = 1 → (run ok freshEngine h).1.ready = true ∨ (run ok freshEngine h).1.config = false) := by
  induction h using snoc_ind with
  | nil => simp [run, freshEngine]
  | snoc h c ih =>
    rw [engine_state_snoc]
    generalize (run ok freshEngine h).1 = s at ih
    obtain ⟨i1, i2, i3⟩ := ih
    have setupCase : (setup ok s).1.inits ≤ 1 ∧ ((setup ok s).1.inits = 0 → (setup ok s).1.ready = false) ∧
        ((setup ok s).1.inits = 1 → (setup ok s).1.ready = true ∨ (setup ok s).1.config = false) := by
      unfold setup
      by_cases hr : s.ready = true
      · simp only [hr, if_true]; exact ⟨i1, fun h => by simpa [hr] using i2 h, fun _ => Or.inl trivial⟩
      · simp only [hr, if_false]
        by_cases hc : s.config = false
        · rw [if_neg (by simp), if_pos hc]; exact ⟨i1, i2, fun _ => Or.inr hc⟩
        · simp only [hc, if_false]
          have h0 : s.inits = 0 := by
            rcases Nat.lt_or_ge 0 s.inits with h | h
            · have h1 : s.inits = 1 := by omega
              rcases i3 h1 with h | h
              · exact absurd h hr
              · exact absurd h hc
            · omega
          simp [h0]
    cases c with
    | push n a =>
      simp only [step, pushMem]
      cases hs : setup ok s with
      | mk s' e =>
        rw [hs] at setupCase
        cases e <;> exact setupCase
    | use =>
      simp only [step]
      cases hs : setup ok s with
      | mk s' e =>
        rw [hs] at setupCase
        cases e <;> exact setupCase
    | get n => simp only [step, getMem]; split <;> exact ⟨i1, i2, i3⟩
    | pop n => simp only [step, popMem]; split <;> exact ⟨i1, i2, i3⟩
    | ctxGet n => simp only [step, getMem]; split <;> exact ⟨i1, i2, i3⟩
    | ctxPop n => simp only [step, popMem]; split <;> exact ⟨i1, i2, i3⟩
    | terminal =>
      simp only [step, terminal]
      split
      · exact ⟨i1, i2, i3⟩
      · split <;> exact ⟨i1, i2, i3⟩
      · exact ⟨i1, i2, i3⟩
    | close => exact ⟨i1, fun _ => rfl, fun _ => Or.inr rfl⟩
    | ctxPush n a => exact ⟨i1, i2, i3⟩
    | modPush n a => exact ⟨i1, i2, i3⟩
    | enter c => exact ⟨i1, i2, i3⟩
    | exit => exact ⟨i1, i2, i3⟩

/-- **C100 is violated**: pushing through a context or through the module function always raises and stores nothing. -/
theorem C100_context_push_violated (ok : Bool) (s : St D) (n : Name) (a : Arg D) :
    step ok s (.ctxPush n a) = (s, .raised .attribute) ∧ step ok s (.modPush n a) = (s, .raised .attribute) := ⟨rfl, rfl⟩

/-- **C100 is violated** by failing init files: the exception is raised once; afterwards the engine works without them. -/
theorem C100_failed_init_violated :
    (run false (freshEngine : St D) [.use, .use]).2 = [.raised .initFile, .done] ∧
    (run false (freshEngine : St D) [.use, .use]).1.inits = 1 := ⟨rfl, rfl⟩

/-- The current context after a history of entering and leaving: the one entered last, if it was not left yet. -/
theorem C100_current_context (ok : Bool) (h : List (Call D)) (c : Nat) :
    (run ok freshEngine (h ++ [.enter c])).1.cur = some (some c) ∧ (run ok freshEngine (h ++ [.exit])).1.cur = some none := by
  rw [engine_state_snoc, engine_state_snoc]; exact ⟨rfl, rfl⟩

/-- **C100 is violated by nested contexts**: leaving the inner one leaves no current context instead of the outer one. -/
theorem C100_nested_context_violated (ok : Bool) (a b : Nat) :
    (run ok (freshEngine : St D) [.enter a, .enter b, .exit]).1.cur ≠ some (some a) := by
  simp [run, step]

/-- **C100**: `terminal` reaches the running executor iff no context is active and one was active before; otherwise, on an
engine in use, it raises (violated). -/
theorem C100_terminal (ok : Bool) (s : St D) (hr : s.ready = true) :
    ((step ok s .terminal).2 = .done ↔ s.cur = some none) ∧
    ((step ok s .terminal).1.stopped = s.stopped + 1 ↔ s.cur = some none) ∧
    (s.cur ≠ some none → (step ok s .terminal).2 = .raised .attribute) := by
  simp only [step, terminal]
  cases hc : s.cur with
  | none => simp
  | some c => cases c <;> simp [hr]

/-- Non-vacuity: two pushes, a pop of another table, a read; then emptied. -/
example : (run true (freshEngine : St Nat) [.push ['t'] (.many [1, 2]), .push ['u'] (.one 9), .push ['t'] (.one 3), .pop ['u'],
      .ctxGet ['t'], .pop ['t'], .get ['t'], .close, .get ['t'], .push ['t'] (.one 1)]).2 =
    [.done, .done, .done, .rows [9], .rows [1, 2, 3], .rows [1, 2, 3], .rows [], .done, .rows [], .raised .attribute] := by
  decide +kernel

end

/-! ## C62 -/

/-- Specification: the executors of a tree have the same root. -/
def taskNumbers (rootOf : Nat → Nat) (es : List Nat) : List (Nat × Nat) :=
  (es.foldl (fun (acc : (Nat → Nat) × List (Nat × Nat)) e =>
    let r := distribute rootOf acc.1 e
    (r.1, acc.2 ++ [(e, r.2)])) (fun _ => 0, [])).2

theorem numbers_inv (rootOf : Nat → Nat) (es : List Nat) :
    let acc := es.foldl (fun (acc : (Nat → Nat) × List (Nat × Nat)) e =>
      let r := distribute rootOf acc.1 e
      (r.1, acc.2 ++ [(e, r.2)])) (fun _ => 0, [])
    ∀ r, (acc.2.filter fun x => rootOf x.1 = r).map (·.2) = List.range' 1 (es.filter fun e => rootOf e = r).length ∧
      acc.1 r = (es.filter fun e => rootOf e = r).length := by
  induction es using snoc_ind with
  | nil => simp
  | snoc es e ih =>
    simp only [List.foldl_append, List.foldl_cons, List.foldl_nil] at ih ⊢
    generalize es.foldl _ _ = acc at ih
    intro r
    obtain ⟨h1, h2⟩ := ih r
    obtain ⟨_, h3⟩ := ih (rootOf e)
    by_cases hr : rootOf e = r
    · subst hr
      simp only [distribute, List.filter_append, List.map_append, h1, h2, if_true]
      simp [List.range'_concat]
      omega
    · have hr' : ¬ r = rootOf e := fun h => hr h.symm
      simp only [distribute, List.filter_append, List.map_append, h1, h2, if_neg hr']
      simp [hr]

/-- **C62**: the tasks started by an executor and by the executors below it, in whatever order, are numbered 1, 2, 3, … in the order
in which they are started; no number is used twice. -/
theorem C62_task_numbers (rootOf : Nat → Nat) (es : List Nat) (r : Nat) :
    ((taskNumbers rootOf es).filter fun x => rootOf x.1 = r).map (·.2) =
      List.range' 1 (es.filter fun e => rootOf e = r).length ∧
    (taskNumbers rootOf es).map (·.1) = es := by
  refine ⟨(numbers_inv rootOf es r).1, ?_⟩
  unfold taskNumbers
  induction es using snoc_ind with
  | nil => rfl
  | snoc es e ih =>
    simp only [List.foldl_append, List.foldl_cons, List.foldl_nil, List.map_append, ih]
    rfl

/-- **C62**: an executor and its parent have the same root, so they count together. -/
theorem C62_same_root (parent : Nat → Option Nat) (fuel e p : Nat) (h : parent e = some p) :
    root parent (fuel + 1) e = root parent fuel p := by simp [root, h]

/-- Non-vacuity: executors 1 and 2 below 0, executor 5 on its own. -/
example : taskNumbers (fun e => if e ≤ 2 then 0 else 5) [0, 1, 5, 2, 1] = [(0, 1), (1, 2), (5, 1), (2, 3), (1, 4)] := by decide +kernel

/-! ## C61 -/

section
variable (lower : List Char → List Char) (isSp : Char → Bool)

/-- Specification: the path names an SQL file: its last component has an extension that is one of sql, sqlx, prql in any case. -/
def NamesSql (path : List Char) : Prop :=
  ∃ ext, lower (splitext path) = '.' :: ext ∧ ext ∈ ["sql".toList, "sqlx".toList, "prql".toList]

theorem isSqlExt_iff (path : List Char) : isSqlExt (lower (splitext path)) = true ↔ NamesSql lower path := by
  unfold isSqlExt NamesSql
  simp only [Bool.or_eq_true, decide_eq_true_eq, List.mem_cons, List.not_mem_nil, or_false]
  constructor
  · rintro ((h | h) | h)
    · exact ⟨_, h, Or.inl rfl⟩
    · exact ⟨_, h, Or.inr (Or.inl rfl)⟩
    · exact ⟨_, h, Or.inr (Or.inr rfl)⟩
  · rintro ⟨ext, h, (rfl | rfl | rfl)⟩
    · exact Or.inl (Or.inl h)
    · exact Or.inl (Or.inr h)
    · exact Or.inr h

/-- **C61**: an SQL file given as first argument is run, from a terminal or not, whatever is on standard input. -/
theorem C61_file (tty : Bool) (path : List Char) (rest : List (List Char)) (stdin : List Char) (h : NamesSql lower path) :
    main lower isSp tty (path :: rest) stdin = .file path := by
  have h' := (isSqlExt_iff lower path).2 h
  unfold main
  simp [h']

/-- **C61**: another extension is refused at a terminal; a name without extension is tried as a file. -/
theorem C61_terminal (path : List Char) (rest : List (List Char)) (stdin : List Char) (h : ¬ NamesSql lower path) :
    main lower isSp true (path :: rest) stdin = if lower (splitext path) = [] then .file path else .usage := by
  have h' : isSqlExt (lower (splitext path)) = false := by
    cases hb : isSqlExt (lower (splitext path)) with
    | false => rfl
    | true => exact absurd ((isSqlExt_iff lower path).1 hb) h
  unfold main
  by_cases he : lower (splitext path) = [] <;> simp [h', he]

/-- **C61**: without argument the prompt is started at a terminal. -/
theorem C61_prompt (stdin : List Char) : main lower isSp true [] stdin = .prompt := rfl

/-- **C61** (full statement: without argument, too; false, next theorem): text on standard input is run when the first argument is no
SQL file; nothing is done when it is blank. -/
theorem C61_pipe (path : List Char) (rest : List (List Char)) (stdin : List Char) (h : ¬ NamesSql lower path) :
    main lower isSp false (path :: rest) stdin =
      if strip isSp stdin = [] then .nothing else .pipe (unquote (strip isSp stdin)) := by
  have h' : isSqlExt (lower (splitext path)) = false := by
    cases hb : isSqlExt (lower (splitext path)) with
    | false => rfl
    | true => exact absurd ((isSqlExt_iff lower path).1 hb) h
  unfold main
  simp [h']

/-- **C95 is violated**: text piped into the program without argument (`echo "select 1" | syncany-sql`) is never run. -/
theorem C95_pipe_without_argument_violated (stdin : List Char) (h : strip isSp stdin ≠ []) :
    main lower isSp false [] stdin = .pipeFails (unquote (strip isSp stdin)) := by
  unfold main
  simp [h]

/-- **C61**: the text that is run is the text itself, or what is between the quotes it begins and ends with. -/
theorem C61_unquote (s : List Char) :
    (∀ q q' : Char, ∀ t, s = q :: t ++ [q'] → isQuote q = true → isQuote q' = true → unquote s = t) ∧
    ((∀ c, s.head? = some c → isQuote c = false) → unquote s = s) ∧
    ((∀ c, s.getLast? = some c → isQuote c = false) → unquote s = s) := by
  refine ⟨?_, ?_, ?_⟩
  · rintro q q' t rfl h1 h2
    have hl : (q :: t ++ [q']).getLast? = some q' := by
      rw [List.getLast?_eq_head?_reverse, List.reverse_append]; rfl
    unfold unquote
    simp only [List.cons_append] at hl ⊢
    rw [hl]
    simp [h1, h2]
  · intro h
    unfold unquote
    split
    · rename_i c l d hd
      have := h c rfl
      simp [this]
    · rfl
  · intro h
    unfold unquote
    split
    · rename_i c l d hd
      have := h d hd
      simp [this]
    · rfl

/-- The extension: what follows the last dot of the last component, unless that dot is one of its leading dots. -/
theorem C61_extension (dir base ext : List Char) (hb : base ≠ []) (hb0 : base.head? ≠ some '.') (hs : '/' ∉ base)
    (he : '.' ∉ ext) (hes : '/' ∉ ext) (hd : dir = [] ∨ dir.getLast? = some '/') :
    splitext (dir ++ base ++ '.' :: ext) = '.' :: ext := by
  have hbase : ((dir ++ base ++ '.' :: ext).reverse.takeWhile (· ≠ '/')).reverse = base ++ '.' :: ext := by
    have e1 : (dir ++ base ++ '.' :: ext).reverse = (base ++ '.' :: ext).reverse ++ dir.reverse := by simp
    rw [e1, List.takeWhile_append_of_pos (by
      intro c hc
      rw [List.mem_reverse] at hc
      simp only [List.mem_append, List.mem_cons] at hc
      rcases hc with h | h | h
      · exact decide_eq_true (fun e => hs (e ▸ h))
      · subst h; decide
      · exact decide_eq_true (fun e => hes (e ▸ h)))]
    have : dir.reverse.takeWhile (· ≠ '/') = [] := by
      rcases hd with rfl | h
      · rfl
      · rw [List.getLast?_eq_head?_reverse] at h
        cases hr : dir.reverse with
        | nil => rfl
        | cons c l => rw [hr] at h; simp at h; subst h; simp
    rw [this]; simp
  unfold splitext
  simp only [hbase]
  have hdw : (base ++ '.' :: ext).dropWhile (· = '.') = base ++ '.' :: ext := by
    cases base with
    | nil => exact absurd rfl hb
    | cons c l =>
      have : c ≠ '.' := fun e => hb0 (by simp [e])
      simp [this]
  rw [hdw]
  have hm : '.' ∈ base ++ '.' :: ext := by simp
  rw [if_pos hm]
  have e2 : (base ++ '.' :: ext).reverse = ext.reverse ++ '.' :: base.reverse := by simp
  rw [e2, List.takeWhile_append_of_pos (by
    intro c hc
    rw [List.mem_reverse] at hc
    exact decide_eq_true (fun e => he (e ▸ hc)))]
  simp

/-- Non-vacuity. -/
example : main (fun s => s.map Char.toLower) (fun c => c = ' ' || c = '\n') false ["dir.x/Job.SQL".toList] "select 1".toList = .file "dir.x/Job.SQL".toList ∧
    main (fun s => s.map Char.toLower) (fun c => c = ' ' || c = '\n') true ["a.txt".toList] [] = .usage ∧
    main (fun s => s.map Char.toLower) (fun c => c = ' ' || c = '\n') false [".sql".toList] " 'select 1'\n".toList = .pipe "select 1".toList ∧
    main (fun s => s.map Char.toLower) (fun c => c = ' ' || c = '\n') false [] "select 1".toList = .pipeFails "select 1".toList := by
  decide +kernel

end

end Verif.Props
