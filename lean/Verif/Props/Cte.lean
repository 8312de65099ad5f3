import Verif.Spec.Cte
/-! C76: WITH and WITH RECURSIVE. -/
namespace Verif.Props
namespace Rec
open Verif.Cte Verif.SqlCte

variable {V : Type}

theorem loop_append (step : Row V → List (Row V)) (a b out : List (Row V)) :
    Loop step (a ++ b) out ↔ ∃ out', out = a ++ out' ∧ Loop step (b ++ a.flatMap step) out' := by
  induction a generalizing b out with
  | nil => simp
  | cons r a ih =>
    constructor
    · intro h
      cases h with
      | next h =>
        change Loop step (a ++ b ++ step r) _ at h
        rw [List.append_assoc, ih] at h
        obtain ⟨out', rfl, h⟩ := h
        exact ⟨out', rfl, by simpa using h⟩
    · rintro ⟨out', rfl, h⟩
      refine Loop.next ?_
      change Loop step (a ++ b ++ step r) (a ++ out')
      rw [List.append_assoc, ih]
      exact ⟨out', rfl, by simpa using h⟩

theorem loop_round (step : Row V → List (Row V)) (a out : List (Row V)) :
    Loop step a out ↔ ∃ out', out = a ++ out' ∧ Loop step (a.flatMap step) out' := by
  simpa using loop_append step a [] out

theorem level_shift (step : Row V → List (Row V)) (a : List (Row V)) (n : Nat) :
    level step a (n + 1) = level step (a.flatMap step) n := by
  induction n with
  | zero => rfl
  | succ n ih => rw [level, ih]; rfl

theorem rounds_shift (step : Row V → List (Row V)) (a : List (Row V)) (n : Nat) :
    (List.range (n + 1)).flatMap (level step a) = a ++ (List.range n).flatMap (level step (a.flatMap step)) := by
  rw [List.range_succ_eq_map, List.flatMap_cons, List.flatMap_map]
  simp only [Function.comp_def, Nat.succ_eq_add_one, level_shift]
  rfl

/-- Reading one row at a time from the growing collection is SQL's recursion: it ends exactly when the recursion does, with the
same rows in the order of the rounds. -/
theorem loop_iff (step : Row V → List (Row V)) (a out : List (Row V)) : Loop step a out ↔ Recursion step a out := by
  constructor
  · intro h
    generalize hk : out.length = k
    induction k using Nat.strongRecOn generalizing a out with
    | _ k ih =>
      cases a with
      | nil => cases h; exact ⟨0, rfl, rfl⟩
      | cons r a =>
        obtain ⟨out', rfl, h'⟩ := (loop_round step _ _).1 h
        obtain ⟨n, hn, ho⟩ := ih out'.length (by simp at hk; omega) _ _ h' rfl
        exact ⟨n + 1, by rw [level_shift, hn], by rw [rounds_shift, ← ho]⟩
  · rintro ⟨n, hn, rfl⟩
    induction n generalizing a with
    | zero => cases (show a = [] from hn); exact .done
    | succ n ih =>
      rw [loop_round, rounds_shift]
      exact ⟨_, rfl, ih _ (by rwa [level_shift] at hn)⟩

theorem loop_unique {step : Row V → List (Row V)} {a o o' : List (Row V)} (h : Loop step a o) (h' : Loop step a o') : o = o' := by
  induction h generalizing o' with
  | done => cases h'; rfl
  | next _ ih => cases h' with | next h' => rw [ih h']

theorem run_unique {c : Name} {s : Store V} {bs : List (Branch V)} {coll o o' : List (Row V)} (h : RunBranches c s bs coll o)
    (h' : RunBranches c s bs coll o') : o = o' := by
  induction h generalizing o' with
  | nil => cases h'; rfl
  | plain hb _ ih =>
    cases h' with
    | plain _ h' => exact ih h'
    | loop hb' => simp [hb] at hb'
  | loop hb hl _ ih =>
    cases h' with
    | plain hb' => simp [hb] at hb'
    | loop _ hl' h' => cases loop_unique hl hl'; exact ih h'

theorem run_plain {c : Name} {s : Store V} {as : List (Branch V)} (bs : List (Branch V)) (coll out : List (Row V))
    (ha : ∀ b ∈ as, isLoop c b = false) :
    RunBranches c s (as ++ bs) coll out ↔ RunBranches c s bs (coll ++ plainRows s none as) out := by
  induction as generalizing coll with
  | nil => simp [plainRows]
  | cons b as ih =>
    have hb := ha b (by simp)
    have ih := ih (coll ++ (readSource s b.src).flatMap (b.step s)) fun b' hb' => ha b' (by simp [hb'])
    have he : plainRows s none (b :: as) = (readSource s b.src).flatMap (b.step s) ++ plainRows s none as := by
      have : (rename none : Row V → Row V) = id := rfl
      simp [plainRows, this]
    constructor
    · intro h
      cases h with
      | plain _ h => rw [he, ← List.append_assoc]; exact ih.1 h
      | loop hl => simp [hb] at hl
    · intro h
      refine .plain hb (ih.2 ?_)
      rwa [he, ← List.append_assoc] at h

theorem append_bind {s : Store V} {n : Name} (h : s n = []) (rows : List (Row V)) : append s n rows = bind s n rows := by
  funext m
  simp [append, SqlCte.bind, h]

/-- A name that begins with the name of the query is that name: what the recognition of the recursion relies on. -/
def NoLonger (c : Cte V) : Prop := ∀ b ∈ c.branches, ∀ n, b.src = .memory n → c.name.isPrefixOf n = true → n = c.name

theorem isLoop_iff {c : Cte V} (hp : NoLonger c) {b : Branch V} (hb : b ∈ c.branches) :
    isLoop c.name b = true ↔ ReadsSelf c.name b := by
  unfold isLoop ReadsSelf
  constructor
  · intro h
    cases hs : b.src with
    | memory n => rw [hs] at h; rw [hp b hb n hs h]
    | fixed rows => rw [hs] at h; cases h
  · intro h
    rw [h]
    show c.name.isPrefixOf c.name = true
    exact List.isPrefixOf_iff_prefix.2 (List.prefix_refl _)

end Rec

open Verif.Cte Verif.SqlCte Rec

variable {V : Type}

/-- What C76 needs of one named query: no column list, UNION ALL, at most one SELECT that reads the query itself, the last one, and
no table whose name only begins like the name of the query. -/
structure Plain (c : Cte V) : Prop where
  no_columns : c.columns = none
  all : c.distinct = false
  noLonger : NoLonger c
  split : ∃ anchors recs, Splits c anchors recs ∧ recs.length ≤ 1

/-- **C76, one named query**, recursive or not: it ends exactly when SQL's recursion does, and the collection of its name then
holds SQL's rows in the order of the rounds. -/
theorem C76_query_partial (s : Store V) (c : Cte V) (hc : Plain c) (he : s c.name = []) (anchors recs : List (Branch V))
    (hs : Splits c anchors recs) (s' : Store V) :
    RunCte s c s' ↔ ∃ out, Rows s none anchors recs out ∧ s' = bind s c.name out := by
  have hrec : recs.length ≤ 1 := by
    obtain ⟨as, rs, hs', hl⟩ := hc.split
    have h1 : as = anchors := by
      have h : as ++ rs = anchors ++ recs := hs'.eq.symm.trans hs.eq
      have hf : ∀ (p q : List (Branch V)), (∀ b ∈ p, ¬ ReadsSelf c.name b) → (∀ b ∈ q, ReadsSelf c.name b) →
          ∀ (p' q' : List (Branch V)), (∀ b ∈ p', ¬ ReadsSelf c.name b) → (∀ b ∈ q', ReadsSelf c.name b) → p ++ q = p' ++ q' → p = p' := by
        intro p q hp hq
        induction p with
        | nil =>
          intro p' q' hp' hq' h
          cases p' with
          | nil => rfl
          | cons b p' =>
            refine absurd (hq b ?_) (hp' b (by simp))
            rw [List.nil_append] at h; rw [h]; simp
        | cons b p ih =>
          intro p' q' hp' hq' h
          cases p' with
          | nil =>
            refine absurd (hq' b ?_) (hp b (by simp))
            rw [List.nil_append] at h; rw [← h]; simp
          | cons b' p' =>
            simp only [List.cons_append, List.cons.injEq] at h
            rw [h.1, ih (fun x hx => hp x (by simp [hx])) p' q' (fun x hx => hp' x (by simp [hx])) hq' h.2]
      exact hf _ _ hs'.anchors_not hs'.recs_read _ _ hs.anchors_not hs.recs_read h
    have h2 : rs = recs := List.append_cancel_left ((h1 ▸ hs'.eq).symm.trans hs.eq)
    rwa [← h2]
  have hplain : ∀ b ∈ anchors, isLoop c.name b = false := by
    intro b hb
    have hm : b ∈ c.branches := by rw [hs.eq]; simp [hb]
    cases h : isLoop c.name b with
    | false => rfl
    | true => exact absurd ((isLoop_iff hc.noLonger hm).1 h) (hs.anchors_not b hb)
  have key : ∀ out, RunBranches c.name s c.branches [] out ↔ Rows s none anchors recs out := by
    intro out
    rw [hs.eq, run_plain recs [] out hplain, List.nil_append]
    have hid : (rename none : Row V → Row V) = id := rfl
    have nilStep : (plainRows s none anchors).flatMap (fun r => ([] : List (Branch V)).flatMap fun b => (b.step s r).map (rename none)) = [] := by
      simp
    match recs, hrec, hs with
    | [], _, _ =>
      unfold Rows
      constructor
      · intro h
        cases h
        refine (loop_iff _ _ _).1 ((loop_round _ _ _).2 ⟨[], by simp, ?_⟩)
        rw [nilStep]; exact .done
      · intro h
        obtain ⟨out', rfl, h'⟩ := (loop_round _ _ _).1 ((loop_iff _ _ _).2 h)
        rw [nilStep] at h'
        cases h'
        rw [List.append_nil]
        exact .nil
    | [b], _, hs =>
      have hb : isLoop c.name b = true := (isLoop_iff hc.noLonger (by rw [hs.eq]; simp)).2 (hs.recs_read b (by simp))
      unfold Rows
      simp only [List.flatMap_cons, List.flatMap_nil, List.append_nil, hid, List.map_id]
      rw [← loop_iff]
      constructor
      · intro h
        cases h with
        | plain hb' => simp [hb] at hb'
        | loop _ hl h => cases h; exact hl
      · intro h
        exact .loop hb h .nil
  unfold RunCte
  constructor
  · rintro ⟨out, h, rfl⟩; exact ⟨out, (key out).1 h, append_bind he out⟩
  · rintro ⟨out, h, rfl⟩; exact ⟨out, (key out).2 h, (append_bind he out).symm⟩

/-- **C76**, a list of named queries with different names that do not stand for tables yet: the statement ends exactly when SQL's
meaning is defined, and its body sees exactly SQL's tables. -/
theorem C76_with_partial (s : Store V) (cs : List (Cte V)) (hc : ∀ c ∈ cs, Plain c) (hn : (cs.map Cte.name).Nodup)
    (he : ∀ c ∈ cs, s c.name = []) (body : Store V → List (Row V)) (out : List (Row V)) (s' : Store V) :
    RunWith s cs body out s' ↔ With s cs s' ∧ out = body s' := by
  unfold RunWith
  refine and_congr_left fun hout => ?_
  clear hout body out
  induction cs generalizing s with
  | nil =>
    constructor <;> (intro h; cases h; constructor)
  | cons c cs ih =>
    have hcc := hc c (by simp)
    simp only [List.map_cons, List.nodup_cons, List.mem_map, not_exists, not_and] at hn
    have ih' : ∀ rows, RunCtes (bind s c.name rows) cs s' ↔ With (bind s c.name rows) cs s' := fun rows =>
      ih _ (fun c' h' => hc c' (by simp [h'])) hn.2 fun c' h' => by
        have := he c' (by simp [h'])
        simp [SqlCte.bind, hn.1 c' h', this]
    constructor
    · intro h
      cases h with
      | cons h1 h2 =>
        obtain ⟨as, rs, hs, _⟩ := hcc.split
        obtain ⟨rows, hr, rfl⟩ := (C76_query_partial s c hcc (he c (by simp)) as rs hs _).1 h1
        exact .cons hs (hcc.no_columns ▸ hr) ((ih' rows).1 h2)
    · intro h
      cases h with
      | cons hs hr h2 =>
        rw [hcc.no_columns] at hr
        exact .cons ((C76_query_partial s c hcc (he c (by simp)) _ _ hs _).2 ⟨_, hr, rfl⟩) ((ih' _).2 h2)

/-- A statement has at most one outcome. -/
theorem C76_unique (s : Store V) (cs : List (Cte V)) (body : Store V → List (Row V)) (o o' : List (Row V)) (t t' : Store V)
    (h : RunWith s cs body o t) (h' : RunWith s cs body o' t') : o = o' ∧ t = t' := by
  have key : t = t' := by
    obtain ⟨h, -⟩ := h
    obtain ⟨h', -⟩ := h'
    induction h with
    | nil => cases h'; rfl
    | cons h1 _ ih =>
      cases h' with
      | cons h1' h2' =>
        obtain ⟨o1, r1, rfl⟩ := h1
        obtain ⟨o2, r2, rfl⟩ := h1'
        cases run_unique r1 r2
        exact ih h2'
  exact ⟨by rw [h.2, h'.2, key], key⟩

/-- **C76** Tables that are not named queries are left alone. -/
theorem C76_other_tables (s : Store V) (cs : List (Cte V)) (body : Store V → List (Row V)) (o : List (Row V)) (t : Store V)
    (h : RunWith s cs body o t) (n : Name) (hn : ∀ c ∈ cs, c.name ≠ n) : t n = s n := by
  obtain ⟨h, -⟩ := h
  induction h with
  | nil => rfl
  | @cons s0 s1 s2 c cs h1 _ ih =>
    obtain ⟨o1, _, rfl⟩ := h1
    rw [ih fun c' h' => hn c' (by simp [h'])]
    have := hn c (by simp)
    rw [append, if_neg fun e => this e.symm]

/-! ### Where C76 is false -/

/-- **C76 is false when the statement is run again**, for every statement with one named query that does not depend on tables of
the memory database: the rows of the first run are still there, and the second run sees every row twice. -/
theorem C76_run_again_violated (s : Store V) (c : Cte V) (hi : ∀ b ∈ c.branches, (∀ t t' r, b.step t r = b.step t' r) ∧
    ((∃ rows, b.src = .fixed rows) ∨ isLoop c.name b = true)) (he : s c.name = [])
    (t1 t2 : Store V) (h1 : RunCte s c t1) (h2 : RunCte t1 c t2) : t2 c.name = t1 c.name ++ t1 c.name := by
  obtain ⟨o1, r1, rfl⟩ := h1
  obtain ⟨o2, r2, rfl⟩ := h2
  have key : ∀ (s s' : Store V) (bs : List (Branch V)) (coll o : List (Row V)), (∀ b ∈ bs, (∀ t t' r, b.step t r = b.step t' r) ∧
      ((∃ rows, b.src = .fixed rows) ∨ isLoop c.name b = true)) → RunBranches c.name s bs coll o → RunBranches c.name s' bs coll o := by
    intro s s' bs coll o hb h
    induction h with
    | nil => exact .nil
    | @plain b bs coll out hl _ ih =>
      have hbb := hb b (by simp)
      refine .plain hl ?_
      have : (readSource s' b.src).flatMap (b.step s') = (readSource s b.src).flatMap (b.step s) := by
        rcases hbb.2 with ⟨rows, hr⟩ | h
        · rw [hr]
          have : b.step s' = b.step s := funext fun r => hbb.1 s' s r
          rw [this]; rfl
        · rw [hl] at h; cases h
      rw [this]
      exact ih fun b' h' => hb b' (by simp [h'])
    | @loop b bs coll coll' out hl hL _ ih =>
      have : b.step s' = b.step s := funext fun r => (hb b (by simp)).1 s' s r
      exact .loop hl (this ▸ hL) (ih fun b' h' => hb b' (by simp [h']))
  have : o2 = o1 := run_unique r2 (key _ _ _ _ _ hi r1)
  rw [this]
  simp [append, he]

/-- **C76 is false when a table of that name exists**: it is not hidden; its rows come before those of the named query. -/
theorem C76_existing_table_violated (s t : Store V) (c : Cte V) (h : RunCte s c t) :
    ∃ out, RunBranches c.name s c.branches [] out ∧ t c.name = s c.name ++ out := by
  obtain ⟨o, ho, rfl⟩ := h
  exact ⟨o, ho, by simp [append]⟩

namespace Rec

/-- The value of a column; a missing one is NULL. -/
def get (r : Row (Option Int)) (n : Name) : Option Int := (r.lookup n).join

/-- `SELECT 1 AS n`. -/
def one : Branch (Option Int) := ⟨.fixed [[]], fun _ _ => [[(['n'], some 1)]]⟩

/-- `SELECT n + 1 AS n FROM t WHERE n < 3`. -/
def succTo3 (t : Name) : Branch (Option Int) :=
  ⟨.memory t, fun _ r => match get r ['n'] with
    | some v => if v < 3 then [[(['n'], some (v + 1))]] else []
    | none => []⟩

/-- `WITH RECURSIVE t AS (SELECT 1 AS n UNION ALL SELECT n + 1 AS n FROM t WHERE n < 3)`. -/
def count3 (cols : Option (List Name)) : Cte (Option Int) := ⟨['t'], cols, false, [one, succTo3 ['t']]⟩

theorem count3_plain : Plain (count3 none) where
  no_columns := rfl
  all := rfl
  noLonger := by
    intro b hb n hs hp
    rcases List.mem_cons.1 hb with rfl | hb
    · cases hs
    · cases List.mem_singleton.1 hb; injection hs with hs; exact hs.symm
  split := ⟨[one], [succTo3 ['t']], ⟨rfl, by simp [ReadsSelf, one], by simp [ReadsSelf, succTo3, count3]⟩, by simp⟩

/-- Nothing in the memory database. -/
def noTables : Store (Option Int) := fun _ => []

def rowsN (l : List Int) : List (Row (Option Int)) := l.map fun v => [(['n'], some v)]

theorem count3_runs : RunCte noTables (count3 none) (append noTables ['t'] (rowsN [1, 2, 3])) :=
  ⟨_, .plain rfl (.loop rfl (.next (.next (.next .done))) .nil), rfl⟩

end Rec

/-- C76 covers the counting query: 1, 2, 3. -/
example : Plain (count3 none) ∧ noTables ['t'] = [] ∧ RunWith noTables [count3 none] (fun s => s ['t']) (rowsN [1, 2, 3])
    (append noTables ['t'] (rowsN [1, 2, 3])) :=
  ⟨count3_plain, rfl, .cons count3_runs .nil, rfl⟩

/-- Run twice, it counts twice. -/
example : ∃ t1 t2, RunCte noTables (count3 none) t1 ∧ RunCte t1 (count3 none) t2 ∧ t2 ['t'] = rowsN [1, 2, 3, 1, 2, 3] :=
  ⟨_, _, count3_runs, ⟨rowsN [1, 2, 3], .plain rfl (.loop rfl (.next (.next (.next .done))) .nil), rfl⟩, rfl⟩

/-- **C76 is false for a query that reads a table whose name begins like its own**: in `WITH t AS (SELECT 1 AS n UNION ALL
SELECT n + 1 AS n FROM t2 WHERE n < 3)`, with one row 0 in `t2`, the second SELECT is taken for a recursion: 1, 2, 3 instead of
1, 1. -/
theorem C76_prefix_violated : ∃ (s : Store (Option Int)) (c : Cte (Option Int)), s c.name = [] ∧ Splits c c.branches [] ∧
    Rows s none c.branches [] (rowsN [1, 1]) ∧ RunCte s c (append s c.name (rowsN [1, 2, 3])) ∧
    ∀ t, RunCte s c t → t c.name ≠ rowsN [1, 1] := by
  let s : Store (Option Int) := fun n => if n = ['t', '2'] then rowsN [0] else []
  let c : Cte (Option Int) := ⟨['t'], none, false, [one, succTo3 ['t', '2']]⟩
  have hr : RunCte s c (append s c.name (rowsN [1, 2, 3])) :=
    ⟨_, .plain rfl (.loop rfl (.next (.next (.next .done))) .nil), rfl⟩
  refine ⟨s, c, rfl, ⟨by simp, ?_, by simp⟩, ⟨1, rfl, rfl⟩, hr, ?_⟩
  · intro b hb h
    rcases List.mem_cons.1 hb with rfl | hb
    · cases h
    · cases List.mem_singleton.1 hb; simp [ReadsSelf, succTo3, c] at h
  · rintro t ⟨o, ho, rfl⟩
    obtain ⟨o', ho', ho''⟩ := hr
    have : o = rowsN [1, 2, 3] := by
      have h1 := run_unique ho ho'
      have h2 := congrFun ho'' c.name
      simp only [append, if_pos rfl] at h2
      rw [h1]
      simpa [s, c] using h2.symm
    rw [this]
    decide +kernel

/-- **C76 is false for two recursive SELECTs**: each is run to its end on its own, so rows of the second never reach the first.
`WITH RECURSIVE t AS (SELECT 1 AS n UNION ALL SELECT 2 AS n FROM t WHERE n = 5 UNION ALL SELECT 5 AS n FROM t WHERE n = 1)`:
SQL has 1, 5, 2; here 2 is missing. -/
theorem C76_two_recursions_violated : ∃ (c : Cte (Option Int)) (anchors recs : List (Branch (Option Int))), Splits c anchors recs ∧
    c.columns = none ∧ Rows noTables none anchors recs (rowsN [1, 5, 2]) ∧
    RunCte noTables c (append noTables c.name (rowsN [1, 5])) := by
  let br (v w : Int) : Branch (Option Int) := ⟨.memory ['t'], fun _ r => if get r ['n'] = some v then rowsN [w] else []⟩
  refine ⟨⟨['t'], none, false, [one, br 5 2, br 1 5]⟩, [one], [br 5 2, br 1 5], ⟨rfl, by simp [ReadsSelf, one], ?_⟩, rfl,
    ⟨3, by decide +kernel, by decide +kernel⟩,
    ⟨_, .plain rfl (.loop rfl (.next .done) (.loop rfl (.next (.next .done)) .nil)), rfl⟩⟩
  intro b hb
  rcases List.mem_cons.1 hb with rfl | hb
  · rfl
  · cases List.mem_singleton.1 hb; rfl

/-- **C76 is false when the recursion is a joined table**: `SELECT e.n FROM e JOIN t ON e.m = t.n` inside `t` finds `t` empty. (`e`
holds m = 1, n = 2: SQL gives 1, 2.) -/
theorem C76_joined_violated : ∃ (s : Store (Option Int)) (c : Cte (Option Int)), s c.name = [] ∧
    Recursion (fun r => if get r ['n'] = some 1 then rowsN [2] else []) (rowsN [1]) (rowsN [1, 2]) ∧
    (∃ b, c.branches = [one, b] ∧ b.src = .memory ['e'] ∧ ∀ t r, b.step t r =
      ((t ['t']).filter fun q => get q ['n'] = get r ['m']).map fun _ => [(['n'], get r ['n'])]) ∧
    RunCte s c (append s c.name (rowsN [1])) := by
  let s : Store (Option Int) := fun n => if n = ['e'] then [[(['m'], some 1), (['n'], some 2)]] else []
  let b : Branch (Option Int) := ⟨.memory ['e'], fun t r =>
    ((t ['t']).filter fun q => get q ['n'] = get r ['m']).map fun _ => [(['n'], get r ['n'])]⟩
  exact ⟨s, ⟨['t'], none, false, [one, b]⟩, rfl, ⟨2, by decide +kernel, by decide +kernel⟩, ⟨b, rfl, rfl, fun _ _ => rfl⟩,
    ⟨_, .plain rfl (.plain rfl .nil), rfl⟩⟩

/-- **C76 is false for column lists**: `WITH RECURSIVE t (n) AS (SELECT 1 UNION ALL SELECT n + 1 FROM t WHERE n < 3)` has one row,
without a column n; SQL has 1, 2, 3. -/
theorem C76_column_list_violated : ∃ (c : Cte (Option Int)) (anchors recs : List (Branch (Option Int))), Splits c anchors recs ∧
    c.columns = some [['n']] ∧ Rows noTables c.columns anchors recs (rowsN [1, 2, 3]) ∧
    RunCte noTables c (append noTables c.name [[(['1'], some 1)]]) := by
  let a : Branch (Option Int) := ⟨.fixed [[]], fun _ _ => [[(['1'], some 1)]]⟩
  refine ⟨⟨['t'], some [['n']], false, [a, succTo3 ['t']]⟩, [a], [succTo3 ['t']], ⟨rfl, by simp [ReadsSelf, a], by simp [ReadsSelf, succTo3]⟩,
    rfl, ⟨3, by decide +kernel, by decide +kernel⟩, ⟨_, .plain rfl (.loop rfl (.next .done) .nil), rfl⟩⟩

/-- The column list is never looked at, nor is the difference of UNION and UNION ALL. -/
theorem C76_list_ignored_violated (s t : Store V) (n : Name) (cols cols' : Option (List Name)) (d d' : Bool) (bs : List (Branch V)) :
    RunCte s ⟨n, cols, d, bs⟩ t ↔ RunCte s ⟨n, cols', d', bs⟩ t := Iff.rfl

/-- **C76 is false for UNION over a graph with a cycle**: a recursion whose rounds never become empty does not end here, where
UNION ends. `WITH RECURSIVE t AS (SELECT 1 AS n UNION SELECT 3 - n AS n FROM t)`. -/
theorem C76_union_cycle_violated : ∃ (c : Cte (Option Int)) (b : Branch (Option Int)), c.branches = [one, b] ∧ c.distinct = true ∧
    (∀ s, DistinctRecursion (b.step s) (rowsN [1]) (rowsN [1]) (rowsN [1, 2])) ∧ ∀ s t, ¬ RunCte s c t := by
  let b : Branch (Option Int) := ⟨.memory ['t'], fun _ r => match get r ['n'] with
    | some v => rowsN [3 - v]
    | none => []⟩
  refine ⟨⟨['t'], none, true, [one, b]⟩, b, rfl, rfl, fun s => ?_, ?_⟩
  · refine .round (by decide) ?_
    have h1 : newRows (b.step s) (rowsN [1]) (rowsN [1]) = rowsN [2] := by
      show newRows (fun _ => rowsN [2]) (rowsN [1]) (rowsN [1]) = rowsN [2]
      decide +kernel
    rw [h1]
    refine .round (by decide) ?_
    have h2 : newRows (b.step s) (rowsN [1] ++ rowsN [2]) (rowsN [2]) = [] := by
      show newRows (fun _ => rowsN [1]) (rowsN [1] ++ rowsN [2]) (rowsN [2]) = []
      decide +kernel
    rw [h2, List.append_nil]
    exact .done
  · rintro s t ⟨o, h, -⟩
    cases h with
    | loop hl => cases hl
    | plain _ h =>
      cases h with
      | plain hl => cases hl
      | loop _ hl _ =>
        obtain ⟨n, hn, -⟩ := (loop_iff _ _ _).1 hl
        have hlev : ∀ n, ∃ v : Int, level (b.step s) (rowsN [1]) n = rowsN [v] := by
          intro n
          induction n with
          | zero => exact ⟨1, rfl⟩
          | succ n ih =>
            obtain ⟨v, hv⟩ := ih
            exact ⟨3 - v, by rw [level, hv]; rfl⟩
        obtain ⟨v, hv⟩ := hlev n
        have hn' : level (b.step s) (rowsN [1]) n = [] := hn
        rw [hv] at hn'
        cases hn'

end Verif.Props
