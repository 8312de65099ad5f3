import Verif.Model.QueryConfig
import Verif.Props.Config
/-!
C183: the settings a query works with.
-/
namespace Verif.Props
open Verif.Val Verif.Json Verif.Config Verif.ConfigSpec Verif.ConfigProofs Verif.QueryConfig

namespace QueryConfigLemmas

/-- Reading keeps what is cached. -/
theorem get_keeps (D : Cfg) (s : Config.State) (m n : Nat) (c : Cfg) (h : s.cache n = some c) : (getCfg D s m).2.cache n = some c := by
  induction m with
  | zero => exact h
  | succ m ih =>
    rw [getCfg]
    cases hc : s.cache (m + 1) with
    | some _ => exact h
    | none =>
      simp only [setAt]
      split
      · rename_i e; rw [e] at h; rw [h] at hc; cases hc
      · exact ih

/-- Reading caches. -/
theorem get_caches (D : Cfg) (s : Config.State) (n : Nat) : (getCfg D s (n + 1)).2.cache (n + 1) = some (getCfg D s (n + 1)).1 := by
  rw [getCfg]
  cases hc : s.cache (n + 1) with
  | some _ => exact hc
  | none => simp [setAt]

theorem get_cached (D : Cfg) (s : Config.State) (n : Nat) (c : Cfg) (h : s.cache (n + 1) = some c) : (getCfg D s (n + 1)).1 = c := by
  rw [getCfg, h]

/-- What a session passed is what it has cached. -/
def Passed (s : QueryConfig.State) : Prop := ∀ n e, s.ext (n + 1) = some e → ∃ c, s.cfg.cache (n + 1) = some c ∧ e = restrict c

theorem ext_passed (D : Cfg) (s : QueryConfig.State) (h : Passed s) (n : Nat) :
    (getExt D s (n + 1)).1 = restrict (getCfg D s.cfg (n + 1)).1 := by
  cases he : s.ext (n + 1) with
  | none => simp only [getExt, he]
  | some e =>
    obtain ⟨c, h1, h2⟩ := h n e he
    simp only [getExt, he, h2, get_cached D s.cfg n c h1]

theorem ext_keeps (D : Cfg) (s : QueryConfig.State) (h : Passed s) (n : Nat) : Passed (getExt D s n).2 := by
  cases he : s.ext n with
  | some e => simp only [getExt, he]; exact h
  | none =>
    intro m e hm
    simp only [getExt, he] at hm ⊢
    by_cases hmn : m + 1 = n
    · subst hmn
      rw [setAt, if_pos rfl] at hm
      exact ⟨_, get_caches D s.cfg m, (Option.some.inj hm).symm⟩
    · rw [setAt, if_neg hmn] at hm
      obtain ⟨c, h1, h2⟩ := h m e hm
      exact ⟨c, get_keeps D s.cfg n (m + 1) c h1, h2⟩

theorem step_keeps (D : Cfg) (loads : J → Option J) (s : QueryConfig.State) (h : Passed s) (op : QueryConfig.Op) :
    Passed (QueryConfig.step D loads s op).2 := by
  cases op with
  | set n path v =>
    intro m e hm
    simp only [QueryConfig.step, setAt, setCfg] at hm ⊢
    split at hm
    · cases hm
    · rename_i hmn
      rw [if_neg hmn]
      exact h m e hm
  | get n =>
    intro m e hm
    obtain ⟨c, h1, h2⟩ := h m e hm
    exact ⟨c, get_keeps D s.cfg n (m + 1) c h1, h2⟩
  | query n => exact ext_keeps D s h n

theorem run_passed (D : Cfg) (loads : J → Option J) (ops : List QueryConfig.Op) : ∀ s, Passed s → Passed (QueryConfig.run D loads s ops) := by
  induction ops with
  | nil => exact fun s h => h
  | cons op ops ih => exact fun s h => ih _ (step_keeps D loads s h op)

theorem start_passed (D : Cfg) : Passed (QueryConfig.start D) := fun _ _ h => by cases h

/-- The sections of a configuration that are passed. -/
theorem restrict_look (k : Str) (c : Cfg) : look k (restrict c) = if k ∈ extendKeys then look k c else none := by
  have key : ∀ l : List Str, look k (l.filterMap fun k => (look k c).map fun v => (k, v)) = if k ∈ l then look k c else none := by
    intro l
    induction l with
    | nil => rfl
    | cons x l ih =>
      rw [List.filterMap_cons]
      cases hx : look x c with
      | none =>
        simp only [Option.map_none]
        rw [ih]
        by_cases hk : k = x
        · subst hk; simp [hx]
        · simp [hk]
      | some v =>
        simp only [Option.map_some]
        by_cases hk : k = x
        · subst hk; simp [look, hx]
        · rw [show look k ((x, v) :: l.filterMap fun k => (look k c).map fun v => (k, v)) =
            look k (l.filterMap fun k => (look k c).map fun v => (k, v)) by simp [look, Ne.symm hk], ih]
          simp [hk]
  exact key extendKeys

end QueryConfigLemmas
open QueryConfigLemmas

/-- **C183**: after any history, a query gets of its session's configuration what the session itself reads at that moment: the sections
databases, caches, imports, sources, defines, variables, options, states (and extends), and nothing else. -/
theorem C183_query_reads (D : Cfg) (loads : J → Option J) (ops : List QueryConfig.Op) (n : Nat) (k : Str) :
    let s := QueryConfig.run D loads (QueryConfig.start D) ops
    valueOf k (QueryConfig.read D s (some (n + 1)) ["session".toList, "config".toList]).1 =
      if k ∈ extendKeys then valueOf k (getCfg D s.cfg (n + 1)).1 else none := by
  intro s
  have hp : Passed s := run_passed D loads ops _ (start_passed D)
  have hr : (QueryConfig.read D s (some (n + 1)) ["session".toList, "config".toList]).1 = (getExt D s (n + 1)).1 := by
    simp only [QueryConfig.read, and_self, if_true]
  rw [hr, ext_passed D s hp, look_eq, look_eq, restrict_look]

/-- **C183**: reading and querying change nothing of what any session reads. -/
theorem C183_query_reads_only (D : Cfg) (s : QueryConfig.State) (n m : Nat) :
    (QueryConfig.getExt D s n).2.cfg.own = s.cfg.own ∧
    ∀ c, s.cfg.cache m = some c → (QueryConfig.getExt D s n).2.cfg.cache m = some c := by
  cases he : s.ext n with
  | some e => simp only [getExt, he]; exact ⟨trivial, fun c h => h⟩
  | none => simp only [getExt, he]; exact ⟨get_own D s.cfg n, fun c h => get_keeps D s.cfg n m c h⟩

/-- **C183**: `context://session/config/name` is that one section, as the session reads it, else the built-in one; anything else, and
anything outside of a session, is empty. -/
theorem C183_section (D : Cfg) (s : QueryConfig.State) (n : Nat) (k k' : Str) (rest path : List Str) :
    (valueOf k (QueryConfig.read D s (some n) ("session".toList :: "config".toList :: k :: rest)).1 =
      orElse (valueOf k (getCfg D s.cfg n).1) (valueOf k D)) ∧
    (k' ≠ k → valueOf k' (QueryConfig.read D s (some n) ("session".toList :: "config".toList :: k :: rest)).1 = none) ∧
    ((∀ r, path ≠ "session".toList :: "config".toList :: r) → (QueryConfig.read D s (some n) path).1 = []) ∧
    (QueryConfig.read D s none path).1 = [] := by
  refine ⟨?_, fun hk => ?_, fun hp => ?_, rfl⟩
  · simp only [QueryConfig.read, and_self, if_true, look_eq]
    cases look k (getCfg D s.cfg n).1 with
    | some v => simp [Option.or, orElse, look]
    | none => cases look k D with
      | some v => simp [Option.or, orElse, look]
      | none => simp [Option.or, orElse, look]
  · simp only [QueryConfig.read, and_self, if_true, look_eq]
    cases (look k (getCfg D s.cfg n).1).or (look k D) with
    | some v => simp [look, Ne.symm hk]
    | none => simp [look]
  · unfold QueryConfig.read
    match path with
    | [] => rfl
    | [_] => rfl
    | a :: b :: rest =>
      simp only
      rw [if_neg]
      rintro ⟨rfl, rfl⟩
      exact hp rest rfl

/-- The SETs among what happens, on the own settings. -/
def ownSets (loads : J → Option J) (own : Nat → Cfg) : List QueryConfig.Op → Nat → Cfg
  | [] => own
  | .set n path v :: ops => ownSets loads (setAt own n (setKey loads (own n) path v)) ops
  | .get _ :: ops => ownSets loads own ops
  | .query _ :: ops => ownSets loads own ops

/-- The session of the script does all the reading and writing. -/
def OnlyAt (m : Nat) : QueryConfig.Op → Prop
  | .set n _ _ => n = m
  | .get n => n = m
  | .query n => n = m

/-- The settings of the queries of a script when each is worked with the SETs before it, and none after it. -/
def inOrderSettings (D : Cfg) (loads : J → Option J) (m : Nat) : (Nat → Cfg) → List QueryConfig.Op → List Cfg
  | _, [] => []
  | own, .query _ :: ops => restrict (fresh D own m) :: inOrderSettings D loads m own ops
  | own, op :: ops => inOrderSettings D loads m (ownSets loads own [op]) ops

/-- What the session and those it inherits from have cached is what their settings say. -/
def CoherentTo (D : Cfg) (s : Config.State) (m : Nat) : Prop := ∀ n ≤ m, ∀ c, s.cache n = some c → c = fresh D s.own n

theorem get_coherentTo (D : Cfg) (s : Config.State) (m : Nat) (h : CoherentTo D s m) (n : Nat) (hn : n ≤ m) :
    (getCfg D s n).1 = fresh D s.own n ∧ CoherentTo D (getCfg D s n).2 m := by
  induction n with
  | zero => exact ⟨rfl, h⟩
  | succ n ih =>
    have ih := ih (Nat.le_of_succ_le hn)
    cases hc : s.cache (n + 1) with
    | some c => rw [getCfg, hc]; exact ⟨h _ hn _ hc, h⟩
    | none =>
      have e := get_fresh D s n hc
      rw [ih.1, get_own] at e
      refine ⟨e, ?_⟩
      intro j hj c hm
      have ho : (getCfg D s (n + 1)).2.own = s.own := get_own D s (n + 1)
      rw [ho]
      rw [getCfg, hc] at hm
      simp only [setAt] at hm
      split at hm
      · rename_i hmn
        subst hmn
        rw [ih.1, get_own] at hm
        cases hm
        rfl
      · have := ih.2 j hj c hm
        rwa [get_own] at this

theorem set_coherentTo (D : Cfg) (loads : J → Option J) (s : Config.State) (m : Nat) (h : CoherentTo D s m) (path : List Str) (v : Option J) :
    CoherentTo D (setCfg loads s m path v) m := by
  intro n hn c hc
  simp only [setCfg, setAt] at hc ⊢
  split at hc
  · cases hc
  · rename_i hne
    rw [h n hn c hc]
    exact fresh_congr D _ _ n fun i hi => by
      show _ = (if i = m then _ else s.own i)
      rw [if_neg (by omega)]

/-- **C183** for a script: each query works with the settings made by the SETs before it in the script, and none after it.  (`own` and
the parents' caches as they are at the beginning.) -/
theorem C183_script (D : Cfg) (loads : J → Option J) (m : Nat) (ops : List QueryConfig.Op) (hm : ∀ op ∈ ops, OnlyAt (m + 1) op) :
    ∀ s : QueryConfig.State, CoherentTo D s.cfg (m + 1) → Passed s →
      queries D loads s ops = inOrderSettings D loads (m + 1) s.cfg.own ops := by
  induction ops with
  | nil => intro s _ _; rfl
  | cons op ops ih =>
    intro s hc hp
    have ho := hm op List.mem_cons_self
    have ih' := ih fun o h => hm o (List.mem_cons_of_mem _ h)
    have hp' := step_keeps D loads s hp op
    cases op with
    | set n path v =>
      have ho : n = m + 1 := ho
      subst ho
      rw [queries, inOrderSettings]
      · exact ih' _ (set_coherentTo D loads s.cfg _ hc path v) hp'
      · intro n h; cases h
    | get n =>
      have ho : n = m + 1 := ho
      subst ho
      rw [queries, inOrderSettings]
      · have := ih' _ (get_coherentTo D s.cfg _ hc _ (Nat.le_refl _)).2 hp'
        rw [show (QueryConfig.step D loads s (.get (m + 1))).2.cfg.own = s.cfg.own from get_own D s.cfg (m + 1)] at this
        exact this
      · intro n h; cases h
    | query n =>
      have ho : n = m + 1 := ho
      subst ho
      have hg := get_coherentTo D s.cfg _ hc _ (Nat.le_refl (m + 1))
      have hr : (QueryConfig.read D s (some (m + 1)) ["session".toList, "config".toList]) = getExt D s (m + 1) := by
        simp only [QueryConfig.read, and_self, if_true]
      have h2 : CoherentTo D (getExt D s (m + 1)).2.cfg (m + 1) := by
        cases he : s.ext (m + 1) with
        | some e => simp only [getExt, he]; exact hc
        | none => simp only [getExt, he]; exact hg.2
      have h3 := (C183_query_reads_only D s (m + 1) 0).1
      have h4 := ih' (getExt D s (m + 1)).2 h2 (ext_keeps D s hp _)
      rw [queries, inOrderSettings]
      simp only [QueryConfig.step, hr]
      rw [h4, h3, ext_passed D s hp, hg.1]
      rfl

/-- Sessions that have read nothing meet the hypotheses. -/
theorem start_ok (D : Cfg) (m : Nat) : CoherentTo D (QueryConfig.start D).cfg m ∧ Passed (QueryConfig.start D) :=
  ⟨(fun _ _ _ h => by cases h), start_passed D⟩

/-- **C183 is violated between sessions**: once a session has submitted a query, no SET of its parent reaches its queries. -/
theorem C183_parent_violated (D : Cfg) (loads : J → Option J) (ops : List QueryConfig.Op) (n : Nat) (path : List Str) (v : Option J) :
    let s := (QueryConfig.step D loads (QueryConfig.run D loads (QueryConfig.start D) ops) (.query (n + 1))).2
    (QueryConfig.step D loads (QueryConfig.step D loads s (.set n path v)).2 (.query (n + 1))).1 =
      (QueryConfig.step D loads s (.query (n + 1))).1 := by
  intro s
  have hp : Passed s := step_keeps D loads _ (run_passed D loads ops _ (start_passed D)) _
  have hs : ∃ e, s.ext (n + 1) = some e := by
    have : s = (getExt D (QueryConfig.run D loads (QueryConfig.start D) ops) (n + 1)).2 := by
      simp only [s, QueryConfig.step, QueryConfig.read, and_self, if_true]
    rw [this]
    cases he : (QueryConfig.run D loads (QueryConfig.start D) ops).ext (n + 1) with
    | some e => exact ⟨e, by simp only [getExt, he]⟩
    | none =>
      exact ⟨restrict (getCfg D (QueryConfig.run D loads (QueryConfig.start D) ops).cfg (n + 1)).1, by
        simp only [getExt, he, setAt, if_true]⟩
  obtain ⟨e, he⟩ := hs
  have hne : n + 1 ≠ n := by omega
  simp only [QueryConfig.step, QueryConfig.read, and_self, if_true, getExt, he, setAt, if_neg hne]

/-! ### Examples -/

/-- `SET @config.variables.a = 1; SELECT …; SET @config.variables.a = 2; SELECT …` in a session: the first query sees 1, the second 2. -/
example : queries [] some (QueryConfig.start [])
    [.set 1 ["variables".toList, ['a']] (some (.int 1)), .query 1, .set 1 ["variables".toList, ['a']] (some (.int 2)), .query 1] =
      [[("variables".toList, .dict [(['a'], .int 1)])], [("variables".toList, .dict [(['a'], .int 2)])]] := by
  rw [C183_script [] some 0 _ (by simp [OnlyAt]) _ (start_ok [] 1).1 (start_ok [] 1).2]
  rfl

end Verif.Props
