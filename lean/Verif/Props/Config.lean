import Verif.Proofs.Config
/-! C14 (precedence), C15 (merging), C16 (reads after writes). -/
namespace Verif.Props
open Verif.Val Verif.Json Verif.Config Verif.ConfigSpec Verif.ConfigProofs

/-! ## C14 -/

/-- What a session with own settings `own` and parent configuration `p` gets when nothing is cached. -/
theorem get_fresh (D : Cfg) (s : State) (n : Nat) (h : s.cache (n + 1) = none) :
    (getCfg D s (n + 1)).1 = merge (merge D (getCfg D s n).1) ((getCfg D s n).2.own (n + 1)) := by
  rw [getCfg, h]

theorem get_own (D : Cfg) (s : State) (n : Nat) : (getCfg D s n).2.own = s.own := by
  induction n with
  | zero => rfl
  | succ n ih =>
    rw [getCfg]
    cases s.cache (n + 1) with
    | some c => rfl
    | none => exact ih

/-- **C14**: what a session reads (nothing cached) for a plain key, for an entry of a dictionary section, for a property of a
database or cache: its own value, else the value its parent reads, else the default. -/
theorem C14_precedence (D : Cfg) (s : State) (n : Nat) (hfresh : s.cache (n + 1) = none) (hD : Wf D)
    (hP : Wf (getCfg D s n).1) (hO : Wf (s.own (n + 1))) :
    (∀ k, PlainKey k → valueOf k (getCfg D s (n + 1)).1 =
      orElse (valueOf k (s.own (n + 1))) (orElse (valueOf k (getCfg D s n).1) (valueOf k D))) ∧
    (∀ k ∈ dictKeys, ∀ x, entryOf (getCfg D s (n + 1)).1 k x =
      orElse (entryOf (s.own (n + 1)) k x) (orElse (entryOf (getCfg D s n).1 k x) (entryOf D k x))) ∧
    (∀ k ∈ namedKeys, ∀ db p, propOf (getCfg D s (n + 1)).1 k db p =
      orElse (propOf (s.own (n + 1)) k db p) (orElse (propOf (getCfg D s n).1 k db p) (propOf D k db p))) := by
  rw [get_fresh D s n hfresh, get_own]
  have hm := merge_wf hD hP
  refine ⟨fun k hk => ?_, fun k hk x => ?_, fun k hk db p => ?_⟩
  · rw [look_eq, look_eq, look_eq, look_eq, plain_merge hk _ _ hO.nodup, plain_merge hk _ _ hP.nodup]
  · rw [entry_merge hk x _ _ hm hO, entry_merge hk x _ _ hD hP]
  · rw [prop_merge hk db p _ _ hm hO, prop_merge hk db p _ _ hD hP]

/-- The hypotheses of C14 hold for every chain of sessions whose own settings are well formed. -/
theorem get_wf (D : Cfg) (hD : Wf D) (s : State) (hown : ∀ n, Wf (s.own n)) (hcache : ∀ n c, s.cache n = some c → Wf c) (n : Nat) :
    Wf (getCfg D s n).1 := by
  induction n with
  | zero => exact hown 0
  | succ n ih =>
    cases h : s.cache (n + 1) with
    | some c => rw [getCfg, h]; exact hcache _ _ h
    | none => rw [get_fresh D s n h, get_own]; exact merge_wf (merge_wf hD ih) (hown _)

/-- **C117 is violated by the keys of the default configuration**: a session starts with a copy of the defaults as its own
settings, so a plain key of the defaults hides whatever the parent has set. -/
theorem C117_default_key_violated (D : Cfg) (s : State) (n : Nat) (hfresh : s.cache (n + 1) = none) (hD : (D.map (·.1)).Nodup)
    (hO : s.own (n + 1) = D) (k : Str) (hk : PlainKey k) (v : Sect) (hv : valueOf k D = some v) :
    valueOf k (getCfg D s (n + 1)).1 = some v := by
  rw [get_fresh D s n hfresh, get_own, hO, look_eq, plain_merge hk _ _ hD, ← look_eq, hv]
  rfl

/-! ## C15 -/

/-- **C15**, visibility: after merging `d` into `c`, everything `d` says holds, and everything else is as in `c`. -/
theorem C15_right_biased (c d : Cfg) (hc : Wf c) (hd : Wf d) :
    (∀ k, PlainKey k → valueOf k (merge c d) = orElse (valueOf k d) (valueOf k c)) ∧
    (∀ k ∈ dictKeys, ∀ x, entryOf (merge c d) k x = orElse (entryOf d k x) (entryOf c k x)) ∧
    (∀ k ∈ namedKeys, ∀ db p, propOf (merge c d) k db p = orElse (propOf d k db p) (propOf c k db p)) ∧
    (∀ k, valueOf k d = none → valueOf k (merge c d) = valueOf k c) := by
  refine ⟨fun k hk => ?_, fun k hk x => entry_merge hk x c d hc hd, fun k hk db p => prop_merge hk db p c d hc hd, fun k hk => ?_⟩
  · rw [look_eq, look_eq, look_eq, plain_merge hk _ _ hd.nodup]
  · rw [look_eq] at hk ⊢
    rw [look_eq, look_merge c d hd.nodup, hk]

theorem find_eq_of {l : List Db} (hl : (names l).Nodup) {d : Db} (h : d ∈ l) : findDb d.name l = some d := by
  induction l with
  | nil => cases h
  | cons e l ih =>
    simp only [names, List.map_cons, List.nodup_cons] at hl
    rw [findDb_cons]
    rcases List.mem_cons.1 h with rfl | h
    · rw [if_pos rfl]
    · rw [if_neg, ih hl.2 h]
      intro he
      exact hl.1 (he ▸ List.mem_map.2 ⟨d, h, rfl⟩)

theorem updateLast_same {d e : Db} {l : List Db} (hl : (names l).Nodup) (h : findDb d.name l = some e) (hu : upd e d = e) :
    updateLast d l = l := by
  induction l with
  | nil => rfl
  | cons a l ih =>
    simp only [names, List.map_cons, List.nodup_cons] at hl
    rw [findDb_cons] at h
    rw [updateLast]
    by_cases ha : a.name = d.name
    · rw [if_pos ha] at h
      cases h
      have : d.name ∉ names l := ha ▸ hl.1
      rw [if_neg (by rw [any_name]; exact this), if_pos ha]
      congr 1
    · rw [if_neg ha] at h
      have hmem : d.name ∈ names l := (find_props h).2 ▸ List.mem_map.2 ⟨_, (find_props h).1, rfl⟩
      rw [if_pos (any_name.2 hmem), ih hl.2 h]

/-- A second merge of the same named list changes nothing. -/
theorem mergeNamed_idem (e l : List Db) (he : (names e).Nodup) (hl : (names l).Nodup)
    (pe : ∀ x ∈ e, (x.props.map (·.1)).Nodup) (pl : ∀ x ∈ l, (x.props.map (·.1)).Nodup) :
    mergeNamed (mergeNamed e l) l = mergeNamed e l := by
  have hm := mergeNamed_wf e l he hl pe pl
  generalize hg : mergeNamed e l = m at hm
  have key : ∀ l' : List Db, (∀ d ∈ l', d ∈ l) → l'.foldl (mstep m) (m, []) = (m, []) := by
    intro l' h'
    induction l' with
    | nil => rfl
    | cons d l' ih =>
      have hd := h' d (by simp)
      have hf : findDb d.name l = some d := find_eq_of hl hd
      have hfm := mergeNamed_find e l he hl d.name
      rw [hg, hf] at hfm
      have : ∃ x, findDb d.name m = some x ∧ upd x d = x := by
        cases hx : findDb d.name e with
        | none => rw [hx] at hfm; exact ⟨d, hfm, by rw [upd, update_same (fun _ _ h => h) (pl d hd)]⟩
        | some x =>
          rw [hx] at hfm
          refine ⟨upd x d, hfm, ?_⟩
          show Db.mk _ (update (update x.props d.props) d.props) = Db.mk _ (update x.props d.props)
          rw [update_idem _ _ (pl d hd)]; rfl
      obtain ⟨x, hx, hu⟩ := this
      have hmem : d.name ∈ names m := (find_props hx).2 ▸ List.mem_map.2 ⟨_, (find_props hx).1, rfl⟩
      rw [List.foldl_cons, mstep, if_pos (any_name.2 hmem), updateLast_same hm.1 hx hu]
      exact ih fun d hd => h' d (List.mem_cons_of_mem _ hd)
  rw [mergeNamed_eq, key l fun _ h => h]
  simp

/-- The sections that are appended to. -/
def Appending (k : Str) : Prop := k = pipelinesKey ∨ k ∈ listKeys

/-- **C15**, idempotence: merging the same configuration a second time changes no section but the appending ones. -/
theorem C15_idempotent (c d : Cfg) (hc : Wf c) (hd : Wf d) (k : Str) (hk : ¬ Appending k) :
    valueOf k (merge (merge c d) d) = valueOf k (merge c d) := by
  rw [look_eq, look_eq, look_merge _ d hd.nodup, look_merge c d hd.nodup]
  cases h : look k d with
  | none => rfl
  | some w =>
    simp only
    by_cases h1 : k ∈ dictKeys
    · obtain ⟨dd, rfl, hdd⟩ := hd.dicts k h1 w (by rw [look_eq]; exact h)
      simp only [mergeSect, h1, if_true]
      cases h' : look k c with
      | none => simp only; rw [update_same (fun _ _ h => h) hdd]
      | some w' =>
        obtain ⟨ee, rfl, hee⟩ := hc.dicts k h1 w' (by rw [look_eq]; exact h')
        simp only
        rw [update_idem _ _ hdd]
    · by_cases h2 : k ∈ namedKeys
      · obtain ⟨dd, rfl, hdd, hpd⟩ := hd.named k h2 w (by rw [look_eq]; exact h)
        simp only [mergeSect, h1, h2, if_true, if_false]
        cases h' : look k c with
        | none =>
          simp only
          have := mergeNamed_idem [] dd (by simp [names]) hdd (by simp) hpd
          have e0 : (dd.foldl (mstep []) ([], [])).1 = [] := by
            have := fold_names [] dd [] []
            simpa [names] using this
          have e : mergeNamed [] dd = dd := by rw [mergeNamed_eq, fold_second, e0]; simp
          rw [e] at this
          rw [this]
        | some w' =>
          obtain ⟨ee, rfl, hee, hpe⟩ := hc.named k h2 w' (by rw [look_eq]; exact h')
          simp only
          rw [mergeNamed_idem ee dd hee hdd hpe hpd]
      · have h3 : k ≠ pipelinesKey := fun e => hk (Or.inl e)
        have h4 : k ∉ listKeys := fun e => hk (Or.inr e)
        simp [mergeSect, h1, h2, h3, h4]

theorem appending_grows (k : Str) (h1 : k ∉ dictKeys) (h2 : k ∉ namedKeys) (h3 : k ≠ pipelinesKey) (h4 : k ∈ listKeys) (x : J) :
    valueOf k (merge (merge [] [(k, .list [x])]) [(k, .list [x])]) = some (.list [x, x]) := by
  rw [look_eq, look_merge _ _ (by simp), look_merge _ _ (by simp)]
  simp only [look, if_true, mergeSect, h1, h2, h3, h4, if_false, listOf, List.cons_append, List.nil_append]

/-- The appending sections do grow: merging `states = [x]` twice leaves `x` twice. -/
theorem C15_appending_not_idempotent (x : J) :
    valueOf "states".toList (merge (merge [] [("states".toList, .list [x])]) [("states".toList, .list [x])]) =
      some (.list [x, x]) :=
  appending_grows _ (by decide) (by decide) (by decide) (by decide) x

/-- Two configurations with a variable, a database and a plain key each: the hypotheses of C14 and C15. -/
def cfgA : Cfg := [("variables".toList, .dict [(['a'], .int 1), (['b'], .int 2)]),
  ("databases".toList, .named [⟨['m'], [("host".toList, .str ['x'])]⟩]), ("encoding".toList, .plain (.str ['u']))]
def cfgB : Cfg := [("variables".toList, .dict [(['b'], .int 3)]),
  ("databases".toList, .named [⟨['m'], [("port".toList, .int 5)]⟩, ⟨['n'], []⟩])]

theorem cfg_wf {c : Cfg} (h1 : (c.map (·.1)).Nodup)
    (h2 : ∀ kv ∈ c, kv.1 ∈ dictKeys → ∃ d, kv.2 = .dict d ∧ (d.map (·.1)).Nodup)
    (h3 : ∀ kv ∈ c, kv.1 ∈ namedKeys → ∃ l, kv.2 = .named l ∧ (l.map (·.name)).Nodup ∧ ∀ d ∈ l, (d.props.map (·.1)).Nodup) : Wf c := by
  have mem : ∀ k v, valueOf k c = some v → (k, v) ∈ c := by
    intro k v h
    rw [valueOf] at h
    cases hf : c.find? (fun x => x.1 = k) with
    | none => rw [hf] at h; simp at h
    | some y =>
      rw [hf] at h
      simp only [Option.map_some, Option.some.injEq] at h
      have e := List.find?_some hf
      simp only [decide_eq_true_eq] at e
      have := List.mem_of_find?_eq_some hf
      rw [← h, ← e]; exact this
  exact ⟨h1, fun k hk v hv => h2 _ (mem k v hv) hk, fun k hk v hv => h3 _ (mem k v hv) hk⟩

theorem cfgA_wf : Wf cfgA := by
  refine cfg_wf (by decide) ?_ ?_
  · intro kv h hk
    simp only [cfgA, List.mem_cons, List.not_mem_nil, or_false] at h
    rcases h with rfl | rfl | rfl
    · exact ⟨_, rfl, by decide⟩
    · exact absurd hk (by decide)
    · exact absurd hk (by decide)
  · intro kv h hk
    simp only [cfgA, List.mem_cons, List.not_mem_nil, or_false] at h
    rcases h with rfl | rfl | rfl
    · exact absurd hk (by decide)
    · exact ⟨_, rfl, by simp, by simp⟩
    · exact absurd hk (by decide)

theorem cfgB_wf : Wf cfgB := by
  refine cfg_wf (by decide) ?_ ?_
  · intro kv h hk
    simp only [cfgB, List.mem_cons, List.not_mem_nil, or_false] at h
    rcases h with rfl | rfl
    · exact ⟨_, rfl, by decide⟩
    · exact absurd hk (by decide)
  · intro kv h hk
    simp only [cfgB, List.mem_cons, List.not_mem_nil, or_false] at h
    rcases h with rfl | rfl
    · exact absurd hk (by decide)
    · exact ⟨_, rfl, by simp, by simp⟩

/-- Merging them: the variable `b` is taken from the second, `a` kept, the database `m` has both properties. -/
example : entryOf (merge cfgA cfgB) "variables".toList ['b'] = some (.int 3) ∧
    entryOf (merge cfgA cfgB) "variables".toList ['a'] = some (.int 1) ∧
    propOf (merge cfgA cfgB) "databases".toList ['m'] "host".toList = some (.str ['x']) ∧
    propOf (merge cfgA cfgB) "databases".toList ['m'] "port".toList = some (.int 5) := by
  obtain ⟨_, h2, h3, _⟩ := C15_right_biased cfgA cfgB cfgA_wf cfgB_wf
  rw [h2 _ (by decide), h2 _ (by decide), h3 _ (by decide), h3 _ (by decide)]
  exact ⟨rfl, rfl, rfl, rfl⟩

/-! ## C16 -/

/-- What every level reads, computed from the own settings alone. -/
def fresh (D : Cfg) (own : Nat → Cfg) : Nat → Cfg
  | 0 => own 0
  | n + 1 => merge (merge D (fresh D own n)) (own (n + 1))

/-- The own settings after a history. -/
def ownAfter (loads : J → Option J) (own : Nat → Cfg) : List Op → Nat → Cfg
  | [] => own
  | .set n path v :: ops => ownAfter loads (setAt own n (setKey loads (own n) path v)) ops
  | .get _ :: ops => ownAfter loads own ops

/-- Caches hold what would be computed. -/
def Coherent (D : Cfg) (s : State) : Prop := ∀ n c, s.cache n = some c → c = fresh D s.own n

theorem get_coherent (D : Cfg) (s : State) (h : Coherent D s) (n : Nat) :
    (getCfg D s n).1 = fresh D s.own n ∧ Coherent D (getCfg D s n).2 := by
  induction n with
  | zero => exact ⟨rfl, h⟩
  | succ n ih =>
    cases hc : s.cache (n + 1) with
    | some c => rw [getCfg, hc]; exact ⟨h _ _ hc, h⟩
    | none =>
      have e := get_fresh D s n hc
      rw [ih.1, get_own] at e
      refine ⟨e, ?_⟩
      intro m c hm
      have ho : (getCfg D s (n + 1)).2.own = s.own := get_own D s (n + 1)
      rw [ho]
      rw [getCfg, hc] at hm
      simp only [setAt] at hm
      split at hm
      · rename_i hmn
        subst hmn
        rw [ih.1, get_own] at hm
        cases hm
        rfl
      · have := ih.2 m c hm
        rwa [get_own] at this

theorem fresh_congr (D : Cfg) (own own' : Nat → Cfg) (n : Nat) (h : ∀ m ≤ n, own m = own' m) : fresh D own n = fresh D own' n := by
  induction n with
  | zero => exact h 0 (Nat.le_refl _)
  | succ n ih => rw [fresh, fresh, ih fun m hm => h m (by omega), h (n + 1) (Nat.le_refl _)]

/-- Reads at level `n` fill caches at levels up to `n` only. -/
theorem get_cache (D : Cfg) (s : State) (n m : Nat) (hm : n < m) : (getCfg D s n).2.cache m = s.cache m := by
  induction n with
  | zero => rfl
  | succ n ih =>
    rw [getCfg]
    cases s.cache (n + 1) with
    | some c => rfl
    | none =>
      simp only [setAt]
      rw [if_neg (by omega)]
      exact ih (by omega)

/-- No session is written to after a session below it has been read. -/
def WritesFirst : List Op → Prop
  | [] => True
  | .set _ _ _ :: ops => WritesFirst ops
  | .get n :: ops => (∀ m path v, Op.set m path v ∈ ops → n ≤ m) ∧ WritesFirst ops

/-- Levels above which nothing is cached. -/
theorem run_coherent (D : Cfg) (loads : J → Option J) (ops : List Op) : ∀ (s : State), Coherent D s → WritesFirst ops →
    (∀ m path v, Op.set m path v ∈ ops → ∀ j, m < j → s.cache j = none) →
    Coherent D (run D loads s ops) ∧ (run D loads s ops).own = ownAfter loads s.own ops := by
  induction ops with
  | nil => intro s h _ _; exact ⟨h, rfl⟩
  | cons op ops ih =>
    intro s h hw hn
    cases op with
    | get n =>
      have hg := get_coherent D s h n
      have hrun : run D loads s (.get n :: ops) = run D loads (getCfg D s n).2 ops := rfl
      rw [hrun]
      have := ih (getCfg D s n).2 hg.2 hw.2 (fun m path v hm j hj => by
        rw [get_cache D s n j (Nat.lt_of_le_of_lt (hw.1 m path v hm) hj)]
        exact hn m path v (List.mem_cons_of_mem _ hm) j hj)
      rw [get_own] at this
      exact this
    | set n path v =>
      have hrun : run D loads s (.set n path v :: ops) = run D loads (setCfg loads s n path v) ops := rfl
      rw [hrun]
      refine ih (setCfg loads s n path v) ?_ hw ?_
      · intro m c hm
        have hm' : (if m = n then none else s.cache m) = some c := hm
        split at hm'
        · simp at hm'
        · rename_i hmn
          have hlt : ¬ n < m := fun hlt => by
            rw [hn n path v (by simp) m hlt] at hm'; simp at hm'
          rw [h m c hm']
          refine fresh_congr D _ _ m fun i hi => ?_
          have hin : i ≠ n := by omega
          show _ = (if i = n then _ else s.own i)
          rw [if_neg hin]
      · intro m path' v' hm j hj
        show (if j = n then none else s.cache j) = none
        split
        · rfl
        · exact hn m path' v' (List.mem_cons_of_mem _ hm) j hj

/-- **C118**: when no session is written to after one below it has been read (in particular when only the innermost session is
written to after the first read), every read is what the settings made so far say. -/
theorem C118_reads_current_partial (D : Cfg) (loads : J → Option J) (ops : List Op) (hw : WritesFirst ops) (n : Nat) :
    (getCfg D (run D loads (start D) ops) n).1 = fresh D (ownAfter loads (fun _ => D) ops) n := by
  have h := run_coherent D loads ops (start D) (by intro n c h; simp [start] at h) hw (by intros; rfl)
  rw [(get_coherent D _ h.1 n).1, h.2]
  rfl

/-- **C16**, for every history whatever: a session sees its own last write of a plain key … -/
theorem C16_own_write (D : Cfg) (loads : J → Option J) (s : State) (n : Nat) (k : Str) (v : J) (hk : PlainKey k)
    (hO : ((s.own n).map (·.1)).Nodup) :
    valueOf k (getCfg D (setCfg loads s n [k] (some v)) n).1 = some (.plain v) := by
  have hown : (setCfg loads s n [k] (some v)).own n = ins k (.plain v) (s.own n) := by
    show (if n = n then _ else _) = _
    rw [if_pos rfl]; rfl
  cases n with
  | zero =>
    show valueOf k ((setCfg loads s 0 [k] (some v)).own 0) = _
    rw [hown, look_eq, look_ins, if_pos rfl]
  | succ n =>
    have hc : (setCfg loads s (n + 1) [k] (some v)).cache (n + 1) = none := by
      show (if n + 1 = n + 1 then none else _) = none
      rw [if_pos rfl]
    rw [get_fresh D _ n hc, get_own, hown, look_eq, plain_merge hk _ _ (ins_nodup hO), look_ins, if_pos rfl]
    rfl

/-- … and of a variable, definition or option (as a JSON value when the text is one), and of an import or source. -/
theorem C16_own_write_entry (D : Cfg) (loads : J → Option J) (s : State) (n : Nat) (k x : Str) (v : J)
    (hk : k = "imports".toList ∨ k = "sources".toList ∨ k = "defines".toList ∨ k = "variables".toList ∨ k = "options".toList)
    (hD : Wf D) (hown : ∀ n, Wf (s.own n)) (hcache : ∀ n c, s.cache n = some c → Wf c) :
    entryOf (getCfg D (setCfg loads s n [k, x] (some v)) n).1 k x =
      some (if k = "imports".toList ∨ k = "sources".toList then v else (loads v).getD v) := by
  have hkd : k ∈ dictKeys := by
    rcases hk with rfl | rfl | rfl | rfl | rfl <;> decide
  have hndb : k ≠ "databases".toList := by
    rcases hk with rfl | rfl | rfl | rfl | rfl <;> decide
  generalize hw : (if k = "imports".toList ∨ k = "sources".toList then v else (loads v).getD v) = w
  have hset : setKey loads (s.own n) [k, x] (some v) = ins k (.dict (ins x w (dictOf k (s.own n)))) (s.own n) := by
    rw [setKey, if_neg hndb]
    by_cases h1 : k = "imports".toList ∨ k = "sources".toList
    · rw [if_pos h1] at hw ⊢; simp only [hw]
    · rw [if_neg h1] at hw ⊢
      have h2 : k = "defines".toList ∨ k = "variables".toList ∨ k = "options".toList := by
        rcases hk with h | h | h
        · exact absurd (Or.inl h) h1
        · exact absurd (Or.inr h) h1
        · exact h
      rw [if_pos h2]; simp only [hw]
  have hwf : Wf (ins k (.dict (ins x w (dictOf k (s.own n)))) (s.own n)) := by
    have hO := hown n
    refine ⟨ins_nodup hO.nodup, fun k' hk' v' hv' => ?_, fun k' hk' v' hv' => ?_⟩
    · rw [look_eq, look_ins] at hv'
      split at hv'
      · cases hv'
        refine ⟨_, rfl, ins_nodup ?_⟩
        rw [dictOf]
        split
        · rename_i d hd
          obtain ⟨d', he, hnd⟩ := hO.dicts k hkd _ (by rw [look_eq]; exact hd)
          cases he; exact hnd
        · simp
      · exact hO.dicts k' hk' v' (by rw [look_eq]; exact hv')
    · rw [look_eq, look_ins] at hv'
      split at hv'
      · rename_i hkk
        subst hkk
        exact absurd hkd (not_dict_of_named hk')
      · exact hO.named k' hk' v' (by rw [look_eq]; exact hv')
  have hownw : (setCfg loads s n [k, x] (some v)).own n = ins k (.dict (ins x w (dictOf k (s.own n)))) (s.own n) := by
    show (if n = n then _ else _) = _
    rw [if_pos rfl]; exact hset
  have he : entryOf (ins k (.dict (ins x w (dictOf k (s.own n)))) (s.own n)) k x = some w := by
    simp only [entryOf, look_eq, look_ins, if_true]
  cases n with
  | zero =>
    show entryOf ((setCfg loads s 0 [k, x] (some v)).own 0) k x = _
    rw [hownw, he]
  | succ n =>
    have hc : (setCfg loads s (n + 1) [k, x] (some v)).cache (n + 1) = none := by
      show (if n + 1 = n + 1 then none else _) = none
      rw [if_pos rfl]
    have hwf' : ∀ m, Wf ((setCfg loads s (n + 1) [k, x] (some v)).own m) := by
      intro m
      by_cases hm : m = n + 1
      · subst hm; rw [hownw]; exact hwf
      · show Wf (if m = n + 1 then _ else s.own m)
        rw [if_neg hm]; exact hown m
    have hcache' : ∀ m c, (setCfg loads s (n + 1) [k, x] (some v)).cache m = some c → Wf c := by
      intro m c hm
      have hm' : (if m = n + 1 then none else s.cache m) = some c := hm
      split at hm'
      · simp at hm'
      · exact hcache m c hm'
    have hp := get_wf D hD _ hwf' hcache' n
    rw [get_fresh D _ n hc, get_own, hownw, entry_merge hkd x _ _ (merge_wf hD hp) hwf, he]
    rfl

/-- **C118 is violated between sessions**: once a session has read its configuration, no write to its parent is seen by it. -/
theorem C118_stale_violated (D : Cfg) (loads : J → Option J) (s : State) (n : Nat) (path : List Str) (v : Option J) :
    (getCfg D (setCfg loads (getCfg D s (n + 1)).2 n path v) (n + 1)).1 = (getCfg D s (n + 1)).1 := by
  have hc : (getCfg D s (n + 1)).2.cache (n + 1) = some (getCfg D s (n + 1)).1 := by
    rw [getCfg]
    cases h : s.cache (n + 1) with
    | some c => exact h
    | none => simp [setAt]
  have hc' : (setCfg loads (getCfg D s (n + 1)).2 n path v).cache (n + 1) = some (getCfg D s (n + 1)).1 := by
    show (if n + 1 = n then none else _) = _
    rw [if_neg (by omega), hc]
  generalize setCfg loads (getCfg D s (n + 1)).2 n path v = s' at hc'
  rw [getCfg, hc']

/-- **C118 is violated by NULL**: setting a plain key to NULL in a session does not remove what it inherits. -/
theorem C118_null_violated (D : Cfg) (loads : J → Option J) (s : State) (n : Nat) (k : Str) (hk : PlainKey k) (w : Sect)
    (hO : ((s.own (n + 1)).map (·.1)).Nodup) (hP : ((getCfg D s n).1.map (·.1)).Nodup)
    (hw : valueOf k (getCfg D s n).1 = some w) (hcn : s.cache (n + 1) = none) :
    valueOf k (getCfg D (setCfg loads s (n + 1) [k] none) (n + 1)).1 = some w := by
  have hc : (setCfg loads s (n + 1) [k] none).cache (n + 1) = none := by
    show (if n + 1 = n + 1 then none else _) = none
    rw [if_pos rfl]
  have hown : (setCfg loads s (n + 1) [k] none).own (n + 1) = del k (s.own (n + 1)) := by
    show (if n + 1 = n + 1 then _ else _) = _
    rw [if_pos rfl]; rfl
  have hsame : ∀ m ≤ n, (getCfg D (setCfg loads s (n + 1) [k] none) m).1 = (getCfg D s m).1 := by
    intro m hm
    induction m with
    | zero =>
      have : ∀ c, setAt s.own (n + 1) c 0 = s.own 0 := fun c => if_neg (by omega)
      exact this (setKey loads (s.own (n + 1)) [k] none)
    | succ m ih =>
      have hcm : (setCfg loads s (n + 1) [k] none).cache (m + 1) = s.cache (m + 1) := by
        show (if m + 1 = n + 1 then none else _) = _
        rw [if_neg (by omega)]
      have hom : (setCfg loads s (n + 1) [k] none).own (m + 1) = s.own (m + 1) := by
        show (if m + 1 = n + 1 then _ else s.own (m + 1)) = _
        rw [if_neg (by omega)]
      cases hx : s.cache (m + 1) with
      | some c =>
        rw [getCfg, getCfg, hcm, hx]
      | none =>
        rw [get_fresh D _ m (by rw [hcm, hx]), get_fresh D _ m hx, get_own, get_own, hom, ih (by omega)]
  have hdel : ((del k (s.own (n + 1))).map (·.1)).Nodup := by
    rw [del]; exact List.Nodup.sublist (List.filter_sublist.map _) hO
  rw [get_fresh D _ n hc, get_own, hown, hsame n (Nat.le_refl _), look_eq, plain_merge hk _ _ hdel, look_del, if_pos rfl,
    plain_merge hk _ _ hP, ← look_eq, hw]
  rfl

/-- A write of a database that is not JSON wipes its properties: SET @databases.m = 'x' leaves only the name. -/
theorem C118_bad_json_violated (loads : J → Option J) (n : Str) (c : Cfg) (v : J) (hv : loads v = none) (d : Db) (l : List Db)
    (hc : dbsOf c = d :: l) (hn : d.name = n) :
    dbsOf (setKey loads c ["databases".toList, n] (some v)) = ⟨n, []⟩ :: l := by
  rw [setKey, if_pos rfl, hc]
  have h1 : ensureDb n (d :: l) = d :: l := by
    rw [ensureDb, if_pos]
    simp [hn]
  simp only [h1, hv, onDb, if_pos hn]
  rw [dbsOf, look_ins, if_pos rfl]

/-- A history C16 applies to: the global configuration is set, the session reads, sets and reads again. -/
example : WritesFirst [.set 0 [['x']] (some (.int 1)), .get 1, .set 1 [['x']] (some (.int 2)), .get 1] := by
  simp [WritesFirst]
  intro m _ _ h _ _; omega

end Verif.Props
