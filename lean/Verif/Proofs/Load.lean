import Verif.Spec.Load
import Verif.Proofs.Config
/-! Proofs about loading configuration files. -/
namespace Verif.LoadProofs
open Verif.Val Verif.Json Verif.Config Verif.ConfigSpec Verif.ConfigProofs Verif.Load Verif.LoadSpec

theorem orElse_assoc {α} (a b c : Option α) : orElse (orElse a b) c = orElse a (orElse b c) := by cases a <;> rfl
theorem orElse_none {α} (a : Option α) : orElse a none = a := by cases a <;> rfl
theorem map_orElse {α β} (f : α → β) (a b : Option α) : (orElse a b).map f = orElse (a.map f) (b.map f) := by cases a <;> rfl

/-- Merging: the right side decides. -/
theorem answer_merge {c d : Cfg} (hc : Wf c) (hd : Wf d) (a : Ask) (ha : a.Proper) :
    answer (merge c d) a = orElse (answer d a) (answer c a) := by
  cases a with
  | value k => simp only [answer, look_eq]; exact plain_merge ha _ _ hd.nodup
  | entry k x => simp only [answer]; rw [entry_merge ha x _ _ hc hd, map_orElse]
  | prop k db p => simp only [answer]; rw [prop_merge ha db p _ _ hc hd, map_orElse]

/-- One file merged. -/
def mergeFile (fs : Files) (c : Cfg) (f : Str) : Cfg := match fs f with | some file => merge c file.cfg | none => c

/-- The configurations of the files of a list, merged in order. -/
def mergeFiles (fs : Files) (l : List Str) (c : Cfg) : Cfg := l.foldl (mergeFile fs) c

theorem mergeFiles_append (fs : Files) (l m : List Str) (c : Cfg) : mergeFiles fs (l ++ m) c = mergeFiles fs m (mergeFiles fs l c) := by
  simp [mergeFiles]

theorem mergeFiles_wf {fs : Files} (wf : WfFiles fs) (l : List Str) {c : Cfg} (hc : Wf c) : Wf (mergeFiles fs l c) := by
  induction l generalizing c with
  | nil => exact hc
  | cons f l ih =>
    show Wf (mergeFiles fs l (mergeFile fs c f))
    apply ih
    unfold mergeFile
    cases h : fs f with
    | none => exact hc
    | some file => exact merge_wf hc (wf f file h)

theorem lastSays_append (fs : Files) (a : Ask) (l m : List Str) :
    lastSays fs a (l ++ m) = orElse (lastSays fs a m) (lastSays fs a l) := by
  simp only [lastSays, List.reverse_append, List.findSome?_append]
  cases List.findSome? (fileSays fs a) m.reverse <;> rfl

theorem lastSays_single (fs : Files) (a : Ask) (f : Str) : lastSays fs a [f] = fileSays fs a f := by
  simp [lastSays]

theorem answer_mergeFiles {fs : Files} (wf : WfFiles fs) (l : List Str) {c : Cfg} (hc : Wf c) (a : Ask) (ha : a.Proper) :
    answer (mergeFiles fs l c) a = orElse (lastSays fs a l) (answer c a) := by
  induction l generalizing c with
  | nil => rfl
  | cons f l ih =>
    show answer (mergeFiles fs l (mergeFile fs c f)) a = _
    unfold mergeFile
    have e : lastSays fs a (f :: l) = orElse (lastSays fs a l) (fileSays fs a f) := by
      rw [← lastSays_single]; exact lastSays_append fs a [f] l
    rw [e, orElse_assoc]
    cases h : fs f with
    | none =>
      rw [ih hc]
      simp [fileSays, h, orElse]
    | some file =>
      rw [ih (merge_wf hc (wf f file h)), answer_merge hc (wf f file h) a ha]
      simp [fileSays, h]

/-- `load_config` reads the files of `Reads` in order. -/
theorem loadFile_reads (fs : Files) : ∀ (n : Nat),
    (∀ c f c', loadFile fs n c f = some c' → ∃ l, Reads fs f l ∧ c' = mergeFiles fs l c) ∧
    (∀ r c c', r.foldlM (loadFile fs n) c = some c' → ∃ l, ReadsAll fs r l ∧ c' = mergeFiles fs l c) := by
  have lists : ∀ n, (∀ c f c', loadFile fs n c f = some c' → ∃ l, Reads fs f l ∧ c' = mergeFiles fs l c) →
      ∀ r c c', r.foldlM (loadFile fs n) c = some c' → ∃ l, ReadsAll fs r l ∧ c' = mergeFiles fs l c := by
    intro n hn r
    induction r with
    | nil =>
      intro c c' h
      simp at h
      exact ⟨[], .nil, h.symm⟩
    | cons f r ih =>
      intro c c' h
      rw [List.foldlM_cons] at h
      cases h1 : loadFile fs n c f with
      | none => simp [h1] at h
      | some d =>
        simp [h1] at h
        obtain ⟨l, hl, e⟩ := hn _ _ _ h1
        obtain ⟨m, hm, e'⟩ := ih _ _ h
        exact ⟨l ++ m, .cons hl hm, by rw [mergeFiles_append, ← e]; exact e'⟩
  intro n
  induction n with
  | zero => exact ⟨fun c f c' h => by simp [loadFile] at h, lists 0 fun c f c' h => by simp [loadFile] at h⟩
  | succ n ih =>
    have h1 : ∀ c f c', loadFile fs (n + 1) c f = some c' → ∃ l, Reads fs f l ∧ c' = mergeFiles fs l c := by
      intro c f c' h
      rw [loadFile] at h
      cases hf : fs f with
      | none => simp [hf] at h
      | some file =>
        simp only [hf, Option.map_eq_some_iff] at h
        obtain ⟨d, h, e⟩ := h
        obtain ⟨l, hl, e'⟩ := ih.2 _ _ _ h
        refine ⟨l ++ [f], .file hf hl, ?_⟩
        rw [mergeFiles_append, ← e', ← e]
        simp [mergeFiles, mergeFile, hf]
    exact ⟨h1, lists _ h1⟩

mutual
/-- Every file that can be read completely is loaded, given enough stack. -/
theorem reads_load {fs : Files} {f : Str} {l : List Str} : Reads fs f l →
    ∃ N, ∀ n, N ≤ n → ∀ c, loadFile fs n c f = some (mergeFiles fs l c)
  | .file (file := file) (l := l) hf hr => by
    obtain ⟨N, hN⟩ := readsAll_load hr
    refine ⟨N + 1, fun n hn c => ?_⟩
    obtain ⟨m, rfl⟩ : ∃ m, n = m + 1 := ⟨n - 1, by omega⟩
    rw [loadFile, hf]
    simp only [hN m (by omega) c, Option.map_some, mergeFiles_append]
    simp [mergeFiles, mergeFile, hf]
theorem readsAll_load {fs : Files} {r l : List Str} : ReadsAll fs r l →
    ∃ N, ∀ n, N ≤ n → ∀ c, r.foldlM (loadFile fs n) c = some (mergeFiles fs l c)
  | .nil => ⟨0, fun n _ c => by simp [mergeFiles]⟩
  | .cons h1 h2 => by
    obtain ⟨N, hN⟩ := reads_load h1
    obtain ⟨M, hM⟩ := readsAll_load h2
    refine ⟨max N M, fun n hn c => ?_⟩
    rw [List.foldlM_cons, hN n (by omega) c]
    simp [hM n (by omega), mergeFiles_append]
end

mutual
theorem reads_unique {fs : Files} {f : Str} {l : List Str} : Reads fs f l → ∀ {l'}, Reads fs f l' → l = l'
  | .file hf hr, _, .file hf' hr' => by
    rw [hf] at hf'
    cases hf'
    rw [readsAll_unique hr hr']
theorem readsAll_unique {fs : Files} {r l : List Str} : ReadsAll fs r l → ∀ {l'}, ReadsAll fs r l' → l = l'
  | .nil, _, .nil => rfl
  | .cons h1 h2, _, .cons h1' h2' => by rw [reads_unique h1 h1', readsAll_unique h2 h2']
end

theorem reads_last {fs : Files} {f : Str} {l : List Str} (h : Reads fs f l) : ∃ m, l = m ++ [f] := by
  cases h with
  | file hf hr => exact ⟨_, rfl⟩

theorem readsAll_append {fs : Files} {r r' l : List Str} (h : ReadsAll fs (r ++ r') l) :
    ∃ m m', ReadsAll fs r m ∧ ReadsAll fs r' m' ∧ l = m ++ m' := by
  induction r generalizing l with
  | nil => exact ⟨[], l, .nil, h, rfl⟩
  | cons f r ih =>
    cases h with
    | @cons _ _ l1 l2 h1 h2 =>
      obtain ⟨m, m', hm, hm', rfl⟩ := ih h2
      exact ⟨l1 ++ m, m', .cons h1 hm, hm', by simp⟩

theorem readsAll_join {fs : Files} {r r' m m' : List Str} (h : ReadsAll fs r m) (h' : ReadsAll fs r' m') :
    ReadsAll fs (r ++ r') (m ++ m') := by
  induction r generalizing m with
  | nil => cases h; exact h'
  | cons f r ih =>
    cases h with
    | cons h1 h2 => rw [List.append_assoc]; exact .cons h1 (ih h2)

theorem mem_reads {fs : Files} : (∀ {r l : List Str}, ReadsAll fs r l → ∀ g ∈ r, ∃ m, Reads fs g m ∧ m.length ≤ l.length) := by
  intro r
  induction r with
  | nil => intro l _ g hg; cases hg
  | cons f r ih =>
    intro l h g hg
    cases h with
    | @cons _ _ l1 l2 h1 h2 =>
      rcases List.mem_cons.1 hg with rfl | hg
      · exact ⟨l1, h1, by simp⟩
      · obtain ⟨m, hm, hle⟩ := ih h2 g hg
        exact ⟨m, hm, by simp; omega⟩

/-- What a file extends is read with strictly fewer files. -/
theorem extends_shorter {fs : Files} {f g : Str} {l : List Str} (h : Reads fs f l) (e : Extends fs f g) :
    ∃ m, Reads fs g m ∧ m.length < l.length := by
  cases h with
  | file hf hr =>
    obtain ⟨file', hf', hg⟩ := e
    rw [hf] at hf'; cases hf'
    obtain ⟨m, hm, hle⟩ := mem_reads hr g hg
    exact ⟨m, hm, by simp; omega⟩

theorem extended_eq (isFile : Str → Bool) (order pre : List Str) (hn : order.Nodup) :
    extended isFile order pre = pre ++ order.filter (fun f => isFile f && !(pre.contains f)) := by
  unfold extended
  induction order generalizing pre with
  | nil => simp
  | cons f order ih =>
    rw [List.nodup_cons] at hn
    rw [List.foldl_cons]
    by_cases hf : (isFile f && !(pre.contains f)) = true
    · rw [if_pos hf, ih _ hn.2, List.filter_cons, if_pos hf]
      rw [List.append_assoc, List.singleton_append]
      congr 2
      apply List.filter_congr
      intro g hg
      have : g ≠ f := by
        rintro rfl
        exact hn.1 hg
      simp [this]
    · rw [if_neg hf, ih _ hn.2, List.filter_cons, if_neg hf]

/-! ### Own settings -/

theorem valueOf_mem {α : Type} {k : Str} {d : List (Str × α)} (hn : (d.map (·.1)).Nodup) {v : α} :
    valueOf k d = some v ↔ (k, v) ∈ d := by
  induction d with
  | nil => simp [valueOf]
  | cons x d ih =>
    obtain ⟨k', v'⟩ := x
    simp only [List.map_cons, List.nodup_cons] at hn
    rw [look_eq, look]
    by_cases h : k' = k
    · subst h
      rw [if_pos rfl]
      constructor
      · intro h; cases h; exact List.mem_cons_self
      · intro h
        rcases List.mem_cons.1 h with h | h
        · cases h; rfl
        · exact absurd (List.mem_map.2 ⟨_, h, rfl⟩) hn.1
    · rw [if_neg h, ← look_eq, ih hn.2]
      constructor
      · exact fun h => List.mem_cons_of_mem _ h
      · intro h'
        rcases List.mem_cons.1 h' with h' | h'
        · cases h'; exact absurd rfl h
        · exact h'

theorem blank_iff (s : Sect) : Blank s ↔ emptySect s = true := by
  constructor
  · intro h
    cases h <;> simp [emptySect]
  · intro h
    cases s with
    | plain v =>
      cases v with
      | null => exact .null
      | bool b => cases b with
        | false => exact .false_
        | true => simp [emptySect] at h
      | int i =>
        have : i = 0 := by simpa [emptySect] using h
        subst this; exact .zero
      | flt q =>
        have : q = 0 := by simpa [emptySect] using h
        subst this; exact .zeroFloat
      | str s =>
        have : s = [] := by simpa [emptySect] using h
        subst this; exact .text
      | arr l =>
        have : l = [] := by simpa [emptySect] using h
        subst this; exact .array
      | obj l =>
        have : l = [] := by simpa [emptySect] using h
        subst this; exact .object
    | dict d =>
      have : d = [] := by simpa [emptySect] using h
      subst this; exact .dict
    | named l =>
      have : l = [] := by simpa [emptySect] using h
      subst this; exact .named
    | list l =>
      have : l = [] := by simpa [emptySect] using h
      subst this; exact .list

theorem setBefore_eq (D own : Cfg) : setBefore D own = dropEmpty D own := by
  unfold setBefore dropEmpty
  apply List.filter_congr
  intro kv _
  have e : valueOf kv.1 D = look kv.1 D := look_eq _ _
  rw [e, blank_iff]
  cases look kv.1 D <;> cases emptySect kv.2 <;> simp

theorem dropEmpty_wf {D own : Cfg} (h : Wf own) : Wf (dropEmpty D own) := by
  have hn : ((dropEmpty D own).map (·.1)).Nodup := (List.filter_sublist.map _).nodup h.nodup
  refine ⟨hn, fun k hk v hv => h.dicts k hk v ?_, fun k hk v hv => h.named k hk v ?_⟩
  all_goals
    rw [valueOf_mem hn] at hv
    rw [valueOf_mem h.nodup]
    exact (List.mem_filter.1 hv).1

/-! ### Databases -/

theorem lastDb_eq (n : Str) {l : List Db} (hl : (names l).Nodup) : lastDb n l = findDb n l := by
  induction l with
  | nil => rfl
  | cons e l ih =>
    simp only [names, List.map_cons, List.nodup_cons] at hl
    rw [findDb_cons]
    have : lastDb n (e :: l) = orElse (lastDb n l) (if e.name = n then some e else none) := by
      simp only [lastDb, List.reverse_cons, List.find?_append]
      cases List.find? (fun d => decide (d.name = n)) l.reverse with
      | some a => rfl
      | none => by_cases h : e.name = n <;> simp [orElse, h]
    rw [this, ih hl.2]
    by_cases h : e.name = n
    · rw [if_pos h, if_pos h, findDb_none.2 (h ▸ hl.1)]; rfl
    · rw [if_neg h, if_neg h, orElse_none]

theorem onLast_find (n : Str) (f : Db → Db) (hf : ∀ d, (f d).name = d.name) {l : List Db} (hl : (names l).Nodup) (m : Str) :
    findDb m (onLast n f l) = if n = m then (findDb m l).map f else findDb m l := by
  induction l with
  | nil => simp [onLast, findDb]
  | cons e l ih =>
    simp only [names, List.map_cons, List.nodup_cons] at hl
    rw [onLast]
    by_cases ha : n ∈ names l
    · rw [if_pos (any_name.2 ha), findDb_cons, findDb_cons, ih hl.2]
      by_cases h : e.name = m
      · have : n ≠ m := by rintro rfl; exact hl.1 (h ▸ ha)
        simp [h, this]
      · simp [h]
    · rw [if_neg (by rw [any_name]; exact ha)]
      by_cases he : e.name = n
      · rw [if_pos he, findDb_cons, findDb_cons, hf]
        by_cases h : n = m
        · simp [he, h]
        · have h' : ¬ e.name = m := fun x => h (he ▸ x)
          simp [h, h']
      · rw [if_neg he, findDb_cons]
        by_cases h : n = m
        · subst h
          rw [if_pos rfl, if_neg he, findDb_none.2 ha]; rfl
        · rw [if_neg h]

theorem look_append (k : Str) (a b : List (Str × α)) : look k (a ++ b) = orElse (look k a) (look k b) := by
  induction a with
  | nil => rfl
  | cons x a ih =>
    obtain ⟨k', v⟩ := x
    show (if k' = k then some v else look k (a ++ b)) = orElse (if k' = k then some v else look k a) _
    by_cases h : k' = k
    · rw [if_pos h, if_pos h]; rfl
    · rw [if_neg h, if_neg h, ih]

/-- Defaults do not change what is configured. -/
theorem fill_keeps (ds : List (Str × J)) (d : Db) (p : Str) (v : J) (h : look p d.props = some v) :
    look p (fill ds d).props = some v := by
  show look p (ds.foldl _ d.props) = some v
  generalize d.props = ps at h
  induction ds generalizing ps with
  | nil => exact h
  | cons x ds ih =>
    rw [List.foldl_cons]
    apply ih
    by_cases hx : (look x.1 ps).isSome
    · rw [if_pos hx]; exact h
    · rw [if_neg hx, look_append, h]; rfl

/-- Without the others, a default is taken. -/
theorem fill_takes (ds : List (Str × J)) (d : Db) (p : Str) (h : look p d.props = none) :
    look p (fill ds d).props = look p ds := by
  show look p (ds.foldl _ d.props) = _
  generalize d.props = ps at h
  induction ds generalizing ps with
  | nil => exact h
  | cons x ds ih =>
    obtain ⟨k, v⟩ := x
    rw [List.foldl_cons, look]
    by_cases hx : (look k ps).isSome
    · have : k ≠ p := by rintro rfl; simp [h] at hx
      rw [if_pos hx, if_neg this]
      exact ih _ h
    · rw [if_neg hx]
      by_cases hk : k = p
      · subst hk
        rw [if_pos rfl]
        have := fill_keeps ds ⟨[], ps ++ [(k, v)]⟩ k v (by
          show look k (ps ++ [(k, v)]) = some v
          rw [look_append, h]; simp [look, orElse])
        exact this
      · rw [if_neg hk]
        apply ih
        rw [look_append, h]
        simp [look, orElse, hk]

theorem formats_look (c : Cfg) (ks : List Str) (ps : List (Str × J)) (p : Str) :
    look p (ks.foldl (setGlobal c) ps)
      = if p ∈ ks then orElse (globalOf c p) (look p ps) else look p ps := by
  induction ks generalizing ps with
  | nil => simp
  | cons k ks ih =>
    rw [List.foldl_cons, ih]
    by_cases hk : k = p
    · subst hk
      cases hg : globalOf c k with
      | none => simp [orElse, setGlobal, hg]
      | some g => simp [orElse, look_ins, setGlobal, hg]
    · have hk' : p ≠ k := fun h => hk h.symm
      have e : look p (setGlobal c ps k) = look p ps := by
        unfold setGlobal
        cases globalOf c k with
        | none => rfl
        | some g => simp only; rw [look_ins, if_neg hk]
      rw [e]
      simp [hk']

theorem mapM_find (c : Cfg) {l l' : List Db} (h : l.mapM (formatDb c) = some l') (n : Str) :
    findDb n l' = (findDb n l).bind (formatDb c) := by
  have hname : ∀ d d', formatDb c d = some d' → d'.name = d.name := by
    intro d d' h
    unfold formatDb at h
    cases hd : look driverKey d.props with
    | none => simp [hd] at h
    | some v =>
      simp only [hd] at h
      split at h <;> (cases h; rfl)
  induction l generalizing l' with
  | nil => simp at h; subst h; rfl
  | cons d l ih =>
    rw [List.mapM_cons] at h
    cases hd : formatDb c d with
    | none => simp [hd] at h
    | some d' =>
      cases hl : l.mapM (formatDb c) with
      | none => simp [hd, hl] at h
      | some m =>
        simp [hd, hl] at h
        subst h
        rw [findDb_cons, findDb_cons, hname _ _ hd, ih hl]
        by_cases hn : d.name = n
        · rw [if_pos hn, if_pos hn, Option.bind_some, hd]
        · rw [if_neg hn, if_neg hn]

theorem mapM_mem (c : Cfg) {l l' : List Db} (h : l.mapM (formatDb c) = some l') {d : Db} (hd : d ∈ l) : ∃ d', formatDb c d = some d' := by
  induction l generalizing l' with
  | nil => cases hd
  | cons e l ih =>
    rw [List.mapM_cons] at h
    cases he : formatDb c e with
    | none => simp [he] at h
    | some e' =>
      rcases List.mem_cons.1 hd with rfl | hd
      · exact ⟨e', he⟩
      · cases hl : l.mapM (formatDb c) with
        | none => simp [he, hl] at h
        | some l' => exact ih hl hd

/-- What the added databases change. -/
theorem add_find {uuid : Str} {l l' : List Db} (hl : (names l).Nodup) (h : addDefaults uuid l = some l') :
    (∀ n, n ≠ dash → n ≠ dashes → findDb n l' = findDb n l) ∧
    findDb dash l' = orElse (findDb dash l) (some ⟨dash, [(driverKey, .str "textline".toList)]⟩) ∧
    (findDb dashes l = none → findDb dashes l' = some ⟨dashes, [(driverKey, .str "memory".toList)]⟩) ∧
    (∀ d, findDb dashes l = some d → ∃ v, look driverKey d.props = some v ∧
      findDb dashes l' = some (if textOf v = some "redis".toList then fill (redisDefaults uuid) d else d)) := by
  unfold addDefaults at h
  rw [lastDb_eq _ hl, lastDb_eq _ hl] at h
  have hdd : dash ≠ dashes := by decide +kernel
  -- the list with `-`
  have e1 : ∀ n, findDb n (if (findDb dash l).isSome = true then l else l ++ [⟨dash, [(driverKey, .str "textline".toList)]⟩])
      = if n = dash then orElse (findDb dash l) (some ⟨dash, [(driverKey, .str "textline".toList)]⟩) else findDb n l := by
    intro n
    cases hd : findDb dash l with
    | some d =>
      simp only [Option.isSome_some, if_true, orElse]
      by_cases hn : n = dash
      · subst hn; rw [if_pos rfl, hd]
      · rw [if_neg hn]
    | none =>
      simp only [Option.isSome_none, Bool.false_eq_true, if_false, orElse]
      rw [find_append]
      by_cases hn : n = dash
      · subst hn; rw [if_pos rfl, hd]; simp [orElse, findDb]
      · rw [if_neg hn]
        have : findDb n [(⟨dash, [(driverKey, .str "textline".toList)]⟩ : Db)] = none := by
          rw [findDb_cons, if_neg (fun h => hn h.symm)]; rfl
        rw [this, orElse_none]
  have n1 : (names (if (findDb dash l).isSome = true then l else l ++ [⟨dash, [(driverKey, .str "textline".toList)]⟩])).Nodup := by
    cases hd : findDb dash l with
    | some d => simpa using hl
    | none =>
      simp only [Option.isSome_none, Bool.false_eq_true, if_false, names, List.map_append, List.map_cons, List.map_nil]
      rw [List.nodup_append]
      refine ⟨hl, by simp, ?_⟩
      intro a ha b hb
      simp only [List.mem_singleton] at hb
      subst hb
      rintro rfl
      exact findDb_none.1 hd ha
  generalize hm : (if (findDb dash l).isSome = true then l else l ++ [⟨dash, [(driverKey, .str "textline".toList)]⟩]) = m at h e1 n1
  have hdashes : findDb dashes m = findDb dashes l := by rw [e1, if_neg hdd.symm]
  have hdash : findDb dash m = orElse (findDb dash l) (some ⟨dash, [(driverKey, .str "textline".toList)]⟩) := by rw [e1, if_pos rfl]
  cases hf : findDb dashes l with
  | none =>
    rw [hf] at h
    simp only [Option.some.injEq] at h
    subst h
    refine ⟨fun n h1 h2 => ?_, ?_, fun _ => ?_, fun d h => by cases h⟩
    · rw [find_append, e1, if_neg h1]
      have : findDb n [(⟨dashes, [(driverKey, .str "memory".toList)]⟩ : Db)] = none := by
        rw [findDb_cons, if_neg (fun h => h2 h.symm)]; rfl
      rw [this, orElse_none]
    · rw [find_append, hdash]
      cases findDb dash l <;> rfl
    · rw [find_append, hdashes, hf]
      rw [findDb_cons, if_pos rfl]; rfl
  | some d =>
    rw [hf] at h
    cases hv : look driverKey d.props with
    | none => simp [hv] at h
    | some v =>
      simp only [hv] at h
      by_cases hr : textOf v = some "redis".toList
      · rw [if_pos hr] at h
        simp only [Option.some.injEq] at h
        subst h
        refine ⟨fun n h1 h2 => ?_, ?_, fun h => (by cases h), fun d' h => ?_⟩
        · rw [onLast_find dashes (fill (redisDefaults uuid)) (fun _ => rfl) n1, if_neg h2.symm, e1, if_neg h1]
        · rw [onLast_find dashes (fill (redisDefaults uuid)) (fun _ => rfl) n1, if_neg hdd.symm, hdash]
        · cases h
          refine ⟨v, hv, ?_⟩
          rw [onLast_find dashes (fill (redisDefaults uuid)) (fun _ => rfl) n1, if_pos rfl, hdashes, hf, if_pos hr]; rfl
      · rw [if_neg hr] at h
        simp only [Option.some.injEq] at h
        subst h
        refine ⟨fun n h1 h2 => by rw [e1, if_neg h1], hdash, fun h => (by cases h), fun d' h => ?_⟩
        cases h
        exact ⟨v, hv, by rw [hdashes, hf, if_neg hr]⟩

end Verif.LoadProofs
