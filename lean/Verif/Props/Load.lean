import Verif.Proofs.Load
/-! C123–C129: loading the configuration. -/
namespace Verif.Props
open Verif.Val Verif.Json Verif.Config Verif.ConfigSpec Verif.ConfigProofs Verif.Load Verif.LoadSpec Verif.LoadProofs

/-! ## C123: extending -/

/-- **C123**: loading a file reads what it extends, in order and recursively, then the file itself; about every setting, the last file
that says something decides, and without one the configuration so far stays. -/
theorem C123_extends (fs : Files) (wf : WfFiles fs) (n : Nat) (c c' : Cfg) (hc : Wf c) (f : Str) (h : loadFile fs n c f = some c') :
    ∃ l, Reads fs f l ∧ ∀ a : Ask, a.Proper → answer c' a = orElse (lastSays fs a l) (answer c a) := by
  obtain ⟨l, hl, rfl⟩ := (loadFile_reads fs n).1 _ _ _ h
  exact ⟨l, hl, fun a ha => answer_mergeFiles wf l hc a ha⟩

/-- **C123**: what a file says itself has precedence over everything it extends. -/
theorem C123_own_wins (fs : Files) (wf : WfFiles fs) (n : Nat) (c c' : Cfg) (hc : Wf c) (f : Str) (h : loadFile fs n c f = some c')
    (a : Ask) (ha : a.Proper) (v : Sect) (hv : fileSays fs a f = some v) : answer c' a = some v := by
  obtain ⟨l, hl, h⟩ := C123_extends fs wf n c c' hc f h
  obtain ⟨m, rfl⟩ := reads_last hl
  rw [h a ha, lastSays_append, lastSays_single, hv]
  rfl

/-- **C123**: the order of reading is determined, and loading fails only for want of a file or of stack: a file for which all files
can be read is loaded, given enough stack. -/
theorem C123_loads (fs : Files) (f : Str) :
    (∀ l l', Reads fs f l → Reads fs f l' → l = l') ∧
    (∀ l, Reads fs f l → ∃ N, ∀ n, N ≤ n → ∀ c, (loadFile fs n c f).isSome) := by
  refine ⟨fun l l' h h' => reads_unique h h', fun l h => ?_⟩
  obtain ⟨N, hN⟩ := reads_load h
  exact ⟨N, fun n hn c => by rw [hN n hn c]; rfl⟩

/-- A chain of `extends`. -/
inductive Chain (fs : Files) : Str → Str → Prop
  | one {f g} : Extends fs f g → Chain fs f g
  | more {f g h} : Extends fs f g → Chain fs g h → Chain fs f h

/-- **C123**: files that extend each other in a circle, and files that extend one that cannot be read, are never loaded, however deep
the stack: loading raises instead of looping or leaving something out. -/
theorem C123_circle (fs : Files) (f g : Str) (h : f = g ∨ Chain fs f g) (hg : Chain fs g g ∨ fs g = none) (n : Nat) (c : Cfg) :
    loadFile fs n c f = none := by
  have reach : ∀ {f g}, Chain fs f g → ∀ l, Reads fs f l → ∃ m, Reads fs g m ∧ m.length < l.length := by
    intro f g h
    induction h with
    | one e => exact fun l hl => extends_shorter hl e
    | more e _ ih =>
      intro l hl
      obtain ⟨m, hm, h1⟩ := extends_shorter hl e
      obtain ⟨k, hk, h2⟩ := ih m hm
      exact ⟨k, hk, by omega⟩
  have none_g : ∀ l, ¬ Reads fs g l := by
    rcases hg with hg | hg
    · have : ∀ d l, l.length < d → ¬ Reads fs g l := by
        intro d
        induction d with
        | zero => intro l h; omega
        | succ d ih =>
          intro l hd hl
          obtain ⟨m, hm, h1⟩ := reach hg l hl
          exact ih m (by omega) hm
      exact fun l => this _ l (Nat.lt_succ_self _)
    · intro l hl
      cases hl with
      | file hf _ => rw [hg] at hf; cases hf
  cases hload : loadFile fs n c f with
  | none => rfl
  | some c' =>
    obtain ⟨l, hl, _⟩ := (loadFile_reads fs n).1 _ _ _ hload
    rcases h with rfl | h
    · exact absurd hl (none_g l)
    · obtain ⟨m, hm, _⟩ := reach h l hl
      exact absurd hm (none_g m)

namespace Ld

theorem loadAll_some {fs : Files} {n : Nat} {D own c : Cfg} {exts : List Str} (h : loadAll fs n D own exts = some c) :
    ∃ l, ReadsAll fs exts l ∧ c = merge (mergeFiles fs l D) (dropEmpty D own) := by
  unfold loadAll at h
  rw [Option.map_eq_some_iff] at h
  obtain ⟨c1, h1, rfl⟩ := h
  obtain ⟨l, hl, rfl⟩ := (loadFile_reads fs n).2 _ _ _ h1
  exact ⟨l, hl, rfl⟩

/-- The merged configuration before it is completed. -/
def merged (fs : Files) (l : List Str) (D own : Cfg) (custom : Option Cfg) : Cfg :=
  match custom with
  | some m => merge (merge (mergeFiles fs l D) (dropEmpty D own)) m
  | none => merge (mergeFiles fs l D) (dropEmpty D own)

theorem load_some {w : World} {D own : Cfg} {pre order : List Str} {custom : Option Cfg} {c : Cfg} {inits : List Str}
    (h : load w D own pre order custom = some (c, inits)) :
    ∃ l c1 names, ReadsAll w.files (extended w.exists_ order pre) l ∧ finish w.uuid (merged w.files l D own custom) = some c1 ∧
      executesOf c1 = some names ∧ names.mapM (findInit w.exists_ w.home) = some inits ∧ c = del "executes".toList c1 := by
  unfold load at h
  cases h1 : loadAll w.files w.depth D own (extended w.exists_ order pre) with
  | none => simp [h1] at h
  | some c0 =>
    obtain ⟨l, hl, rfl⟩ := loadAll_some h1
    have h : (finish w.uuid (merged w.files l D own custom)).bind (fun c => (executesOf c).bind fun names =>
        (names.mapM (findInit w.exists_ w.home)).bind fun inits => some (del "executes".toList c, inits)) = some (c, inits) := by
      rw [← h, h1]
      cases custom <;> rfl
    cases h2 : finish w.uuid (merged w.files l D own custom) with
    | none => simp [h2] at h
    | some c1 =>
      simp only [h2, Option.bind_some] at h
      cases h3 : executesOf c1 with
      | none => simp [h3] at h
      | some names =>
        simp only [h3, Option.bind_some] at h
        cases h4 : names.mapM (findInit w.exists_ w.home) with
        | none => simp [h4] at h
        | some is =>
          simp only [h4, Option.bind_some, Option.some.injEq, Prod.mk.injEq] at h
          obtain ⟨rfl, rfl⟩ := h
          exact ⟨l, c1, names, hl, h2, h3, h4, rfl⟩

theorem merged_wf {fs : Files} (wf : WfFiles fs) (l : List Str) {D own : Cfg} (hD : Wf D) (hO : Wf own) {custom : Option Cfg}
    (hC : ∀ m, custom = some m → Wf m) : Wf (merged fs l D own custom) := by
  have := merge_wf (mergeFiles_wf wf l hD) (dropEmpty_wf (D := D) hO)
  cases custom with
  | none => exact this
  | some m => exact merge_wf this (hC m rfl)

theorem merged_answer {fs : Files} (wf : WfFiles fs) (l : List Str) {D own : Cfg} (hD : Wf D) (hO : Wf own) {custom : Option Cfg}
    (hC : ∀ m, custom = some m → Wf m) (a : Ask) (ha : a.Proper) :
    answer (merged fs l D own custom) a = said fs D own custom l a := by
  have h1 := mergeFiles_wf wf l hD
  have h2 := dropEmpty_wf (D := D) hO
  cases custom with
  | none =>
    show answer (merge (mergeFiles fs l D) (dropEmpty D own)) a = _
    rw [answer_merge h1 h2 a ha, answer_mergeFiles wf l hD a ha, ← setBefore_eq]
    rfl
  | some m =>
    show answer (merge (merge (mergeFiles fs l D) (dropEmpty D own)) m) a = _
    rw [answer_merge (merge_wf h1 h2) (hC m rfl) a ha, answer_merge h1 h2 a ha, answer_mergeFiles wf l hD a ha,
      ← setBefore_eq]
    rfl

theorem finish_some {uuid : Str} {c c1 : Cfg} (hc : Wf c) (h : finish uuid c = some c1) :
    ∃ l l2 l3, (look "databases".toList c = some (.named l) ∨ (look "databases".toList c = none ∧ l = [])) ∧ (names l).Nodup ∧
      addDefaults uuid l = some l2 ∧ l2.mapM (formatDb c) = some l3 ∧ c1 = ins "databases".toList (.named l3) c := by
  unfold finish at h
  have key : ∀ l, (look "databases".toList c = some (.named l) ∨ (look "databases".toList c = none ∧ l = [])) → (names l).Nodup →
      ((addDefaults uuid l).bind fun l2 => (l2.mapM (formatDb c)).bind fun l3 => some (ins "databases".toList (.named l3) c)) = some c1 →
      ∃ l l2 l3, (look "databases".toList c = some (.named l) ∨ (look "databases".toList c = none ∧ l = [])) ∧ (names l).Nodup ∧
        addDefaults uuid l = some l2 ∧ l2.mapM (formatDb c) = some l3 ∧ c1 = ins "databases".toList (.named l3) c := by
    intro l hl hn h
    rw [Option.bind_eq_some_iff] at h
    obtain ⟨l2, h2, h⟩ := h
    rw [Option.bind_eq_some_iff] at h
    obtain ⟨l3, h3, h⟩ := h
    cases h
    exact ⟨l, l2, l3, hl, hn, h2, h3, rfl⟩
  cases hd : look "databases".toList c with
  | none =>
    simp only [hd, Option.bind_eq_bind, Option.bind_some] at h
    have := key [] (.inr ⟨hd, rfl⟩) (by simp [names]) h
    rwa [hd] at this
  | some s =>
    obtain ⟨l, rfl, hn, _⟩ := hc.named "databases".toList (by simp [namedKeys]) s (by rw [look_eq]; exact hd)
    simp only [hd, Option.bind_eq_bind, Option.bind_some] at h
    have := key l (.inl hd) hn h
    rwa [hd] at this

/-- Neither completing nor taking out `executes` changes another setting. -/
theorem answer_rest (a : Ask) (ha : a.Proper) (hn : a.NotDatabase) (s : Sect) (c : Cfg) :
    answer (del "executes".toList (ins "databases".toList s c)) a = answer c a := by
  have key : ∀ k, k ≠ "executes".toList → k ≠ "databases".toList →
      look k (del "executes".toList (ins "databases".toList s c)) = look k c := by
    intro k h1 h2
    rw [look_del, if_neg (fun h => h1 h.symm), look_ins, if_neg (fun h => h2 h.symm)]
  cases a with
  | value k =>
    obtain ⟨h1, h2, h3, h4⟩ := ha
    simp only [answer, look_eq]
    exact key k (by rintro rfl; exact h4 (by simp [listKeys])) (by rintro rfl; exact h2 (by simp [namedKeys]))
  | entry k x =>
    have hk : k ∈ dictKeys := ha
    have e1 : "executes".toList ∉ dictKeys := by decide +kernel
    have e2 : "databases".toList ∉ dictKeys := by decide +kernel
    simp only [answer, entryOf, look_eq]
    rw [key k (by rintro rfl; exact e1 hk) (by rintro rfl; exact e2 hk)]
  | prop k db p =>
    have hk : k ∈ namedKeys := ha
    have e1 : "executes".toList ∉ namedKeys := by decide +kernel
    simp only [answer, propOf, look_eq]
    rw [key k (by rintro rfl; exact e1 hk) hn]

theorem dbs_after (c1 c : Cfg) (l3 : List Db) (h : c1 = ins "databases".toList (.named l3) c) (db p : Str) :
    propOf (del "executes".toList c1) "databases".toList db p = ((findDb db l3).map fun d => look p d.props).getD none := by
  have e : "executes".toList ≠ "databases".toList := by decide +kernel
  rw [propOf_eq, look_del, if_neg e, h, look_ins, if_pos rfl]

theorem dbs_before (c : Cfg) (l : List Db)
    (h : look "databases".toList c = some (.named l) ∨ (look "databases".toList c = none ∧ l = [])) (db p : Str) :
    propOf c "databases".toList db p = ((findDb db l).map fun d => look p d.props).getD none := by
  rw [propOf_eq]
  rcases h with h | ⟨h, rfl⟩ <;> rw [h]
  rfl

end Ld

/-! ## C124, C125: which place decides -/

/-- **C125**: after loading, every setting (but those of databases, see C126) is decided by the settings given to the engine, else by
those made before, else by the last of the files read that says something, else by the default; in particular a setting made in only
one place is the one seen. -/
theorem C125_precedence (w : World) (D own : Cfg) (pre order : List Str) (custom : Option Cfg) (c : Cfg) (inits : List Str)
    (wf : WfFiles w.files) (hD : Wf D) (hO : Wf own) (hC : ∀ m, custom = some m → Wf m)
    (h : load w D own pre order custom = some (c, inits)) :
    ∃ l, ReadsAll w.files (extended w.exists_ order pre) l ∧
      ∀ a : Ask, a.Proper → a.NotDatabase → answer c a = said w.files D own custom l a := by
  obtain ⟨l, c1, names, hl, h2, _, _, rfl⟩ := Ld.load_some h
  refine ⟨l, hl, fun a ha hn => ?_⟩
  obtain ⟨_, _, l3, _, _, _, _, rfl⟩ := Ld.finish_some (Ld.merged_wf wf l hD hO hC) h2
  rw [Ld.answer_rest a ha hn, Ld.merged_answer wf l hD hO hC a ha]

/-- C124, missing: the order of the set the code iterates over (see `C124_home_wins_violated`).
When the file of the home directory happens to come before the one of the current directory, the current directory's setting is
seen, and otherwise the home directory's. -/
theorem C124_order_partial (w : World) (D own : Cfg) (order : List Str) (c : Cfg) (inits : List Str)
    (wf : WfFiles w.files) (hD : Wf D) (hO : Wf own) (ho : order.Nodup)
    (f g : Str) (hf : ∀ x ∈ order, w.exists_ x = true ↔ x = f ∨ x = g) (a : Ask) (ha : a.Proper) (hn : a.NotDatabase)
    (hown : answer (setBefore D own) a = none) (v : Sect) (hg : fileSays w.files a g = some v)
    (o1 o2 o3 : List Str) (hord : order = o1 ++ f :: o2 ++ g :: o3)
    (h : load w D own [] order none = some (c, inits)) : answer c a = some v := by
  obtain ⟨l, hl, hsaid⟩ := C125_precedence w D own [] order none c inits wf hD hO (by simp) h
  rw [hsaid a ha hn]
  have hnd := ho
  rw [hord] at hnd
  rw [List.nodup_append] at hnd
  obtain ⟨hn1, hn2, hn3⟩ := hnd
  rw [List.nodup_cons] at hn2
  have e : extended w.exists_ order [] = order.filter w.exists_ := by
    rw [extended_eq _ _ _ ho]; simp
  have e3 : o3.filter w.exists_ = [] := by
    rw [List.filter_eq_nil_iff]
    intro x hx hex
    have hxo : x ∈ order := by rw [hord]; simp [hx]
    rcases (hf x hxo).1 hex with rfl | rfl
    · exact hn3 x (by simp) x (by simp [hx]) rfl
    · exact hn2.1 hx
  have hgo : w.exists_ g = true := (hf g (by rw [hord]; simp)).2 (.inr rfl)
  have e4 : ∃ r, extended w.exists_ order [] = r ++ [g] := by
    refine ⟨(o1 ++ f :: o2).filter w.exists_, ?_⟩
    rw [e, hord, List.filter_append, List.filter_cons, if_pos hgo, e3]
  obtain ⟨r, hr⟩ := e4
  rw [hr] at hl
  obtain ⟨m, m', _, hm', rfl⟩ := readsAll_append hl
  cases hm' with
  | @cons _ _ l1 l2 h1 h2 =>
    cases h2
    obtain ⟨k, rfl⟩ := reads_last h1
    unfold said
    rw [hown, List.append_nil, lastSays_append, lastSays_append, lastSays_single, hg]
    rfl

/-- **C124 is violated**: for any two different directories with a configuration file each, whatever these say differently about a
setting, there is an order of the set of file names with which the current directory's setting is seen and one with which the home
directory's is. -/
theorem C124_home_wins_violated (w : World) (D own : Cfg) (wf : WfFiles w.files) (hD : Wf D) (hO : Wf own)
    (hp : (places w.home w.cwd).Nodup) (f g : Str)
    (hf : f = w.home ++ "/config.json".toList ∨ f = w.home ++ "/config.yaml".toList)
    (hg : g = w.cwd ++ "/config.json".toList ∨ g = w.cwd ++ "/config.yaml".toList)
    (hex : ∀ x ∈ places w.home w.cwd, w.exists_ x = true ↔ x = f ∨ x = g)
    (a : Ask) (ha : a.Proper) (hn : a.NotDatabase) (hown : answer (setBefore D own) a = none)
    (v v' : Sect) (hv : fileSays w.files a f = some v) (hv' : fileSays w.files a g = some v') :
    ∃ o o', SetOrder w.home w.cwd o ∧ SetOrder w.home w.cwd o' ∧
      (∀ c i, load w D own [] o none = some (c, i) → answer c a = some v') ∧
      (∀ c i, load w D own [] o' none = some (c, i) → answer c a = some v) := by
  have key : ∀ (a1 a2 b1 b2 f g : Str), (f = a1 ∨ f = a2) → (g = b1 ∨ g = b2) →
      ∃ o1 o2 o3, [a1, a2, b1, b2] = o1 ++ f :: o2 ++ g :: o3 := by
    rintro a1 a2 b1 b2 f g (rfl | rfl) (rfl | rfl)
    · exact ⟨[], [a2], [b2], rfl⟩
    · exact ⟨[], [a2, b1], [], rfl⟩
    · exact ⟨[a1], [], [b2], rfl⟩
    · exact ⟨[a1], [b1], [], rfl⟩
  let o' : List Str := [w.cwd ++ "/config.json".toList, w.cwd ++ "/config.yaml".toList, w.home ++ "/config.json".toList,
    w.home ++ "/config.yaml".toList]
  have hperm : o'.Perm (places w.home w.cwd) := by
    show ([w.cwd ++ "/config.json".toList, w.cwd ++ "/config.yaml".toList] ++ [w.home ++ "/config.json".toList,
      w.home ++ "/config.yaml".toList]).Perm ([w.home ++ "/config.json".toList, w.home ++ "/config.yaml".toList] ++
      [w.cwd ++ "/config.json".toList, w.cwd ++ "/config.yaml".toList])
    exact List.perm_append_comm
  refine ⟨places w.home w.cwd, o', ⟨hp, fun _ => Iff.rfl⟩, ⟨hperm.nodup_iff.2 hp, fun x => hperm.mem_iff⟩, ?_, ?_⟩
  · intro c i h
    obtain ⟨o1, o2, o3, e⟩ := key _ _ _ _ f g hf hg
    exact C124_order_partial w D own _ c i wf hD hO hp f g hex a ha hn hown v' hv' o1 o2 o3 e h
  · intro c i h
    obtain ⟨o1, o2, o3, e⟩ := key _ _ _ _ g f hg hf
    refine C124_order_partial w D own _ c i wf hD hO (hperm.nodup_iff.2 hp) g f (fun x hx => ?_) a ha hn hown v hv o1 o2 o3 e h
    rw [hex x (hperm.mem_iff.1 hx), or_comm]

/-! ## C126, C127: the databases -/

namespace Ld

/-- The databases after loading. -/
theorem dbs {w : World} {D own : Cfg} {pre order : List Str} {custom : Option Cfg} {c : Cfg} {inits : List Str}
    (wf : WfFiles w.files) (hD : Wf D) (hO : Wf own) (hC : ∀ m, custom = some m → Wf m)
    (h : load w D own pre order custom = some (c, inits)) :
    ∃ l m dbs2 dbs3 dbs1, ReadsAll w.files (extended w.exists_ order pre) l ∧ Wf m ∧
      (∀ a : Ask, a.Proper → answer m a = said w.files D own custom l a) ∧
      (∀ db p, propOf m "databases".toList db p = ((findDb db dbs1).map fun d => look p d.props).getD none) ∧ (names dbs1).Nodup ∧
      addDefaults w.uuid dbs1 = some dbs2 ∧ dbs2.mapM (formatDb m) = some dbs3 ∧
      (∀ db p, propOf c "databases".toList db p = ((findDb db dbs3).map fun d => look p d.props).getD none) ∧
      valueOf "databases".toList c = some (.named dbs3) := by
  obtain ⟨l, c1, names, hl, h2, _, _, rfl⟩ := load_some h
  have hm := merged_wf wf l hD hO hC
  obtain ⟨d1, d2, d3, hd, hn, ha, hf, e⟩ := finish_some hm h2
  refine ⟨l, _, d2, d3, d1, hl, hm, fun a ha => merged_answer wf l hD hO hC a ha, dbs_before _ d1 hd, hn, ha, hf,
    dbs_after _ _ d3 e, ?_⟩
  have ee : "executes".toList ≠ "databases".toList := by decide +kernel
  rw [look_eq, look_del, if_neg ee, e, look_ins, if_pos rfl]

/-- Formatting a database keeps what it does not set. -/
theorem format_keeps {c : Cfg} {d d' : Db} (h : formatDb c d = some d') (p : Str) (hp : p ∉ formatKeys ∨ globalOf c p = none) :
    look p d'.props = look p d.props := by
  unfold formatDb at h
  cases hv : look driverKey d.props with
  | none => simp [hv] at h
  | some v =>
    simp only [hv] at h
    split at h
    · simp only [Option.some.injEq] at h
      subst h
      show look p (formatKeys.foldl (setGlobal c) d.props) = _
      rw [formats_look]
      rcases hp with hp | hp
      · rw [if_neg hp]
      · split
        · rw [hp]; rfl
        · rfl
    · simp only [Option.some.injEq] at h
      subst h
      rfl

theorem format_sets {c : Cfg} {d d' : Db} (h : formatDb c d = some d') (p : Str) (hp : p ∈ formatKeys) (g : J)
    (hg : globalOf c p = some g) (v : Str) (hv : look driverKey d.props = some (.str v)) (hd : v ∈ fileDrivers) :
    look p d'.props = some g := by
  unfold formatDb at h
  simp only [hv, textOf, Option.any_some, hd, decide_true, if_true, Option.some.injEq] at h
  subst h
  show look p (formatKeys.foldl (setGlobal c) d.props) = _
  rw [formats_look, if_pos hp, hg]; rfl

theorem format_plain (p : Str) (hp : p ∈ formatKeys) : PlainKey p := by
  simp only [formatKeys, List.mem_cons, List.not_mem_nil, or_false] at hp
  rcases hp with rfl | rfl | rfl | rfl <;>
    exact ⟨by decide +kernel, by decide +kernel, by decide +kernel, by decide +kernel⟩

theorem globalOf_none {c : Cfg} {p : Str} (h : ∀ s, valueOf p c = some s → Blank s) : globalOf c p = none := by
  unfold globalOf
  cases hl : look p c with
  | none => rfl
  | some s =>
    have := (blank_iff s).1 (h s (by rw [look_eq]; exact hl))
    cases s with
    | plain v => simp only [this, if_true]
    | dict d =>
      have : d.isEmpty = true := this
      simp only [this, if_true]
    | named l => rfl
    | list l =>
      have : l.isEmpty = true := this
      simp only [this, if_true]

theorem globalOf_some {c : Cfg} {p : Str} {s : Sect} {v : J} (h : valueOf p c = some s) (hv : AsValue s v) (he : ¬ Blank s) :
    globalOf c p = some v := by
  unfold globalOf
  rw [look_eq] at h
  rw [blank_iff] at he
  cases hv with
  | plain v => simp [h, he]
  | dict d =>
    have : ¬ d.isEmpty = true := he
    simp only [h]; rw [if_neg this]
  | list l =>
    have : ¬ l.isEmpty = true := he
    simp only [h]; rw [if_neg this]

end Ld

/-- **C126**: after loading, the databases `-` and `--` are always there, with the drivers `textline` and `memory` unless configured
otherwise; and what is configured for a database (also for these two) is kept, but for the four format settings (see C127). -/
theorem C126_databases (w : World) (D own : Cfg) (pre order : List Str) (custom : Option Cfg) (c : Cfg) (inits : List Str)
    (wf : WfFiles w.files) (hD : Wf D) (hO : Wf own) (hC : ∀ m, custom = some m → Wf m)
    (h : load w D own pre order custom = some (c, inits)) :
    hasDb c "databases".toList "-".toList ∧ hasDb c "databases".toList "--".toList ∧
    ∃ l, ReadsAll w.files (extended w.exists_ order pre) l ∧
      (∀ db p v, p ∉ formatKeys → said w.files D own custom l (.prop "databases".toList db p) = some v →
        answer c (.prop "databases".toList db p) = some v) ∧
      (∀ db p, db ≠ "-".toList → db ≠ "--".toList → p ∉ formatKeys →
        said w.files D own custom l (.prop "databases".toList db p) = none → answer c (.prop "databases".toList db p) = none) ∧
      (said w.files D own custom l (.prop "databases".toList "-".toList "driver".toList) = none →
        answer c (.prop "databases".toList "-".toList "driver".toList) = some (.plain (.str "textline".toList))) ∧
      (said w.files D own custom l (.prop "databases".toList "--".toList "driver".toList) = none →
        answer c (.prop "databases".toList "--".toList "driver".toList) = some (.plain (.str "memory".toList))) := by
  obtain ⟨l, m, d2, d3, d1, hl, hm, hsaid, hbefore, hn, hadd, hform, hafter, hval⟩ := Ld.dbs wf hD hO hC h
  obtain ⟨a1, a2, a3, a4⟩ := add_find hn hadd
  have hfind := mapM_find m hform
  have hfmt : ∀ n d, findDb n d2 = some d → ∃ d', findDb n d3 = some d' ∧ formatDb m d = some d' := by
    intro n d hd
    obtain ⟨d', hd'⟩ := mapM_mem m hform (find_props hd).1
    exact ⟨d', by rw [hfind n, hd, Option.bind_some, hd'], hd'⟩
  have has : ∀ n d, findDb n d2 = some d → hasDb c "databases".toList n := by
    intro n d hd
    obtain ⟨d', hd', _⟩ := hfmt n d hd
    unfold hasDb
    rw [hval]
    exact ⟨d', find_props hd'⟩
  have some2 : ∀ n d, findDb n d1 = some d → ∃ d', findDb n d2 = some d' ∧ ∀ p v, look p d.props = some v → look p d'.props = some v := by
    intro n d hd
    by_cases h1 : n = dash
    · subst h1; exact ⟨d, by rw [a2, hd]; rfl, fun _ _ h => h⟩
    · by_cases h2 : n = dashes
      · subst h2
        obtain ⟨v, _, e⟩ := a4 d hd
        refine ⟨_, e, fun p v hp => ?_⟩
        split
        · exact fill_keeps _ d p v hp
        · exact hp
      · exact ⟨d, by rw [a1 n h1 h2, hd], fun _ _ h => h⟩
  have hdk : driverKey ∉ formatKeys := by decide +kernel
  have dash2 : ∃ d, findDb dash d2 = some d := by
    rw [a2]; cases findDb dash d1 <;> exact ⟨_, rfl⟩
  have dashes2 : ∃ d, findDb dashes d2 = some d := by
    cases hd : findDb dashes d1 with
    | none => exact ⟨_, a3 hd⟩
    | some d => obtain ⟨v, _, e⟩ := a4 d hd; exact ⟨_, e⟩
  have hdb : "databases".toList ∈ namedKeys := by simp [namedKeys]
  have value2 : ∀ n d, findDb n d2 = some d → ∀ p, p ∉ formatKeys →
      answer c (.prop "databases".toList n p) = (look p d.props).map .plain := by
    intro n d hd p hp
    obtain ⟨d', hd', hf⟩ := hfmt n d hd
    simp only [answer]
    rw [hafter, hd', Option.map_some, Option.getD_some, Ld.format_keeps hf p (.inl hp)]
  refine ⟨?_, ?_, l, hl, ?_, ?_, ?_, ?_⟩
  · obtain ⟨d, hd⟩ := dash2; exact has _ d hd
  · obtain ⟨d, hd⟩ := dashes2; exact has _ d hd
  · intro db p v hp hv
    rw [← hsaid (.prop _ _ _) hdb] at hv
    simp only [answer] at hv
    rw [hbefore] at hv
    cases hd : findDb db d1 with
    | none => rw [hd] at hv; simp at hv
    | some d =>
      rw [hd, Option.map_some, Option.getD_some] at hv
      obtain ⟨x, hx, rfl⟩ := Option.map_eq_some_iff.1 hv
      obtain ⟨d', hd', hk⟩ := some2 db d hd
      rw [value2 db d' hd' p hp, hk p x hx]
      rfl
  · intro db p h1 h2 hp hv
    rw [← hsaid (.prop _ _ _) hdb] at hv
    simp only [answer] at hv
    rw [hbefore] at hv
    have e := a1 db h1 h2
    cases hd : findDb db d1 with
    | none =>
      simp only [answer]
      have e3 := hfind db
      rw [e, hd] at e3
      rw [hafter, e3]; rfl
    | some d =>
      rw [hd, Option.map_some, Option.getD_some] at hv
      rw [hd] at e
      rw [value2 db d e p hp]
      exact hv
  · intro hv
    rw [← hsaid (.prop _ _ _) hdb] at hv
    simp only [answer] at hv
    rw [hbefore] at hv
    cases hd : findDb dash d1 with
    | none =>
      rw [hd] at a2
      have := value2 dash _ a2 driverKey hdk
      exact this
    | some d =>
      exfalso
      rw [hd] at a2
      obtain ⟨d', _, hf⟩ := hfmt dash d a2
      have hv' : (look driverKey d.props).map Sect.plain = none := by
        have e : findDb "-".toList d1 = some d := hd
        rw [e] at hv
        exact hv
      unfold formatDb at hf
      cases hk : look driverKey d.props with
      | none => simp [hk] at hf
      | some x => rw [hk] at hv'; cases hv'
  · intro hv
    rw [← hsaid (.prop _ _ _) hdb] at hv
    simp only [answer] at hv
    rw [hbefore] at hv
    cases hd : findDb dashes d1 with
    | none =>
      have := value2 dashes _ (a3 hd) driverKey hdk
      exact this
    | some d =>
      exfalso
      obtain ⟨v, hk, _⟩ := a4 d hd
      have e : findDb "--".toList d1 = some d := hd
      rw [e, Option.map_some, Option.getD_some] at hv
      have hk' : look "driver".toList d.props = some v := hk
      rw [hk'] at hv
      cases hv

/-- **C126**: a `--` on Redis gets, for what is not configured, a prefix of its own, pickling that ignores errors, and expiry after
900 seconds. -/
theorem C126_redis (w : World) (D own : Cfg) (pre order : List Str) (custom : Option Cfg) (c : Cfg) (inits : List Str)
    (wf : WfFiles w.files) (hD : Wf D) (hO : Wf own) (hC : ∀ m, custom = some m → Wf m)
    (h : load w D own pre order custom = some (c, inits)) :
    ∃ l, ReadsAll w.files (extended w.exists_ order pre) l ∧
      (said w.files D own custom l (.prop "databases".toList "--".toList "driver".toList) = some (.plain (.str "redis".toList)) →
        ∀ p v, (p, v) ∈ [("prefix".toList, J.str ("syncany:".toList ++ w.uuid ++ ":".toList)), ("serialize".toList, .str "pickle".toList),
            ("ignore_serialize_error".toList, .bool true), ("expire_seconds".toList, .int 900)] →
          said w.files D own custom l (.prop "databases".toList "--".toList p) = none →
          answer c (.prop "databases".toList "--".toList p) = some (.plain v)) := by
  obtain ⟨l, m, d2, d3, d1, hl, hm, hsaid, hbefore, hn, hadd, hform, hafter, hval⟩ := Ld.dbs wf hD hO hC h
  obtain ⟨a1, a2, a3, a4⟩ := add_find hn hadd
  have hdb : "databases".toList ∈ namedKeys := by simp [namedKeys]
  refine ⟨l, hl, fun hr p v hp hs => ?_⟩
  rw [← hsaid (.prop _ _ _) hdb] at hr hs
  simp only [answer] at hr hs ⊢
  rw [hbefore] at hr hs
  cases hd : findDb "--".toList d1 with
  | none => rw [hd] at hr; simp at hr
  | some d =>
    rw [hd, Option.map_some, Option.getD_some, Option.map_eq_some_iff] at hr
    rw [hd, Option.map_some, Option.getD_some, Option.map_eq_none_iff] at hs
    obtain ⟨x, hx, hx'⟩ := hr
    cases hx'
    obtain ⟨v', hv', e⟩ := a4 d hd
    have hx : look driverKey d.props = some (.str "redis".toList) := hx
    rw [hx] at hv'
    cases hv'
    rw [if_pos (show textOf (J.str "redis".toList) = some "redis".toList from rfl)] at e
    have e : findDb "--".toList d2 = some (fill (redisDefaults w.uuid) d) := e
    obtain ⟨d', hf⟩ := mapM_mem m hform (find_props e).1
    have hpf : p ∉ formatKeys ∧ look p (redisDefaults w.uuid) = some v := by
      simp only [List.mem_cons, Prod.mk.injEq, List.not_mem_nil, or_false] at hp
      rcases hp with ⟨rfl, rfl⟩ | ⟨rfl, rfl⟩ | ⟨rfl, rfl⟩ | ⟨rfl, rfl⟩ <;> exact ⟨by decide +kernel, rfl⟩
    rw [hafter, mapM_find m hform, e, Option.bind_some, hf, Option.map_some, Option.getD_some,
      Ld.format_keeps hf p (.inl hpf.1), fill_takes _ d p hs, hpf.2]
    rfl

/-- C127, missing: a global format setting (see `C127_global_wins_violated`).  Where a format is not set globally, or set to an
empty value, a database's own one is kept. -/
theorem C127_own_format_partial (w : World) (D own : Cfg) (pre order : List Str) (custom : Option Cfg) (c : Cfg) (inits : List Str)
    (wf : WfFiles w.files) (hD : Wf D) (hO : Wf own) (hC : ∀ m, custom = some m → Wf m)
    (h : load w D own pre order custom = some (c, inits)) :
    ∃ l, ReadsAll w.files (extended w.exists_ order pre) l ∧
      ∀ db p, db ≠ "-".toList → db ≠ "--".toList → p ∈ formatKeys →
        (∀ s, said w.files D own custom l (.value p) = some s → Blank s) →
        answer c (.prop "databases".toList db p) = said w.files D own custom l (.prop "databases".toList db p) := by
  obtain ⟨l, m, d2, d3, d1, hl, hm, hsaid, hbefore, hn, hadd, hform, hafter, hval⟩ := Ld.dbs wf hD hO hC h
  obtain ⟨a1, a2, a3, a4⟩ := add_find hn hadd
  have hdb : "databases".toList ∈ namedKeys := by simp [namedKeys]
  refine ⟨l, hl, fun db p h1 h2 hp he => ?_⟩
  rw [← hsaid (.prop "databases".toList db p) hdb]
  simp only [answer]
  rw [hbefore, hafter, mapM_find m hform, a1 db h1 h2]
  cases hd : findDb db d1 with
  | none => rfl
  | some d =>
    rw [Option.bind_some]
    obtain ⟨d', hf⟩ := mapM_mem m hform (find_props ((a1 db h1 h2).trans hd)).1
    rw [hf, Option.map_some, Option.getD_some, Option.map_some, Option.getD_some]
    rw [Ld.format_keeps hf p (.inr ?_)]
    apply Ld.globalOf_none
    intro s hs
    apply he
    rw [← hsaid (.value p) (Ld.format_plain p hp)]
    exact hs

/-- **C127 is violated**: a global encoding or date format replaces the one a textline, JSON or CSV database says itself, whatever
that is; the global setting is not a default but an override. -/
theorem C127_global_wins_violated (w : World) (D own : Cfg) (pre order : List Str) (custom : Option Cfg) (c : Cfg) (inits : List Str)
    (wf : WfFiles w.files) (hD : Wf D) (hO : Wf own) (hC : ∀ m, custom = some m → Wf m)
    (h : load w D own pre order custom = some (c, inits)) :
    ∃ l, ReadsAll w.files (extended w.exists_ order pre) l ∧
      ∀ db p s g driver, db ≠ "-".toList → db ≠ "--".toList → p ∈ formatKeys → driver ∈ fileDrivers →
        said w.files D own custom l (.prop "databases".toList db "driver".toList) = some (.plain (.str driver)) →
        said w.files D own custom l (.value p) = some s → AsValue s g → ¬ Blank s →
        answer c (.prop "databases".toList db p) = some (.plain g) := by
  obtain ⟨l, m, d2, d3, d1, hl, hm, hsaid, hbefore, hn, hadd, hform, hafter, hval⟩ := Ld.dbs wf hD hO hC h
  obtain ⟨a1, a2, a3, a4⟩ := add_find hn hadd
  have hdb : "databases".toList ∈ namedKeys := by simp [namedKeys]
  refine ⟨l, hl, fun db p s g driver h1 h2 hp hdr hd hg hv he => ?_⟩
  rw [← hsaid (.prop "databases".toList db "driver".toList) hdb] at hd
  rw [← hsaid (.value p) (Ld.format_plain p hp)] at hg
  simp only [answer] at hd hg ⊢
  rw [hbefore] at hd
  rw [hafter, mapM_find m hform, a1 db h1 h2]
  cases hf : findDb db d1 with
  | none => rw [hf] at hd; simp at hd
  | some d =>
    rw [hf, Option.map_some, Option.getD_some, Option.map_eq_some_iff] at hd
    obtain ⟨x, hx, hx'⟩ := hd
    cases hx'
    have hx : look driverKey d.props = some (.str driver) := hx
    rw [Option.bind_some]
    cases hd' : formatDb m d with
    | none =>
      exfalso
      unfold formatDb at hd'
      simp only [hx] at hd'
      split at hd' <;> cases hd'
    | some d' =>
      rw [Option.map_some, Option.getD_some, Ld.format_sets hd' p hp g (Ld.globalOf_some hg hv he) driver hx hdr]
      rfl

/-! ## C128, C129: initialisation scripts -/

namespace Ld

theorem exec_not : "executes".toList ∉ dictKeys ∧ "executes".toList ∉ namedKeys ∧ "executes".toList ≠ pipelinesKey ∧
    "executes".toList ∈ listKeys := ⟨by decide +kernel, by decide +kernel, by decide +kernel, by decide +kernel⟩

/-- `executes` is missing or a list. -/
def ListExec (c : Cfg) : Prop := look "executes".toList c = none ∨ ∃ l, look "executes".toList c = some (.list l)

theorem exec_merge {c d : Cfg} (hd : (d.map (·.1)).Nodup) (hc : ListExec c) :
    ListExec (merge c d) ∧ executesIn (merge c d) = executesIn c ++ executesIn d := by
  obtain ⟨h1, h2, h3, h4⟩ := exec_not
  have e := look_merge c d hd "executes".toList
  unfold ListExec executesIn
  simp only [look_eq]
  cases hv : look "executes".toList d with
  | none =>
    rw [hv] at e
    simp only at e
    rw [e]
    exact ⟨hc, by simp⟩
  | some v =>
    rw [hv] at e
    simp only [mergeSect, h1, h2, h3, h4, if_false, if_true] at e
    rcases hc with hc | ⟨l, hc⟩
    · rw [hc] at e
      simp only at e
      rw [e, hc]
      exact ⟨.inr ⟨_, rfl⟩, by simp [listOf]⟩
    · rw [hc] at e
      cases l with
      | nil =>
        simp only at e
        rw [e, hc]
        exact ⟨.inr ⟨_, rfl⟩, by simp [listOf]⟩
      | cons x l =>
        simp only at e
        rw [e, hc]
        exact ⟨.inr ⟨_, rfl⟩, by simp [listOf]⟩

theorem exec_files {fs : Files} (wf : WfFiles fs) (l : List Str) {c : Cfg} (hc : ListExec c) :
    ListExec (mergeFiles fs l c) ∧ executesIn (mergeFiles fs l c)
      = executesIn c ++ l.flatMap (fun f => ((fs f).map fun file => executesIn file.cfg).getD []) := by
  induction l generalizing c with
  | nil => exact ⟨hc, by simp [mergeFiles]⟩
  | cons f l ih =>
    show ListExec (mergeFiles fs l (mergeFile fs c f)) ∧ executesIn (mergeFiles fs l (mergeFile fs c f)) = _
    unfold mergeFile
    cases h : fs f with
    | none =>
      simp only
      obtain ⟨h1, h2⟩ := ih hc
      exact ⟨h1, by rw [h2]; simp [h]⟩
    | some file =>
      simp only
      obtain ⟨h3, h4⟩ := exec_merge (wf f file h).nodup hc
      obtain ⟨h1, h2⟩ := ih h3
      exact ⟨h1, by rw [h2, h4]; simp [h]⟩

theorem exec_merged {fs : Files} (wf : WfFiles fs) (l : List Str) {D own : Cfg} (hO : Wf own) {custom : Option Cfg}
    (hC : ∀ m, custom = some m → Wf m) (hE : valueOf "executes".toList D = none) :
    executesIn (merged fs l D own custom) = allExecutes fs D own custom l := by
  rw [look_eq] at hE
  have hD0 : executesIn D = [] := by unfold executesIn; rw [look_eq, hE]
  obtain ⟨h1, h2⟩ := exec_files wf l (c := D) (.inl hE)
  obtain ⟨h3, h4⟩ := exec_merge (dropEmpty_wf (D := D) hO).nodup h1
  unfold allExecutes
  rw [setBefore_eq]
  cases custom with
  | none =>
    show executesIn (merge (mergeFiles fs l D) (dropEmpty D own)) = _
    rw [h4, h2, hD0]; simp
  | some m =>
    show executesIn (merge (merge (mergeFiles fs l D) (dropEmpty D own)) m) = _
    rw [(exec_merge (hC m rfl).nodup h3).2, h4, h2, hD0]; simp

theorem exec_names {c : Cfg} {ns : List Str} (h : executesOf c = some ns) : executesIn c = ns.map .str := by
  have key : ∀ (l : List J) (ns : List Str), l.mapM (fun | .str f => some f | _ => none) = some ns → l = ns.map .str := by
    intro l
    induction l with
    | nil => intro ns h; simp at h; subst h; rfl
    | cons x l ih =>
      intro ns h
      rw [List.mapM_cons] at h
      cases x with
      | str f =>
        cases hl : l.mapM (fun (x : J) => match x with | .str f => some f | _ => none) with
        | none => simp [hl] at h
        | some m =>
          simp [hl] at h
          subst h
          rw [ih m hl]; rfl
      | _ => simp at h
  unfold executesOf at h
  unfold executesIn
  rw [look_eq]
  cases hl : look "executes".toList c with
  | none => rw [hl] at h; simp at h; subst h; rfl
  | some s => rw [hl] at h; exact key _ _ h

theorem findInit_iff {ex : Str → Bool} {home f g : Str} : findInit ex home f = some g ↔ FoundAt ex home f g := by
  unfold findInit FoundAt
  by_cases h1 : ex f = true
  · rw [if_pos h1]
    constructor
    · intro h; cases h; exact .inl ⟨h1, rfl⟩
    · rintro (⟨_, rfl⟩ | ⟨h, _⟩)
      · rfl
      · rw [h1] at h; cases h
  · rw [if_neg h1]
    by_cases h2 : ex (home ++ '/' :: f) = true
    · rw [if_pos h2]
      constructor
      · intro h; cases h; exact .inr ⟨by simpa using h1, h2, rfl⟩
      · rintro (⟨h, _⟩ | ⟨_, _, rfl⟩)
        · exact absurd h h1
        · rfl
    · rw [if_neg h2]
      constructor
      · intro h; cases h
      · rintro (⟨h, _⟩ | ⟨_, h, _⟩)
        · exact absurd h h1
        · exact absurd h h2

theorem inits_at {ex : Str → Bool} {home : Str} {ns is : List Str} (h : ns.mapM (findInit ex home) = some is) :
    is.length = ns.length ∧ (∀ (i : Nat) (f g : Str), ns[i]? = some f → is[i]? = some g → FoundAt ex home f g) ∧
    ∀ s g, FoundAt ex home s g → ns.count s ≤ is.count g := by
  induction ns generalizing is with
  | nil => simp at h; subst h; simp
  | cons f ns ih =>
    rw [List.mapM_cons] at h
    cases h1 : findInit ex home f with
    | none => simp [h1] at h
    | some g =>
      cases h2 : ns.mapM (findInit ex home) with
      | none => simp [h1, h2] at h
      | some is' =>
        simp [h1, h2] at h
        subst h
        obtain ⟨e1, e2, e3⟩ := ih h2
        refine ⟨by simp [e1], fun i => ?_, fun s g' hs => ?_⟩
        · cases i with
          | zero =>
            intro f' g' hf hg
            simp at hf hg
            subst hf; subst hg
            exact findInit_iff.1 h1
          | succ i =>
            intro f' g' hf hg
            exact e2 i f' g' (by simpa using hf) (by simpa using hg)
        · rw [List.count_cons, List.count_cons]
          have := e3 s g' hs
          by_cases hfs : f = s
          · subst hfs
            have : g = g' := by
              have := findInit_iff.2 hs
              rw [h1] at this
              exact Option.some.inj this
            subst this
            simp
            omega
          · have : (f == s) = false := by simp [hfs]
            rw [this]
            simp
            omega

end Ld

/-- **C128**: the scripts run at start are exactly those the loaded files name under `executes`, in the order of loading, followed by
those of the settings made before and given to the engine; each is taken from where its name says, or else from the home directory. -/
theorem C128_inits (w : World) (D own : Cfg) (pre order : List Str) (custom : Option Cfg) (c : Cfg) (inits : List Str)
    (wf : WfFiles w.files) (hD : Wf D) (hO : Wf own) (hC : ∀ m, custom = some m → Wf m) (hE : valueOf "executes".toList D = none)
    (h : load w D own pre order custom = some (c, inits)) :
    valueOf "executes".toList c = none ∧
    ∃ l, ReadsAll w.files (extended w.exists_ order pre) l ∧ ∃ names : List Str,
      allExecutes w.files D own custom l = names.map .str ∧ inits.length = names.length ∧
      ∀ (i : Nat) (f g : Str), names[i]? = some f → inits[i]? = some g → FoundAt w.exists_ w.home f g := by
  obtain ⟨l, c1, ns, hl, h2, h3, h4, rfl⟩ := Ld.load_some h
  obtain ⟨_, _, d3, _, _, _, _, rfl⟩ := Ld.finish_some (Ld.merged_wf wf l hD hO hC) h2
  have ed : "databases".toList ≠ "executes".toList := by decide +kernel
  refine ⟨by rw [look_eq, look_del, if_pos rfl], l, hl, ns, ?_, (Ld.inits_at h4).1, (Ld.inits_at h4).2.1⟩
  have := Ld.exec_names h3
  rw [← Ld.exec_merged wf l hO hC hE, ← this]
  unfold executesIn
  simp only [look_eq]
  rw [look_ins, if_neg ed]

/-- **C128**: when one of them is found nowhere, loading raises and nothing is run. -/
theorem C128_missing (w : World) (D own : Cfg) (pre order : List Str) (custom : Option Cfg)
    (wf : WfFiles w.files) (hD : Wf D) (hO : Wf own) (hC : ∀ m, custom = some m → Wf m) (hE : valueOf "executes".toList D = none)
    (l : List Str) (hl : ReadsAll w.files (extended w.exists_ order pre) l) (f : Str)
    (hf : J.str f ∈ allExecutes w.files D own custom l) (h1 : w.exists_ f = false) (h2 : w.exists_ (w.home ++ '/' :: f) = false) :
    load w D own pre order custom = none := by
  cases h : load w D own pre order custom with
  | none => rfl
  | some r =>
    obtain ⟨c, inits⟩ := r
    obtain ⟨_, l', hl', ns, e, hlen, hfound⟩ := C128_inits w D own pre order custom c inits wf hD hO hC hE h
    rw [readsAll_unique hl hl', e, List.mem_map] at hf
    obtain ⟨f', hf', heq⟩ := hf
    cases heq
    obtain ⟨i, hi⟩ := List.mem_iff_getElem?.1 hf'
    have hi' : i < ns.length := (List.getElem?_eq_some_iff.1 hi).1
    have hg : inits[i]? = some (inits[i]'(by omega)) := List.getElem?_eq_getElem (by omega)
    rcases hfound i _ _ hi hg with ⟨h, _⟩ | ⟨_, h, _⟩
    · rw [h1] at h; cases h
    · rw [h2] at h; cases h

/-- **C129 is violated**: when two of the loaded files extend the same file, its scripts are run twice; in general a script is run at
least as often as the file naming it is read. -/
theorem C129_twice_violated (w : World) (D own : Cfg) (pre order : List Str) (custom : Option Cfg) (c : Cfg) (inits : List Str)
    (wf : WfFiles w.files) (hD : Wf D) (hO : Wf own) (hC : ∀ m, custom = some m → Wf m) (hE : valueOf "executes".toList D = none)
    (h : load w D own pre order custom = some (c, inits)) (base : Str) (file : File) (hb : w.files base = some file)
    (s g : Str) (hs : J.str s ∈ executesIn file.cfg) (hg : FoundAt w.exists_ w.home s g) :
    (∃ l, ReadsAll w.files (extended w.exists_ order pre) l ∧ l.count base ≤ inits.count g) ∧
    (∀ a b r1 r2 r3, extended w.exists_ order pre = r1 ++ a :: r2 ++ b :: r3 → Extends w.files a base → Extends w.files b base →
      2 ≤ inits.count g) := by
  have main : ∃ l, ReadsAll w.files (extended w.exists_ order pre) l ∧ l.count base ≤ inits.count g := by
    obtain ⟨l, c1, ns, hl, h2, h3, h4, rfl⟩ := Ld.load_some h
    obtain ⟨_, _, d3, _, _, _, _, rfl⟩ := Ld.finish_some (Ld.merged_wf wf l hD hO hC) h2
    have ed : "databases".toList ≠ "executes".toList := by decide +kernel
    refine ⟨l, hl, ?_⟩
    have e : allExecutes w.files D own custom l = ns.map .str := by
      have := Ld.exec_names h3
      rw [← Ld.exec_merged wf l hO hC hE, ← this]
      unfold executesIn
      simp only [look_eq]
      rw [look_ins, if_neg ed]
    refine Nat.le_trans ?_ ((Ld.inits_at h4).2.2 s g hg)
    have cnt : ∀ l : List Str, ∀ ns : List Str, ∀ rest : List J,
        l.flatMap (fun f => ((w.files f).map fun file => executesIn file.cfg).getD []) ++ rest = ns.map .str → l.count base ≤ ns.count s := by
      intro l
      induction l with
      | nil => intro ns rest _; simp
      | cons f l ih =>
        intro ns rest he
        rw [List.flatMap_cons, List.append_assoc] at he
        obtain ⟨n1, n2, rfl, e1, e2⟩ := List.append_eq_map_iff.1 he
        have := ih n2 rest e2.symm
        rw [List.count_cons, List.count_append]
        by_cases hf : f = base
        · subst hf
          rw [hb, Option.map_some, Option.getD_some] at e1
          rw [← e1, List.mem_map] at hs
          obtain ⟨s', hs', e⟩ := hs
          cases e
          have := List.count_pos_iff.2 hs'
          simp; omega
        · have : (f == base) = false := by simp [hf]
          rw [this]; simp; omega
    unfold allExecutes at e
    rw [List.append_assoc] at e
    exact cnt l ns _ e
  refine ⟨main, fun a b r1 r2 r3 he ha hbx => ?_⟩
  obtain ⟨l, hl, hle⟩ := main
  have mem : ∀ {f l}, Reads w.files f l → Extends w.files f base → base ∈ l := by
    intro f l hr he
    cases hr with
    | file hf hr =>
      obtain ⟨file', hf', hg⟩ := he
      rw [hf] at hf'; cases hf'
      have : ∀ {r l}, ReadsAll w.files r l → base ∈ r → base ∈ l := by
        intro r
        induction r with
        | nil => intro l _ h; cases h
        | cons x r ih =>
          intro l h hm
          cases h with
          | cons h1 h2 =>
            rcases List.mem_cons.1 hm with rfl | hm
            · obtain ⟨m, rfl⟩ := reads_last h1
              simp
            · exact List.mem_append_right _ (ih h2 hm)
      exact List.mem_append_left _ (this hr hg)
  rw [he, List.append_assoc] at hl
  obtain ⟨m1, m2, _, hm2, rfl⟩ := readsAll_append hl
  cases hm2 with
  | @cons _ _ k1 k2 q1 q2 =>
    obtain ⟨m3, m4, _, hm4, rfl⟩ := readsAll_append q2
    cases hm4 with
    | @cons _ _ k3 k4 q3 q4 =>
      have c1 := List.count_pos_iff.2 (mem q1 ha)
      have c2 := List.count_pos_iff.2 (mem q3 hbx)
      simp only [List.count_append] at hle
      omega

/-! ### A world that meets the hypotheses -/

namespace Ld

theorem wf_of {c : Cfg} (hn : (c.map (·.1)).Nodup) (hd : ∀ x ∈ c, x.1 ∈ dictKeys → ∃ d, x.2 = .dict d ∧ (d.map (·.1)).Nodup)
    (hm : ∀ x ∈ c, x.1 ∈ namedKeys → ∃ l, x.2 = .named l ∧ (l.map (·.name)).Nodup ∧ ∀ d ∈ l, (d.props.map (·.1)).Nodup) : Wf c :=
  ⟨hn, fun k hk v hv => hd (k, v) ((valueOf_mem hn).1 hv) hk, fun k hk v hv => hm (k, v) ((valueOf_mem hn).1 hv) hk⟩

def base : Cfg := [("executes".toList, .list [.str "i.sql".toList])]
def homeCfg : Cfg := [("timezone".toList, .plain (.str "A".toList)), ("encoding".toList, .plain (.str "gbk".toList))]
def cwdCfg : Cfg := [("timezone".toList, .plain (.str "B".toList)),
  ("databases".toList, .named [⟨"f".toList, [("driver".toList, .str "csv".toList), ("encoding".toList, .str "own".toList)]⟩])]

def world : World :=
  { files := fun f =>
      if f = "h/config.json".toList then some ⟨.many ["b".toList], homeCfg⟩
      else if f = "c/config.json".toList then some ⟨.one "b".toList, cwdCfg⟩
      else if f = "b".toList then some ⟨.many [], base⟩
      else none
    exists_ := fun f => f = "h/config.json".toList ∨ f = "c/config.json".toList ∨ f = "h/i.sql".toList
    home := "h".toList, cwd := "c".toList, depth := 5, uuid := "1".toList }

def order : List Str := ["h/config.json".toList, "h/config.yaml".toList, "c/config.json".toList, "c/config.yaml".toList]
def order' : List Str := ["c/config.yaml".toList, "c/config.json".toList, "h/config.yaml".toList, "h/config.json".toList]

theorem world_wf : WfFiles world.files := by
  have w1 : Wf base := wf_of (by decide +kernel)
    (by intro x hx h; simp only [base, List.mem_singleton] at hx; subst hx; exact absurd h (by decide +kernel))
    (by intro x hx h; simp only [base, List.mem_singleton] at hx; subst hx; exact absurd h (by decide +kernel))
  have w2 : Wf homeCfg := wf_of (by decide +kernel)
    (by
      intro x hx h
      simp only [homeCfg, List.mem_cons, List.not_mem_nil, or_false] at hx
      rcases hx with rfl | rfl <;> exact absurd h (by decide +kernel))
    (by
      intro x hx h
      simp only [homeCfg, List.mem_cons, List.not_mem_nil, or_false] at hx
      rcases hx with rfl | rfl <;> exact absurd h (by decide +kernel))
  have w3 : Wf cwdCfg := wf_of (by decide +kernel)
    (by
      intro x hx h
      simp only [cwdCfg, List.mem_cons, List.not_mem_nil, or_false] at hx
      rcases hx with rfl | rfl <;> exact absurd h (by decide +kernel))
    (by
      intro x hx h
      simp only [cwdCfg, List.mem_cons, List.not_mem_nil, or_false] at hx
      rcases hx with rfl | rfl
      · exact absurd h (by decide +kernel)
      · exact ⟨_, rfl, by decide +kernel, by decide +kernel⟩)
  intro f file h
  simp only [world] at h
  split at h
  · cases h; exact w2
  · split at h
    · cases h; exact w3
    · split at h
      · cases h; exact w1
      · cases h

/-- Whether a configuration answers with a text. -/
def answers (c : Cfg) (a : Ask) (s : Str) : Bool :=
  match answer c a with
  | some (.plain (.str t)) => t = s
  | _ => false

theorem any_some {o : Option (Cfg × List Str)} {f : Cfg → Bool} (h : o.any (fun r => f r.1) = true) : ∃ c i, o = some (c, i) ∧ f c = true := by
  cases o with
  | none => cases h
  | some r => exact ⟨r.1, r.2, rfl, h⟩

theorem order_ok : SetOrder world.home world.cwd order ∧ SetOrder world.home world.cwd order' := by
  have p1 : places world.home world.cwd = order := by decide +kernel
  refine ⟨⟨by decide +kernel, fun f => by rw [p1]⟩, ⟨by decide +kernel, fun f => ?_⟩⟩
  rw [p1]
  simp only [order, order', List.mem_cons, List.not_mem_nil, or_false]
  constructor <;> (rintro (h | h | h | h) <;> simp [h])

end Ld

/-- The hypotheses are met, and C124, C127 and C129 are violated in a small world: the same files give time zone `B` or `A`,
the CSV database's own encoding is replaced, and the script of the common base is run twice. -/
theorem C124_witness_violated :
    WfFiles Ld.world.files ∧ SetOrder Ld.world.home Ld.world.cwd Ld.order ∧ SetOrder Ld.world.home Ld.world.cwd Ld.order' ∧
    (∃ c i, load Ld.world [] [] [] Ld.order none = some (c, i) ∧ Ld.answers c (.value "timezone".toList) "B".toList = true) ∧
    (∃ c i, load Ld.world [] [] [] Ld.order' none = some (c, i) ∧ Ld.answers c (.value "timezone".toList) "A".toList = true) := by
  refine ⟨Ld.world_wf, Ld.order_ok.1, Ld.order_ok.2, ?_, ?_⟩
  · have : (load Ld.world [] [] [] Ld.order none).any (fun r => Ld.answers r.1 (.value "timezone".toList) "B".toList) = true := by
      decide +kernel
    exact Ld.any_some this
  · have : (load Ld.world [] [] [] Ld.order' none).any (fun r => Ld.answers r.1 (.value "timezone".toList) "A".toList) = true := by
      decide +kernel
    exact Ld.any_some this

example : (load Ld.world [] [] [] Ld.order none).any (fun r =>
    Ld.answers r.1 (.prop "databases".toList "f".toList "encoding".toList) "gbk".toList
    && Ld.answers r.1 (.prop "databases".toList "-".toList "driver".toList) "textline".toList
    && (r.2 = ["h/i.sql".toList, "h/i.sql".toList])) = true := by decide +kernel

/-- A circle. -/
example : loadFile (fun f => if f = "a".toList then some ⟨.one "b".toList, []⟩ else if f = "b".toList then some ⟨.many ["a".toList], []⟩ else none)
    40 [] "a".toList = none :=
  C123_circle _ "a".toList "a".toList (.inl rfl)
    (.inl (.more (g := "b".toList) ⟨_, rfl, List.mem_cons_self⟩ (.one ⟨⟨.many ["a".toList], []⟩, by simp, List.mem_cons_self⟩))) _ _

end Verif.Props
