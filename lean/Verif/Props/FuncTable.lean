import Verif.Model.FuncTable
import Verif.Spec.FuncTable
import Verif.Props.Call
/-! C187: calls reach the functions of the source files, with the arguments in the order in which they are written. -/
namespace Verif.Props
open Verif.Val Verif.Call Verif.FuncTable Verif.FuncSpec

namespace FuncTableLemmas
variable {V : Type}

theorem find_foldl_ne (defs : List (Str × Fn V)) (n : Str) (t : Table V) (h : ∀ d ∈ defs, d.1 ≠ n) :
    find (defs.foldl (fun t d => register d.1 d.2 t) t) n = find t n := by
  induction defs generalizing t with
  | nil => rfl
  | cons d ds ih =>
    rw [List.foldl_cons, ih _ fun d hd => h d (List.mem_cons_of_mem _ hd), find_register, if_neg (Ne.symm (h d List.mem_cons_self))]

theorem find_globals {defs : List (Str × Fn V)} {n : Str} {f : Fn V} (h : Defines defs n f) : find (globals defs) n = some f := by
  obtain ⟨before, after, rfl, h⟩ := h
  rw [globals, List.foldl_append, List.foldl_cons, find_foldl_ne _ _ _ h, find_register, if_pos rfl]

theorem find_globals_none {defs : List (Str × Fn V)} {n : Str} (h : ∀ d ∈ defs, d.1 ≠ n) : find (globals defs) n = none :=
  find_foldl_ne defs n [] h

theorem mem_register (n k : Str) (f : Fn V) (t : Table V) (h : k ∈ (register n f t).map (·.1)) : k = n ∨ k ∈ t.map (·.1) := by
  induction t with
  | nil => simp [register] at h; exact Or.inl h
  | cons e t ih =>
    obtain ⟨m, g⟩ := e
    simp only [register] at h
    split at h
    · exact Or.inr h
    · rw [List.map_cons, List.mem_cons] at h
      rcases h with h | h
      · exact Or.inr (by rw [List.map_cons, List.mem_cons]; exact Or.inl h)
      · rcases ih h with h | h
        · exact Or.inl h
        · exact Or.inr (by rw [List.map_cons, List.mem_cons]; exact Or.inr h)

theorem nodup_register (n : Str) (f : Fn V) (t : Table V) (h : (t.map (·.1)).Nodup) : ((register n f t).map (·.1)).Nodup := by
  induction t with
  | nil => simp [register]
  | cons e t ih =>
    obtain ⟨m, g⟩ := e
    simp only [register]
    rw [List.map_cons, List.nodup_cons] at h
    split
    · rw [List.map_cons, List.nodup_cons]; exact h
    · next hne =>
      rw [List.map_cons, List.nodup_cons]
      refine ⟨fun hm => ?_, ih h.2⟩
      rcases mem_register n m f t hm with h' | h'
      · exact hne h'
      · exact h.1 h'

theorem nodup_globals (defs : List (Str × Fn V)) : ((globals defs).map (·.1)).Nodup := by
  have : ∀ t : Table V, (t.map (·.1)).Nodup → ((defs.foldl (fun t d => register d.1 d.2 t) t).map (·.1)).Nodup := by
    induction defs with
    | nil => exact fun t h => h
    | cons d ds ih => exact fun t h => ih _ (nodup_register _ _ _ h)
  exact this [] List.nodup_nil

theorem prefix_eq (k name : Str) (h : mysql.isPrefixOf k = true) : k.drop 6 = name ↔ k = "mysql_".toList ++ name := by
  obtain ⟨r, rfl⟩ := List.isPrefixOf_iff_prefix.1 h
  have h1 : (mysql ++ r).drop 6 = r := rfl
  have h2 : "mysql_".toList = mysql := rfl
  rw [h1, h2]
  exact ⟨fun h => by rw [h], fun h => List.append_cancel_left h⟩

theorem prefix_of (name : Str) : mysql.isPrefixOf ("mysql_".toList ++ name) = true :=
  List.isPrefixOf_iff_prefix.2 ⟨name, rfl⟩

theorem find_exported (t : Table V) (name : Str) : find (exported t) name = find t ("mysql_".toList ++ name) := by
  induction t with
  | nil => rfl
  | cons e t ih =>
    obtain ⟨k, f⟩ := e
    unfold exported at ih ⊢
    rw [List.filterMap_cons]
    by_cases hp : mysql.isPrefixOf k = true
    · simp only [hp, if_true, find]
      by_cases hk : k.drop 6 = name
      · rw [if_pos hk, if_pos ((prefix_eq k name hp).1 hk)]
      · rw [if_neg hk, if_neg fun h => hk ((prefix_eq k name hp).2 h)]
        exact ih
    · simp only [hp, if_false, find, Bool.false_eq_true]
      rw [if_neg fun h => hp (by rw [h]; exact prefix_of name)]
      exact ih

theorem find_none_of {t : Table V} {n : Str} (h : n ∉ t.map (·.1)) : find t n = none := by
  induction t with
  | nil => rfl
  | cons e t ih =>
    obtain ⟨k, f⟩ := e
    rw [List.map_cons, List.mem_cons, not_or] at h
    rw [find, if_neg (Ne.symm h.1), ih h.2]

theorem nodup_exported (t : Table V) (h : (t.map (·.1)).Nodup) : ((exported t).map (·.1)).Nodup := by
  induction t with
  | nil => exact List.nodup_nil
  | cons e t ih =>
    obtain ⟨k, f⟩ := e
    rw [List.map_cons, List.nodup_cons] at h
    unfold exported at ih ⊢
    rw [List.filterMap_cons]
    by_cases hp : mysql.isPrefixOf k = true
    · simp only [hp, if_true, List.map_cons, List.nodup_cons]
      refine ⟨fun hm => ?_, ih h.2⟩
      simp only [List.mem_map, List.mem_filterMap] at hm
      obtain ⟨x, ⟨y, hy, hx⟩, hxk⟩ := hm
      split at hx
      · next hpy =>
        cases hx
        have e1 := (prefix_eq y.1 _ hpy).1 hxk
        have e2 := (prefix_eq k _ hp).1 rfl
        exact h.1 (List.mem_map.2 ⟨y, hy, by rw [e1, e2]; rfl⟩)
      · cases hx
    · simp only [hp, Bool.false_eq_true, if_false]
      exact ih h.2

theorem find_update (t u : Table V) (hu : (u.map (·.1)).Nodup) (n : Str) :
    find (update t u) n = (find u n).or (find t n) := by
  induction u generalizing t with
  | nil => rfl
  | cons e u ih =>
    obtain ⟨k, f⟩ := e
    rw [List.map_cons, List.nodup_cons] at hu
    show find (update (register k f t) u) n = _
    rw [ih _ hu.2, find_register, find]
    by_cases hk : k = n
    · subst hk
      rw [if_pos rfl, if_pos rfl, find_none_of hu.1]; rfl
    · rw [if_neg (Ne.symm hk), if_neg hk]

theorem find_mods (mods : List (List (Str × Fn V))) (t : Table V) (name : Str) (h : Missing mods name) :
    find (mods.foldl (fun t m => update t (exported (globals m))) t) name = find t name := by
  induction mods generalizing t with
  | nil => rfl
  | cons m ms ih =>
    rw [List.foldl_cons, ih _ fun m hm => h m (List.mem_cons_of_mem _ hm),
      find_update _ _ (nodup_exported _ (nodup_globals m)), find_exported, find_globals_none (h m List.mem_cons_self)]
    rfl

theorem find_table {mods : List (List (Str × Fn V))} {name : Str} {f : Fn V} (h : Provides mods name f) : find (table mods) name = some f := by
  obtain ⟨before, m, after, rfl, hm, ha⟩ := h
  rw [table, List.foldl_append, List.foldl_cons, find_mods after _ name ha, find_update _ _ (nodup_exported _ (nodup_globals m)),
    find_exported, find_globals hm]
  rfl

/-! ### Arguments -/

variable {A : Type}

theorem slot_notMem (n : Str) (ns : List Str) (args : List A) (h : n ∉ ns) (d : Args A) : slot n (zipped ns args ++ d) = slot n d := by
  induction ns generalizing args with
  | nil => rfl
  | cons m ns ih =>
    rw [List.mem_cons, not_or] at h
    cases args with
    | nil => rfl
    | cons a args =>
      show slot n ((m, .one a) :: (zipped ns args ++ d)) = _
      rw [slot, if_neg (Ne.symm h.1), ih args h.2]

/-- The values found for names. -/
def found (d : Args A) (ns : List Str) : List A :=
  ns.flatMap fun n => match slot n d with
    | none => []
    | some (.one a) => [a]
    | some (.many l) => l

theorem found_cons_notMem (n : Str) (s : Slot A) (d : Args A) (ns : List Str) (h : n ∉ ns) : found ((n, s) :: d) ns = found d ns := by
  induction ns with
  | nil => rfl
  | cons m ns ih =>
    rw [List.mem_cons, not_or] at h
    have := ih h.2
    unfold found at this ⊢
    rw [List.flatMap_cons, List.flatMap_cons, this, slot, if_neg h.1]

theorem found_zipped (ns : List Str) (hn : ns.Nodup) (args : List A) (h : args.length ≤ ns.length) : found (zipped ns args) ns = args := by
  induction ns generalizing args with
  | nil => rw [List.eq_nil_of_length_eq_zero (Nat.le_zero.1 h)]; rfl
  | cons n ns ih =>
    rw [List.nodup_cons] at hn
    cases args with
    | nil =>
      have : ∀ l : List Str, found ([] : Args A) l = [] := fun l => by
        induction l with
        | nil => rfl
        | cons _ _ ih => unfold found at ih ⊢; rw [List.flatMap_cons, ih]; rfl
      exact this _
    | cons a args =>
      have h1 : found ((n, .one a) :: zipped ns args) (n :: ns) = a :: found ((n, .one a) :: zipped ns args) ns := by
        unfold found
        rw [List.flatMap_cons, slot, if_pos rfl]
        rfl
      show found ((n, .one a) :: zipped ns args) (n :: ns) = _
      rw [h1, found_cons_notMem _ _ _ _ hn.1, ih hn.2 args (Nat.le_of_succ_le_succ h)]

theorem found_many (ns : List Str) (last : Str) (hl : last ∉ ns) (hn : ns.Nodup) (args l : List A) (h : args.length ≤ ns.length) :
    found (zipped ns args ++ [(last, .many l)]) (ns ++ [last]) = args ++ l := by
  have h1 : found (zipped ns args ++ [(last, .many l)]) [last] = l := by
    unfold found
    rw [List.flatMap_cons, slot_notMem _ _ _ hl, slot, if_pos rfl]
    simp
  have h2 : ∀ ms : List Str, last ∉ ms → found (zipped ns args ++ [(last, .many l)]) ms = found (zipped ns args) ms := by
    intro ms hm
    induction ms with
    | nil => rfl
    | cons m ms ih =>
      rw [List.mem_cons, not_or] at hm
      have hs : ∀ d : Args A, slot m (d ++ [(last, .many l)]) = slot m d := by
        intro d
        induction d with
        | nil => show slot m [(last, .many l)] = none; rw [slot, if_neg hm.1]; rfl
        | cons e d ih' =>
          obtain ⟨k, s⟩ := e
          show slot m ((k, s) :: (d ++ _)) = _
          rw [slot, slot, ih']
      have := ih hm.2
      unfold found at this ⊢
      rw [List.flatMap_cons, List.flatMap_cons, this, hs]
  have h3 : found (zipped ns args ++ [(last, .many l)]) (ns ++ [last]) =
      found (zipped ns args ++ [(last, .many l)]) ns ++ found (zipped ns args ++ [(last, .many l)]) [last] := by
    unfold found; rw [List.flatMap_append]
  rw [h3, h1, h2 ns hl, found_zipped ns hn args h]

end FuncTableLemmas
open FuncTableLemmas

variable {V : Type} (null : V) (library : Str → List V → Outcome V)

/-- **C187**: the arguments of a function that the parser knows are passed on as they are written. -/
theorem C187_arguments {A : Type} (k : Known) (hn : k.argTypes.Nodup)
    (hk : k.key = "substring".toList → k.argTypes = ["this".toList, "start".toList, "length".toList])
    (args : List A) (d : Args A) (h : parseArgs k args = some d) : compileArgs k d = args := by
  have hc : ∀ ns, compileArgs k d = found d (argNames k) ∧ (argNames k = ns → compileArgs k d = found d ns) :=
    fun ns => ⟨rfl, fun e => by rw [← e]; rfl⟩
  have hnames : k.argTypes ≠ [] → argNames k = k.argTypes := by
    intro hne
    by_cases hs : k.key = substringKey
    · rw [hk hs, argNames, if_pos hs]; rfl
    · rw [argNames, if_neg hs, if_pos hne]
  unfold parseArgs at h
  split at h
  · cases hl : k.argTypes.getLast? with
    | none => rw [hl] at h; cases h
    | some last =>
      rw [hl] at h
      cases h
      have hne : k.argTypes ≠ [] := by intro e; rw [e] at hl; cases hl
      obtain ⟨ns, hns⟩ := List.getLast?_eq_some_iff.1 hl
      rw [(hc k.argTypes).2 (hnames hne)]
      have hd : k.argTypes.dropLast = ns := by rw [hns, List.dropLast_concat]
      have hlen : k.argTypes.length - 1 = ns.length := by rw [hns]; simp
      rw [hns, List.nodup_append] at hn
      have hlast : last ∉ ns := fun hm => hn.2.2 last hm last (by simp) rfl
      rw [hd, hlen]
      conv => lhs; arg 2; rw [hns]
      rw [found_many ns last hlast hn.1 _ _ (by simp [List.length_take]; omega), List.take_append_drop]
  · split at h
    · cases h
    · next hlt =>
      cases h
      by_cases hne : k.argTypes = []
      · have : args = [] := List.eq_nil_of_length_eq_zero (by rw [hne] at hlt; simpa using hlt)
        subst this
        have hz : zipped k.argTypes ([] : List A) = [] := by rw [hne]; rfl
        rw [hz]
        show (argNames k).flatMap _ = []
        exact List.flatMap_eq_nil_iff.2 fun _ _ => rfl
      · rw [(hc k.argTypes).2 (hnames hne)]
        exact found_zipped _ hn _ (Nat.le_of_not_lt hlt)

/-- **C187**: a call of a function that the files provide, in any spelling, calls it: for names the parser does not know. -/
theorem C187_called_partial (mods : List (List (Str × Fn V))) (name written : Str) (f : Fn V) (hp : Provides mods name f)
    (hn : ∀ s ∈ reservedNames, name ≠ s.toList) (hw : written.map Char.toLower = name) (args : List V) :
    run null library (table mods) written args = calculate null f args := by
  have hf := find_table hp
  have ht : target (table mods) written = .mysql name := by
    unfold target
    simp only [hw]
    rw [if_neg, if_pos]
    · refine ⟨?_, by rw [hf]; rfl⟩
      simp only [List.mem_cons, List.not_mem_nil, or_false, not_or]
      exact ⟨hn "add" (by decide), hn "sub" (by decide), hn "mul" (by decide), hn "div" (by decide), hn "mod" (by decide)⟩
    · simp only [List.mem_cons, List.not_mem_nil, or_false, not_or]
      exact ⟨hn "get_value" (by decide), hn "call_define" (by decide), hn "jit" (by decide)⟩
  unfold run
  rw [ht]
  simp only [hf]

/-- **C187**: a call of a function that the parser knows calls what the files provide for the key of its class, with the arguments as
they are written. -/
theorem C187_known (mods : List (List (Str × Fn V))) (k : Known) (hn : k.argTypes.Nodup)
    (hk : k.key = "substring".toList → k.argTypes = ["this".toList, "start".toList, "length".toList])
    (f : Fn V) (hp : Provides mods k.key f) (args : List V) (d : Args V)
    (ha : parseArgs k args = some d) : runKnown null library (table mods) k args = some (calculate null f args) := by
  have hf := find_table hp
  have ht : knownTarget (table mods) k = .mysql k.key := by rw [knownTarget, hf]; rfl
  rw [runKnown, ha, Option.map_some, ht]
  simp only [hf]
  rw [C187_arguments k hn hk args d ha]

/-- Such a call is refused only when it has more arguments than the class. -/
theorem C187_known_accepted (k : Known) (args : List V) (h : k.argTypes ≠ []) (hl : k.varLen = true ∨ args.length ≤ k.argTypes.length) :
    ∃ d, parseArgs k args = some d := by
  unfold parseArgs
  split
  · cases hg : k.argTypes.getLast? with
    | none => exact absurd (List.getLast?_eq_none_iff.1 hg) h
    | some last => exact ⟨_, rfl⟩
  · next hv =>
    rcases hl with hl | hl
    · exact absurd hl hv
    · exact ⟨_, if_neg (Nat.not_lt.2 hl)⟩

/-- **C187 is violated by functions whose names in the files do not begin with `mysql_`** (json_funcs.py:187: JSON_ARRAY_APPEND): calls
never reach them, whatever they are. -/
theorem C187_unprefixed_violated (mods : List (List (Str × Fn V))) (name written : Str) (hm : Missing mods name)
    (hw : written.map Char.toLower = name) (args : List V) : run null library (table mods) written args = library name args := by
  have hf : find (table mods) name = none := find_mods mods [] name hm
  unfold run target
  simp only [hw, hf]
  by_cases h : name ∈ ["get_value".toList, "call_define".toList, "jit".toList]
  · rw [if_pos h]
  · rw [if_neg h, if_neg (by simp)]

/-- The same for functions that the parser knows: a class whose key is not the name in the files. -/
theorem C187_key_violated (mods : List (List (Str × Fn V))) (k : Known) (hn : k.argTypes.Nodup)
    (hk : k.key = "substring".toList → k.argTypes = ["this".toList, "start".toList, "length".toList])
    (hm : Missing mods k.key) (args : List V) (d : Args V)
    (ha : parseArgs k args = some d) : runKnown null library (table mods) k args = some (library k.key args) := by
  have hf : find (table mods) k.key = none := find_mods mods [] k.key hm
  have ht : knownTarget (table mods) k = .library k.key := by rw [knownTarget, hf]; rfl
  rw [runKnown, ha, Option.map_some, ht]
  simp only []
  rw [C187_arguments k hn hk args d ha]

/-! ### Examples -/

/-- Two files; `abs` is defined twice, and one function has no prefix. -/
def twoFiles (a b c d : Fn V) : List (List (Str × Fn V)) :=
  [[("mysql_abs".toList, a), ("mysql_pi".toList, b)], [("helper".toList, c), ("json_array_append".toList, d), ("mysql_abs".toList, c)]]

/-- `SELECT Abs(…)` calls the last definition. -/
example (a b c d : Fn V) (args : List V) : run null library (table (twoFiles a b c d)) "Abs".toList args = calculate null c args :=
  C187_called_partial null library (twoFiles a b c d) "abs".toList _ c
    ⟨[[("mysql_abs".toList, a), ("mysql_pi".toList, b)]], [("helper".toList, c), ("json_array_append".toList, d), ("mysql_abs".toList, c)], [], rfl,
      ⟨[("helper".toList, c), ("json_array_append".toList, d)], [], rfl, by simp⟩, by simp⟩
    (by decide) (by decide) args

/-- `SELECT JSON_ARRAY_APPEND(…)` does not call the function of the file. -/
example (a b c d : Fn V) (args : List V) :
    run null library (table (twoFiles a b c d)) "JSON_ARRAY_APPEND".toList args = library "json_array_append".toList args :=
  C187_unprefixed_violated null library (twoFiles a b c d) "json_array_append".toList _ (by
    intro m hm e he
    simp only [twoFiles, List.mem_cons, List.not_mem_nil, or_false] at hm
    rcases hm with rfl | rfl <;> simp only [List.mem_cons, List.not_mem_nil, or_false] at he
    · rcases he with rfl | rfl <;> simp only [] <;> decide
    · rcases he with rfl | rfl | rfl <;> simp only [] <;> decide) (by decide) args

/-- A class with two arguments and a list. -/
def listed : Known := ⟨"abs".toList, [['t'], ['u'], ['l']], true⟩

example (a b c d : Fn V) (x y z w : V) :
    runKnown null library (table (twoFiles a b c d)) listed [x, y, z, w] = some (calculate null c [x, y, z, w]) :=
  C187_known null library (twoFiles a b c d) listed (by decide) (fun h => absurd h (by decide)) c
    ⟨[[("mysql_abs".toList, a), ("mysql_pi".toList, b)]], [("helper".toList, c), ("json_array_append".toList, d), ("mysql_abs".toList, c)], [], rfl,
      ⟨[("helper".toList, c), ("json_array_append".toList, d)], [], rfl, by simp⟩, by simp⟩ [x, y, z, w] _ rfl

/-- Fewer arguments than the class has: no position is taken by another argument. -/
example (a b c d : Fn V) (x : V) : runKnown null library (table (twoFiles a b c d)) listed [x] = some (calculate null c [x]) :=
  C187_known null library (twoFiles a b c d) listed (by decide) (fun h => absurd h (by decide)) c
    ⟨[[("mysql_abs".toList, a), ("mysql_pi".toList, b)]], [("helper".toList, c), ("json_array_append".toList, d), ("mysql_abs".toList, c)], [], rfl,
      ⟨[("helper".toList, c), ("json_array_append".toList, d)], [], rfl, by simp⟩, by simp⟩ [x] _ rfl

/-- `SUBSTRING(x, y)`, `SUBSTRING(x, y, z)`: the class for which the program has names of its own. -/
example (f : Fn V) (x y z : V) :
    let k : Known := ⟨"substring".toList, ["this".toList, "start".toList, "length".toList], false⟩
    let mods := [[("mysql_substring".toList, f)]]
    runKnown null library (table mods) k [x, y] = some (calculate null f [x, y]) ∧
    runKnown null library (table mods) k [x, y, z] = some (calculate null f [x, y, z]) := by
  have hp : Provides [[("mysql_substring".toList, f)]] "substring".toList f :=
    ⟨[], [("mysql_substring".toList, f)], [], rfl, ⟨[], [], rfl, by simp⟩, by simp⟩
  exact ⟨C187_known null library _ _ (by decide) (fun _ => rfl) f hp [x, y] _ rfl,
    C187_known null library _ _ (by decide) (fun _ => rfl) f hp [x, y, z] _ rfl⟩

end Verif.Props
