import Verif.Props.NestCases
import Verif.Props.StrSearch
import Verif.Props.Literal
import Verif.Spec.Insert
/-! C145, C146: INSERT … SELECT. -/
namespace Verif.Props.Ins
open Verif.Val Verif.Sql Verif.Select Verif.Nest Verif.SqlNest Verif.Insert Verif.SqlInsert Verif.Props Verif.Props.Nested Verif.Text

theorem lastPart_after (d : Str) (hd : d ≠ []) (c : Char) (hc : c ∉ d) (m : Str) (hm : ¬ d <:+: m) (x cur : Str) :
    (Str.splitGo d cur (x ++ c :: (d ++ m))).getLastD [] = m := by
  have key : ∀ n (x cur : Str), x.length ≤ n → (Str.splitGo d cur (x ++ c :: (d ++ m))).getLastD [] = m := by
    obtain ⟨z, d', rfl⟩ : ∃ z d', d = z :: d' := by
      cases d with
      | nil => exact absurd rfl hd
      | cons z d' => exact ⟨z, d', rfl⟩
    have hnil : ∀ cur : Str, (Str.splitGo (z :: d') cur (c :: (z :: d' ++ m))).getLastD [] = m := by
      intro cur
      rw [Str.splitGo]
      have h1 : (z :: d').isPrefixOf (c :: (z :: d' ++ m)) = false := by
        rw [Bool.eq_false_iff]
        intro h
        have := (List.isPrefixOf_iff_prefix.1 h)
        obtain ⟨t, ht⟩ := this
        injection ht with h1 _
        exact hc (by simp [h1])
      simp only [h1, Bool.false_eq_true, if_false]
      rw [splitGo_first (z :: d') (by simp) _ _ [] m ⟨by simp, by simp⟩, splitGo_noOcc _ (by simp) _ _ hm]
      simp
    intro n
    induction n with
    | zero =>
      intro x cur hx
      have : x = [] := List.length_eq_zero_iff.1 (Nat.le_zero.1 hx)
      subst this
      exact hnil cur
    | succ n ih =>
      intro x cur hx
      cases x with
      | nil => exact hnil cur
      | cons a x =>
        simp only [List.length_cons, Nat.add_le_add_iff_right] at hx
        rw [List.cons_append, Str.splitGo]
        by_cases hp : (z :: d').isPrefixOf (a :: (x ++ c :: (z :: d' ++ m))) = true
        · simp only [hp, if_true]
          obtain ⟨t, ht⟩ := List.isPrefixOf_iff_prefix.1 hp
          rw [List.cons_append] at ht
          injection ht with h1 h2
          -- `d'` lies within `x`
          have hlen : d'.length ≤ x.length := by
            rcases Nat.lt_or_ge x.length d'.length with h | h
            · exfalso
              have : (d' ++ t)[x.length]? = some c := by rw [h2]; simp
              rw [List.getElem?_append_left h] at this
              exact hc (List.mem_cons_of_mem _ (List.mem_of_getElem? this))
            · exact h
          have hdrop : (x ++ c :: (z :: d' ++ m)).drop d'.length = x.drop d'.length ++ c :: (z :: d' ++ m) :=
            List.drop_append_of_le_length hlen
          rw [hdrop]
          have := ih (x.drop d'.length) [] (by rw [List.length_drop]; omega)
          generalize hs : Str.splitGo (z :: d') [] (x.drop d'.length ++ c :: (z :: d' ++ m)) = l at this ⊢
          have hne : l ≠ [] := by rw [← hs]; exact splitGo_ne _ _ _
          cases l with
          | nil => exact absurd rfl hne
          | cons y l => simpa using this
        · simp only [hp, Bool.false_eq_true, if_false]
          exact ih x _ hx
  exact key x.length x cur (Nat.le_refl _)

theorem firstPart_before (d : Str) (hd : d ≠ []) (x y : Str) (h : FirstOcc d (x ++ d ++ y) x y) : firstPart d (x ++ d ++ y) = x := by
  rw [firstPart, splitGo_first d hd [] _ x y h]; rfl

theorem contains_infix (s a x y : Str) (h : s = x ++ a ++ y) : Str.contains s a = true := by
  subst h
  rw [Str.contains, List.any_eq_true]
  refine ⟨x.length, by simp; omega, ?_⟩
  rw [List.isPrefixOf_iff_prefix, List.append_assoc, List.drop_left]
  exact ⟨y, rfl⟩

/-- A text first occurs at the end of `x`, if it does not begin in `x`. -/
theorem firstOcc_of (d x y : Str) (hd : d ≠ []) (h : ¬ d <:+: x ++ d.dropLast) : FirstOcc d (x ++ d ++ y) x y := by
  refine ⟨rfl, ?_⟩
  intro i hi hp
  obtain ⟨t, ht⟩ := hp
  apply h
  have hlast : d = d.dropLast ++ [d.getLast hd] := (List.dropLast_concat_getLast hd).symm
  have e1 : x ++ d ++ y = (x ++ d.dropLast) ++ ([d.getLast hd] ++ y) := by
    conv => lhs; rw [hlast]
    simp only [List.append_assoc]
  have hdl : d.dropLast.length = d.length - 1 := List.length_dropLast
  have hpos : 0 < d.length := List.length_pos_iff.2 hd
  have hle : i + d.length ≤ (x ++ d.dropLast).length := by rw [List.length_append, hdl]; omega
  rw [e1, List.drop_append_of_le_length (by omega)] at ht
  have hpre : d <+: (x ++ d.dropLast).drop i := by
    refine List.prefix_of_prefix_length_le ⟨t, ht⟩ ⟨_, rfl⟩ ?_
    rw [List.length_drop]; omega
  obtain ⟨u, hu⟩ := hpre
  exact ⟨(x ++ d.dropLast).take i, u, by rw [List.append_assoc, hu, List.take_append_drop]⟩

theorem firstColon (x y : Str) (h : ¬ "::".toList <:+: x ++ [':']) : FirstOcc "::".toList (x ++ "::".toList ++ y) x y :=
  firstOcc_of _ x y (by decide) h

/-- The output of an INSERT after `compile_select`. -/
theorem select_output (useOutput : Option Str) (keys db name mode : Str) (hn : ¬ "::".toList <:+: ("&.".toList ++ db ++ ".".toList ++ name) ++ [':'])
    (hm : ¬ " use ".toList <:+: mode) : selectOutput useOutput keys (outputText db name "id".toList mode) = outputText db name keys mode := by
  have e1 : outputText db name "id".toList mode = ("&.".toList ++ db ++ ".".toList ++ name) ++ "::".toList ++ ("id".toList ++ " use ".toList ++ mode) := by
    simp only [outputText, List.append_assoc]
  have e2 : outputText db name "id".toList mode =
      ("&.".toList ++ db ++ ".".toList ++ name ++ "::".toList ++ ['i']) ++ 'd' :: (" use ".toList ++ mode) := by
    simp only [outputText, List.append_assoc, show "id".toList = ['i', 'd'] from rfl, List.cons_append, List.nil_append]
  have hf : firstPart "::".toList (outputText db name "id".toList mode) = "&.".toList ++ db ++ ".".toList ++ name := by
    rw [e1]
    exact firstPart_before _ (by decide) _ _ (firstColon _ _ hn)
  have hl : lastPart " use ".toList (outputText db name "id".toList mode) = mode := by
    rw [e2]
    exact lastPart_after _ (by decide) 'd' (by decide) mode hm _ []
  have hc : Str.contains (outputText db name "id".toList mode) " use ".toList = true :=
    contains_infix _ _ ("&.".toList ++ db ++ ".".toList ++ name ++ "::".toList ++ "id".toList) mode (by simp only [outputText, List.append_assoc])
  rw [selectOutput, hf, hl, hc, if_pos rfl]
  rfl

theorem firstPart_output (keys db name mode : Str) (hn : ¬ "::".toList <:+: ("&.".toList ++ db ++ ".".toList ++ name) ++ [':']) :
    firstPart "::".toList (outputText db name keys mode) = "&.".toList ++ db ++ ".".toList ++ name := by
  have e1 : outputText db name keys mode = ("&.".toList ++ db ++ ".".toList ++ name) ++ "::".toList ++ (keys ++ " use ".toList ++ mode) := by
    simp only [outputText, List.append_assoc]
  rw [e1]
  exact firstPart_before _ (by decide) _ _ (firstColon _ _ hn)

/-- The branch of a UNION is written with `I`; its keys are its own. -/
theorem branch_info (k : Str) (hk : ¬ "::".toList <:+: k ++ " use I".toList) (hk' : ¬ " use ".toList <:+: k ++ " use".toList) :
    branchInfo k = (k, some "I".toList) := by
  have e0 : selectOutput none k "&.-.&1::id".toList = "&.-.&1::".toList ++ k ++ " use I".toList := by
    have h1 : firstPart "::".toList "&.-.&1::id".toList = "&.-.&1".toList := by
      have := firstPart_before "::".toList (by decide) "&.-.&1".toList "id".toList (firstColon _ _ (by decide))
      exact this
    have h2 : Str.contains "&.-.&1::id".toList " use ".toList = false := by decide +kernel
    rw [selectOutput, h1, h2]
    simp only [Bool.false_eq_true, if_false, Option.getD_none, List.append_assoc]
    rfl
  have e1 : "&.-.&1::".toList ++ k ++ " use I".toList = "&.-.&".toList ++ '1' :: ("::".toList ++ (k ++ " use I".toList)) := by
    simp only [List.append_assoc, show "&.-.&1::".toList = "&.-.&".toList ++ ['1', ':', ':'] from rfl]; rfl
  have hl : lastPart "::".toList ("&.-.&1::".toList ++ k ++ " use I".toList) = k ++ " use I".toList := by
    rw [e1]
    exact lastPart_after _ (by decide) '1' (by decide) _ hk _ []
  have hfirst : FirstOcc " use ".toList (k ++ " use I".toList) k ['I'] := by
    have := firstOcc_of " use ".toList k ['I'] (by decide) hk'
    rw [List.append_assoc] at this
    exact this
  rw [branchInfo, e0, hl]
  rw [splitGo_first _ (by decide) [] _ k ['I'] hfirst, splitGo_noOcc _ (by decide) _ _ (by decide)]
  rfl

end Verif.Props.Ins

namespace Verif.Props
open Verif.Val Verif.Expr Verif.Sql Verif.Where Verif.Select Verif.SqlSelect Verif.Nest Verif.SqlNest Verif.Insert Verif.SqlInsert Verif.Props.Nested Verif.Props.Ins

section
variable {S : Type} (text : Str → Bool) (py : Py) (calls : Str → List Val → Val)

theorem sourceRows_query (en : Engine) (st : Store) (e : Rel S) (hq : isQuery e = true) :
    sourceRows py calls en st e = Nest.result py calls en st e := by
  cases e <;> first | rfl | cases hq

/-- The rows of a statement have the columns of its first SELECT. -/
theorem stored_names (en : Engine) (ht : ∀ x y, en.le x y = true ∨ en.le y x = true)
    (htr : ∀ x y z, en.le x y = true → en.le y z = true → en.le x z = true) (hf : Faithful py en.src)
    (hchunk : ∀ l, (en.chunk l).flatMap (·.1) = l) (e : Rel S) (db : Store) (out : List Out) (h : Nest.result py calls en db e = some out)
    (hq : isQuery e = true) (hs : Scoped e) (ha : Aligned e) (hok : Ok text py calls en db e) (hfresh : ∀ n ∈ bound e, db n = []) :
    ∀ o ∈ out, o.map (·.1) = header e := by
  simp only [Nest.result, Option.map_eq_some_iff] at h
  obtain ⟨⟨st', bs⟩, h, rfl⟩ := h
  obtain ⟨_, _, hb⟩ := exec_means text py calls en ht htr hf hchunk e db db st' bs h hs ha hok (fun _ _ => rfl) hfresh
  obtain ⟨hne, hb⟩ := hb hq
  rw [collect_query e bs hq hne hb]
  intro o ho
  obtain ⟨b, hbm, hob⟩ := List.mem_flatMap.1 ho
  exact (hb b hbm).2.2 o hob

/-- **C145**: INSERT INTO t SELECT … or UNION ALL …, without a list of columns or with the names of the columns of the SELECT, stores
exactly the rows of the SELECT, in order. -/
theorem C145_insert_select_partial (en : Engine) (ht : ∀ x y, en.le x y = true ∨ en.le y x = true)
    (htr : ∀ x y z, en.le x y = true → en.le y z = true → en.le x z = true) (hf : Faithful py en.src)
    (hchunk : ∀ l, (en.chunk l).flatMap (·.1) = l) (upper : Str → Str) (useOutput : Option Str) (db name : Str) (options : List Str)
    (columns : Option (List Str)) (keys : List Str) (st : Store) (e : Rel S) (out : Str) (rows : List Out)
    (h : insertSelect py calls en upper useOutput db name options columns keys st e = some (out, rows))
    (hq : isQuery e = true) (hs : Scoped e) (ha : Aligned e) (hok : Ok text py calls en st e) (hfresh : ∀ n ∈ bound e, st n = [])
    (hcols : columns = none ∨ columns = some (header e)) :
    ∃ result, Means text py.cmp calls en.le st e result ∧ inserted columns (header e) result = some rows := by
  simp only [insertSelect, Option.map_eq_some_iff, sourceRows_query py calls en st e hq] at h
  obtain ⟨r, hr, h2⟩ := h
  cases h2
  refine ⟨_, C144_nested_partial text py calls en ht htr hf hchunk e st _ hr hs ha hok hfresh, ?_⟩
  rcases hcols with rfl | rfl
  · rfl
  · simp only [inserted, if_true, Option.some.injEq]
    conv => rhs; rw [← List.map_id rows]
    refine List.map_congr_left fun o ho => ?_
    rw [← stored_names text py calls en ht htr hf hchunk e st _ hr hq hs ha hok hfresh o ho]
    clear ho
    induction o with
    | nil => rfl
    | cons x o ih =>
      simp only [List.map_cons, List.zip_cons_cons, id_eq]
      rw [ih]; rfl

/-- **C145 is violated by every other list of columns**: as soon as there is a row, what is stored is not what SQL stores, whatever
the result of the SELECT is: the names of the SELECT are stored, not those of the list. -/
theorem C145_columns_violated (en : Engine) (ht : ∀ x y, en.le x y = true ∨ en.le y x = true)
    (htr : ∀ x y z, en.le x y = true → en.le y z = true → en.le x z = true) (hf : Faithful py en.src)
    (hchunk : ∀ l, (en.chunk l).flatMap (·.1) = l) (upper : Str → Str) (useOutput : Option Str) (db name : Str) (options : List Str)
    (cs : List Str) (keys : List Str) (st : Store) (e : Rel S) (out : Str) (rows : List Out)
    (h : insertSelect py calls en upper useOutput db name options (some cs) keys st e = some (out, rows))
    (hq : isQuery e = true) (hs : Scoped e) (ha : Aligned e) (hok : Ok text py calls en st e) (hfresh : ∀ n ∈ bound e, st n = [])
    (hcols : cs ≠ header e) (hrows : rows ≠ []) :
    ¬ ∃ result, (∀ o ∈ result, o.map (·.1) = header e) ∧ inserted (some cs) (header e) result = some rows := by
  simp only [insertSelect, Option.map_eq_some_iff, sourceRows_query py calls en st e hq] at h
  obtain ⟨r, hr, h2⟩ := h
  cases h2
  rintro ⟨res, hres, hi⟩
  simp only [inserted] at hi
  split at hi
  · rename_i hlen
    cases hi
    cases res with
    | nil => exact hrows rfl
    | cons o res =>
      have hn := stored_names text py calls en ht htr hf hchunk e st _ hr hq hs ha hok hfresh (List.zip cs (o.map (·.2))) (by simp)
      apply hcols
      rw [← hn, List.map_fst_zip]
      have := congrArg List.length (hres o (by simp))
      rw [List.length_map] at this
      rw [List.length_map, this]
      omega
  · cases hi

/-- **C145 is violated by a list of another length**: it is not refused. -/
theorem C145_count_violated (en : Engine) (upper : Str → Str) (useOutput : Option Str) (db name : Str) (options : List Str)
    (cs : List Str) (keys : List Str) (st : Store) (e : Rel S) (rows : List Out) (hr : sourceRows py calls en st e = some rows)
    (hlen : cs.length ≠ (header e).length) :
    (∃ out, insertSelect py calls en upper useOutput db name options (some cs) keys st e = some (out, rows)) ∧
      ∀ r, inserted (some cs) (header e) r = none := by
  refine ⟨⟨_, by rw [insertSelect, hr]; rfl⟩, fun r => ?_⟩
  simp only [inserted, if_neg hlen]

/-- `INSERT INTO t WITH w AS (SELECT a, b FROM t WHERE b > 1) SELECT a, b FROM w`. -/
def insertWith : Rel NS := .withq ['w'] (.select nestInner (.scan ['t'])) (.select nestAll (.scan ['w']))

/-- **C145 is violated by a WITH after INSERT INTO**: it is not looked at; `insertWith` stores nothing, though the SELECT has two rows. -/
theorem C145_with_violated (upper : Str → Str) :
    (∃ out, insertSelect py calls (oneBatch py) upper none [] ['x'] [] none [['a']] nestDb insertWith = some (out, [])) ∧
    Nest.result py calls (oneBatch py) nestDb insertWith = some [ab 1 5, ab 2 7] := by
  refine ⟨⟨_, rfl⟩, ?_⟩
  rw [Nest.result, insertWith, exec, if_neg (by decide), exec_t', Option.bind_some]
  have hc : collect (.select nestInner (.scan ['t'])) [⟨abSchema, [ab 1 5, ab 2 7]⟩] = [ab 1 5, ab 2 7] := rfl
  simp only
  rw [hc]
  rfl

/-! ### C146 -/

theorem insertOutput_eq (upper : Str → Str) (db name : Str) (options : List Str) (h : ¬ (db = ['-'] ∧ name = ['_'])) :
    insertOutput upper db name options = outputText db name "id".toList (Literal.updateType upper options) := by
  rw [insertOutput, if_neg h]; rfl

theorem isUnion_iff {e : Rel S} : isUnion e = true ↔ IsUnion e := by
  induction e with
  | scan t => exact ⟨fun h => (by cases h), fun h => (by cases h)⟩
  | select q src => exact ⟨fun h => (by cases h), fun h => (by cases h)⟩
  | union l r => exact ⟨fun _ => .here l r, fun _ => rfl⟩
  | withq n d b _ ih => exact ⟨fun h => .under n d b (ih.1 h), fun h => by cases h with | under _ _ _ h => exact ih.2 h⟩

theorem isUnion_false {e : Rel S} (h : ¬ IsUnion e) : isUnion e = false := by
  rw [Bool.eq_false_iff]; exact fun e => h (isUnion_iff.1 e)

/-- **C146**: INSERT INTO t SELECT … writes to the table it names, in the way its options ask for, under the keys of the SELECT. -/
theorem C146_select (en : Engine) (upper : Str → Str) (useOutput : Option Str) (db name : Str) (options : List Str)
    (columns : Option (List Str)) (keys : Str) (st : Store) (e : Rel S) (out : Str) (rows : List Out)
    (h : insertSelect py calls en upper useOutput db name options columns [keys] st e = some (out, rows)) (hu : ¬ IsUnion e)
    (hcon : ¬ (db = ['-'] ∧ name = ['_'])) (hn : ¬ "::".toList <:+: ("&.".toList ++ db ++ ".".toList ++ name) ++ [':'])
    (hm : ¬ " use ".toList <:+: Literal.updateType upper options) :
    out = outputText db name keys (Literal.updateType upper options) := by
  simp only [insertSelect, Option.map_eq_some_iff, isUnion_false hu] at h
  obtain ⟨r, _, h2⟩ := h
  cases h2
  rw [if_neg (by decide), insertOutput_eq upper db name options hcon]
  exact select_output useOutput keys db name _ hn hm

/-- **C146**: INSERT INTO `-` SELECT … (the console, `-._` in the model) prints the rows: they are inserted into the printed output,
`&.-.&1`, whatever the options say. -/
theorem C146_console (en : Engine) (upper : Str → Str) (useOutput : Option Str) (options : List Str)
    (columns : Option (List Str)) (keys : Str) (st : Store) (e : Rel S) (out : Str) (rows : List Out)
    (h : insertSelect py calls en upper useOutput ['-'] ['_'] options columns [keys] st e = some (out, rows)) (hu : ¬ IsUnion e) :
    out = outputText ['-'] ['&', '1'] keys ['I'] := by
  simp only [insertSelect, Option.map_eq_some_iff, isUnion_false hu] at h
  obtain ⟨r, _, h2⟩ := h
  cases h2
  rw [if_neg (by decide), show insertOutput upper ['-'] ['_'] options = outputText ['-'] ['&', '1'] "id".toList ['I'] by
    simp [insertOutput, outputText]]
  exact select_output useOutput keys _ _ _ (by decide) (by decide)

theorem unionType_I (keys : List Str)
    (hk : ∀ k ∈ keys, ¬ "::".toList <:+: k ++ " use I".toList ∧ ¬ " use ".toList <:+: k ++ " use".toList) :
    unionType ['I'] keys = ['I'] := by
  induction keys with
  | nil => rfl
  | cons k keys ih =>
    rw [unionType, if_pos rfl, branch_info k (hk k (by simp)).1 (hk k (by simp)).2]
    exact ih fun k' hk' => hk k' (by simp [hk'])

/-- **C146 is violated by UNION**: the way of writing that the options ask for is not looked at; the rows of a UNION are always
inserted (`I`). -/
theorem C146_union_violated (en : Engine) (upper : Str → Str) (useOutput : Option Str) (db name : Str) (options : List Str)
    (columns : Option (List Str)) (key : Str) (keys : List Str) (st : Store) (e : Rel S) (out : Str) (rows : List Out)
    (h : insertSelect py calls en upper useOutput db name options columns (key :: keys) st e = some (out, rows)) (hu : IsUnion e)
    (hcon : ¬ (db = ['-'] ∧ name = ['_'])) (hn : ¬ "::".toList <:+: ("&.".toList ++ db ++ ".".toList ++ name) ++ [':'])
    (hk : ∀ k ∈ key :: keys, ¬ "::".toList <:+: k ++ " use I".toList ∧ ¬ " use ".toList <:+: k ++ " use".toList) :
    out = outputText db name key ['I'] := by
  simp only [insertSelect, Option.map_eq_some_iff, isUnion_iff.2 hu] at h
  obtain ⟨r, _, h2⟩ := h
  cases h2
  rw [if_pos trivial, insertOutput_eq upper db name options hcon, unionOutput, firstPart_output _ _ _ _ hn, unionType_I _ hk]
  rw [List.headD_cons, branch_info key (hk key (by simp)).1 (hk key (by simp)).2]
  rfl

/-- **C146** for UNION, when the options ask for `I` or nothing. -/
theorem C146_union_partial (en : Engine) (upper : Str → Str) (useOutput : Option Str) (db name : Str) (options : List Str)
    (columns : Option (List Str)) (key : Str) (keys : List Str) (st : Store) (e : Rel S) (out : Str) (rows : List Out)
    (h : insertSelect py calls en upper useOutput db name options columns (key :: keys) st e = some (out, rows)) (hu : IsUnion e)
    (hcon : ¬ (db = ['-'] ∧ name = ['_'])) (hn : ¬ "::".toList <:+: ("&.".toList ++ db ++ ".".toList ++ name) ++ [':'])
    (hk : ∀ k ∈ key :: keys, ¬ "::".toList <:+: k ++ " use I".toList ∧ ¬ " use ".toList <:+: k ++ " use".toList)
    (hi : Literal.updateType upper options = ['I']) : out = outputText db name key (Literal.updateType upper options) := by
  rw [hi]
  exact C146_union_violated py calls en upper useOutput db name options columns key keys st e out rows h hu hcon hn hk

/-- INSERT INTO `m.t<UI>` SELECT a, b FROM t: written to `m.t` with `UI`; with a UNION, with `I`. -/
example (upper : Str → Str) (h : upper ['U', 'I'] = ['U', 'I']) :
    (insertSelect py calls (oneBatch py) upper none ['m'] ['t'] [['U', 'I']] none [['a']] nestDb (.select nestInner (.scan ['t']))).map (·.1)
      = some "&.m.t::a use UI".toList ∧
    (insertSelect py calls (oneBatch py) upper none ['m'] ['t'] [['U', 'I']] none [['a'], ['a']] nestDb
      (.union (.select nestInner (.scan ['t'])) (.select nestInner (.scan ['t'])))).map (·.1) = some "&.m.t::a use I".toList := by
  have hty : Literal.updateType upper [['U', 'I']] = ['U', 'I'] := by
    simp [Literal.updateType, h]
  constructor
  · cases hx : insertSelect py calls (oneBatch py) upper none ['m'] ['t'] [['U', 'I']] none [['a']] nestDb (.select nestInner (.scan ['t'])) with
    | none => simp [insertSelect, sourceRows, Nest.result, exec_t'] at hx
    | some x =>
      have := C146_select py calls (oneBatch py) upper none ['m'] ['t'] [['U', 'I']] none ['a'] nestDb _ x.1 x.2 hx (fun h => by cases h) (by decide)
        (by decide) (by rw [hty]; decide)
      rw [Option.map_some, this, hty]
      decide
  · cases hx : insertSelect py calls (oneBatch py) upper none ['m'] ['t'] [['U', 'I']] none [['a'], ['a']] nestDb
      (.union (.select nestInner (.scan ['t'])) (.select nestInner (.scan ['t']))) with
    | none =>
      simp [insertSelect, sourceRows, Nest.result, exec] at hx
      exact absurd (hx _ rfl) (by simp [show compileSelect nestInner = some _ from rfl])
    | some x =>
      have := C146_union_violated py calls (oneBatch py) upper none ['m'] ['t'] [['U', 'I']] none ['a'] [['a']] nestDb _ x.1 x.2 hx (.here _ _) (by decide)
        (by decide) (by intro k hk; simp at hk; rw [hk]; exact ⟨by decide, by decide⟩)
      rw [Option.map_some, this]
      decide

/-- INSERT INTO t (a, b) SELECT a, b FROM t WHERE b > 1 stores the two rows; the list (x, y) would be violated. -/
example (upper : Str → Str) : ∃ out result, insertSelect py calls (oneBatch py) upper none [] ['x'] [] (some [['a'], ['b']]) [['a']] nestDb
      (.select nestInner (.scan ['t'])) = some (out, [ab 1 5, ab 2 7]) ∧
    Means text py.cmp calls rankLe nestDb (.select nestInner (.scan ['t'])) result ∧
    inserted (some [['a'], ['b']]) [['a'], ['b']] result = some [ab 1 5, ab 2 7] := by
  have hx : ∃ out, insertSelect py calls (oneBatch py) upper none [] ['x'] [] (some [['a'], ['b']]) [['a']] nestDb
      (.select nestInner (.scan ['t'])) = some (out, [ab 1 5, ab 2 7]) := ⟨_, rfl⟩
  obtain ⟨out, hx⟩ := hx
  obtain ⟨res, h1, h2⟩ := C145_insert_select_partial text py calls (oneBatch py) rankLe_total rankLe_trans (idealSrc_faithful py)
    (by intro l; simp [oneBatch]) upper none [] ['x'] [] (some [['a'], ['b']]) [['a']] nestDb _ out _ hx rfl trivial trivial
    ⟨trivial, fun rows p _ _ => level_inner text py calls p rows⟩ (by simp [bound]) (Or.inr rfl)
  exact ⟨out, res, hx, h1, h2⟩

end
end Verif.Props
