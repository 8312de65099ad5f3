import Verif.Props.Str
/-! Property theorems C33-C36: searching, SUBSTRING_INDEX, CONCAT and relatives, LIKE. -/
namespace Verif.Props
open Verif.Val Verif.Text

section
variable (py : Py)

/-! ## C33 -/

theorem indexOf_zero (eq : Val → Bool) (l : List Val) : Str.indexOf eq l = 0 ↔ ∀ x ∈ l, eq x = false := by
  induction l with
  | nil => simp [Str.indexOf]
  | cons a l ih =>
    unfold Str.indexOf
    cases ha : eq a
    · simp only [Bool.false_eq_true, if_false, List.mem_cons, forall_eq_or_imp, ha, true_and, ← ih]
      cases Str.indexOf eq l <;> simp
    · simp [ha]

theorem indexOf_succ (eq : Val → Bool) (l : List Val) (i : Nat) (h : Str.indexOf eq l = i + 1) :
    (∃ x, l[i]? = some x ∧ eq x = true) ∧ ∀ j < i, ∀ x, l[j]? = some x → eq x = false := by
  induction l generalizing i with
  | nil => simp [Str.indexOf] at h
  | cons a l ih =>
    unfold Str.indexOf at h
    cases ha : eq a
    · simp only [ha, Bool.false_eq_true, if_false] at h
      cases hl : Str.indexOf eq l with
      | zero => simp [hl] at h
      | succ n =>
        simp only [hl] at h
        obtain rfl : i = n + 1 := by omega
        obtain ⟨h1, h2⟩ := ih n hl
        refine ⟨by simpa using h1, fun j hj x hx => ?_⟩
        cases j with
        | zero => simp at hx; rw [← hx, ha]
        | succ j => exact h2 j (by omega) x (by simpa using hx)
    · simp only [ha, if_true] at h
      obtain rfl : i = 0 := by omega
      exact ⟨⟨a, by simp, ha⟩, fun j hj => absurd hj (by omega)⟩

/-- **C33**, FIELD: 0 exactly when no candidate equals the value, otherwise the position of the first that does. -/
theorem C33_field (s : Val) (hs : s ≠ .null) (args : List Val) :
    (Str.field s args = .int 0 ↔ ∀ x ∈ args, Str.pyEq x s = false) ∧
    (∀ i : Nat, Str.field s args = .int (i + 1 : Nat) →
      (∃ x, args[i]? = some x ∧ Str.pyEq x s = true) ∧ ∀ j < i, ∀ x, args[j]? = some x → Str.pyEq x s = false) := by
  simp only [Str.field, hs, if_false]
  constructor
  · rw [← indexOf_zero]
    constructor
    · intro h; injection h with h; omega
    · intro h; rw [h]; rfl
  · intro i h
    refine indexOf_succ _ _ _ ?_
    injection h with h; omega

/-- **C91 is violated by FIELD**: of NULL it is NULL whatever the candidates, where the documentation of MySQL says 0. -/
theorem C91_field_null_violated (args : List Val) : Str.field .null args = .null ∧ Str.field .null args ≠ .int 0 := ⟨rfl, by simp [Str.field]⟩

/-- Equality of texts and integers, as FIELD uses it, is equality. -/
theorem C33_equality (a b : Str) (m n : Int) :
    (Str.pyEq (.str a) (.str b) = true ↔ a = b) ∧ (Str.pyEq (.int m) (.int n) = true ↔ m = n) := by
  constructor
  · simp [Str.pyEq, pyOp, pyCmp, Cmp.holds, strCmp_eq_iff]
  · simp [Str.pyEq, pyOp, pyCmp, Cmp.holds, numeric, ratCmp_eq_iff]

/-- **C91**, ELT: for `1 ≤ n < number of candidates`, the `n`-th candidate. -/
theorem C91_elt_partial (n : Nat) (args : List Val) (x : Val) (h : args[n]? = some x) (hn : n + 1 < args.length) :
    Str.elt (.int (n + 1 : Nat)) args = x := by
  have e : ((n + 1 : Nat) : Int) - 1 = (n : Int) := by omega
  have h1 : ((n + 1 : Nat) : Int) < (args.length : Int) := by omega
  simp only [Str.elt, Str.eltRaw, Str.index, Option.bind_eq_bind, Option.bind_some, h1, if_true, e, Str.item,
    Int.natCast_nonneg, Int.toNat_natCast, h, caught, Option.getD_some]

/-- **C91**: ELT(FIELD(s, a1 … an), a1 … an) is a candidate equal to `s`, when the first such is not the last. -/
theorem C91_elt_field_partial (s : Val) (hs : s ≠ .null) (args : List Val) (i : Nat)
    (hf : Str.field s args = .int (i + 1 : Nat)) (hi : i + 1 < args.length) :
    Str.pyEq (Str.elt (Str.field s args) args) s = true := by
  obtain ⟨⟨x, hx, hxs⟩, _⟩ := (C33_field s hs args).2 i hf
  rw [hf, C91_elt_partial i args x hx hi]; exact hxs

/-- **C91 is violated by ELT**: the last candidate is never returned, and ELT(0, …) returns it instead of NULL. -/
theorem C91_elt_violated (args : List Val) (x : Val) :
    Str.elt (.int (args.length + 1 : Nat)) (args ++ [x]) = .null ∧ Str.elt (.int 0) (args ++ [x]) = x := by
  constructor
  · simp [Str.elt, Str.eltRaw, Str.index, caught]
  · have h1 : (0 : Int) < ((args ++ [x]).length : Int) := by simp
    have h2 : ¬ (0 : Int) ≤ 0 - 1 := by omega
    have h3 : (0 : Int) ≤ ((args ++ [x]).length : Int) + (0 - 1) := by omega
    have h4 : (((args ++ [x]).length : Int) + (0 - 1)).toNat = args.length := by simp
    simp only [Str.elt, Str.eltRaw, Str.index, Option.bind_eq_bind, Option.bind_some, h1, if_true, Str.item, h2, if_false,
      h3, h4, caught]
    simp

theorem splitGo_skip (d : Char) (x : Str) (hx : d ∉ x) (cur rest : Str) :
    Str.splitGo [d] cur (x ++ rest) = Str.splitGo [d] (x.reverse ++ cur) rest := by
  induction x generalizing cur with
  | nil => rfl
  | cons c x ih =>
    simp only [List.mem_cons, not_or] at hx
    rw [List.cons_append, Str.splitGo]
    simp only [List.isPrefixOf, Bool.and_true, beq_iff_eq, hx.1, if_false]
    rw [ih hx.2]
    simp

theorem splitGo_join (d : Char) (x : Str) (l : List Str) (h : ∀ y ∈ x :: l, d ∉ y) :
    Str.splitGo [d] [] (Str.join [d] (x :: l)) = x :: l := by
  induction l generalizing x with
  | nil =>
    have := splitGo_skip d x (h x (by simp)) [] []
    rw [List.append_nil] at this
    rw [Str.join, this, Str.splitGo]; simp
  | cons y l ih =>
    rw [Str.join, List.append_assoc, splitGo_skip d x (h x (by simp))]
    · rw [List.singleton_append, Str.splitGo]
      simp only [List.isPrefixOf, Bool.and_true, beq_self_eq_true, if_true, List.length_nil, List.drop_zero]
      rw [ih y fun z hz => h z (by simp [List.mem_cons] at hz ⊢; rcases hz with h | h <;> simp [h])]
      simp
    · simp

/-- **C33**, FIND_IN_SET of a text in a list of texts without commas, joined by commas: 0 when it is not in the list, otherwise
the position of its first occurrence. -/
theorem C33_find_in_set (s x : Str) (l : List Str) (h : ∀ y ∈ x :: l, ',' ∉ y) :
    (s ∉ x :: l → Str.findInSet py (.str s) (.str (Str.join [','] (x :: l))) = .int 0) ∧
    (s ∈ x :: l → ∃ i : Nat, Str.findInSet py (.str s) (.str (Str.join [','] (x :: l))) = .int (i + 1 : Nat) ∧
      (x :: l)[i]? = some s ∧ ∀ j < i, (x :: l)[j]? ≠ some s) := by
  have e : Str.findInSet py (.str s) (.str (Str.join [','] (x :: l))) =
      .int (Str.indexOf (fun v => Str.pyEq v (.str s)) ((x :: l).map .str)) := by
    simp [Str.findInSet, Str.findInSetRaw, Py.ensureStr, splitGo_join ',' x l h, caught]
  rw [e]
  generalize x :: l = l'
  have heq : ∀ y : Str, Str.pyEq (.str y) (.str s) = true ↔ y = s := fun y => (C33_equality y s 0 0).1
  constructor
  · intro hs
    rw [(indexOf_zero _ _).2]; · rfl
    intro v hv
    obtain ⟨y, hy, rfl⟩ := List.mem_map.1 hv
    rw [Bool.eq_false_iff, Ne, heq]
    rintro rfl; exact hs hy
  · intro hs
    cases hi : Str.indexOf (fun v => Str.pyEq v (.str s)) (l'.map .str) with
    | zero =>
      have := (indexOf_zero _ _).1 hi (.str s) (List.mem_map.2 ⟨s, hs, rfl⟩)
      rw [Bool.eq_false_iff, Ne, heq] at this
      exact absurd rfl this
    | succ i =>
      obtain ⟨⟨v, hv, hvs⟩, h2⟩ := indexOf_succ _ _ _ hi
      refine ⟨i, rfl, ?_, fun j hj hjs => ?_⟩
      · rw [List.getElem?_map] at hv
        cases hl : l'[i]? with
        | none => simp [hl] at hv
        | some y =>
          simp only [hl, Option.map_some, Option.some.injEq] at hv
          subst hv
          rw [(heq y).1 hvs]
      · have := h2 j hj (.str s) (by rw [List.getElem?_map, hjs]; rfl)
        rw [Bool.eq_false_iff, Ne, heq] at this
        exact this rfl

/-- FIND_IN_SET of the empty text in the empty text is 1 (SQL: 0), and a number is never found. -/
theorem C91_find_in_set_violated :
    Str.findInSet py (.str []) (.str []) = .int 1 ∧ Str.findInSet py (.int 1) (.str ['1']) = .int 0 := by
  constructor
  · simp [Str.findInSet, Str.findInSetRaw, Py.ensureStr, Str.splitGo, Str.indexOf, Str.pyEq, caught]
  · have : Str.splitGo [','] [] ['1'] = [['1']] := by simpa [Str.join] using splitGo_join ',' ['1'] [] (by simp)
    simp [Str.findInSet, Str.findInSetRaw, Py.ensureStr, this, Str.indexOf, Str.pyEq, pyOp, pyCmp, numeric, caught]

/-- **C33**: FIND_IN_SET of NULL is NULL whatever the list. -/
theorem C33_find_in_set_null (v : Val) : Str.findInSet py .null v = .null := rfl

theorem contains_iff (s a : Str) : Str.contains s a = true ↔ a <:+: s := by
  simp only [Str.contains, List.any_eq_true, List.mem_range, List.isPrefixOf_iff_prefix]
  constructor
  · rintro ⟨i, _, y, hy⟩
    exact ⟨s.take i, y, by rw [List.append_assoc, hy, List.take_append_drop]⟩
  · rintro ⟨x, y, rfl⟩
    exact ⟨x.length, by simp; omega, y, by simp⟩

/-- **C33**: STARTSWITH, ENDSWITH and CONTAINS hold exactly of prefixes, suffixes and parts. -/
theorem C33_affixes {a b : Val} {s t : Str} (ha : py.ensureStr a = some s) (hb : py.ensureStr b = some t) :
    (Str.startswith py a b = .int 1 ↔ t <+: s) ∧ (Str.endswith py a b = .int 1 ↔ t <:+ s) ∧
    (Str.mysqlContains py a b = .int 1 ↔ t <:+: s) := by
  have h1 : ∀ p : Bool, ofBool p = .int 1 ↔ p = true := by intro p; cases p <;> simp [ofBool]
  simp only [Str.startswith, Str.endswith, Str.mysqlContains, Str.twoTexts, ensureStr_ne py ha, ensureStr_ne py hb, or_self,
    if_false, ha, hb, Option.bind_eq_bind, Option.bind_some, caught]
  refine ⟨?_, ?_, ?_⟩
  · show ofBool _ = _ ↔ _
    rw [h1, List.isPrefixOf_iff_prefix]
  · show ofBool _ = _ ↔ _
    rw [h1, List.isSuffixOf_iff_suffix]
  · show ofBool _ = _ ↔ _
    rw [h1, contains_iff]

/-! ## C34 -/

theorem occ_nil (d : Str) : occ d [] = 0 := by rw [occ]

theorem occ_hit (d t : Str) (hd : d ≠ []) : occ d (d ++ t) = 1 + occ d t := by
  cases d with
  | nil => exact absurd rfl hd
  | cons x d =>
    rw [List.cons_append, occ]
    have : (x :: d).isPrefixOf (x :: (d ++ t)) = true := by
      rw [List.isPrefixOf_iff_prefix]; exact ⟨t, rfl⟩
    simp [this]

theorem occ_miss (d : Str) (c : Char) (t : Str) (h : ¬ d <+: c :: t) : occ d (c :: t) = occ d t := by
  rw [occ, if_neg]
  rw [List.isPrefixOf_iff_prefix]; exact fun h' => h h'.2

theorem occ_short (d q : Str) (h : q.length < d.length) : occ d q = 0 := by
  induction q with
  | nil => exact occ_nil d
  | cons c q ih =>
    rw [occ_miss]
    · exact ih (by simp at h; omega)
    · intro hp; have := hp.length_le; omega

theorem occ_one_le (d q : Str) (h : 1 ≤ occ d q) : d.length ≤ q.length := by
  apply Decidable.byContradiction
  intro hc
  rw [occ_short d q (by omega)] at h; omega

theorem join_cons (d x : Str) (l : List Str) (h : l ≠ []) : Str.join d (x :: l) = x ++ d ++ Str.join d l := by
  cases l with
  | nil => exact absurd rfl h
  | cons y l => rfl

theorem splitGo_ne (d cur s : Str) : Str.splitGo d cur s ≠ [] := by
  fun_induction Str.splitGo d cur s <;> simp_all

theorem splitGo_length (d : Str) (hd : d ≠ []) (cur s : Str) : (Str.splitGo d cur s).length = occ d s + 1 := by
  fun_induction Str.splitGo d cur s with
  | case1 cur => simp [occ_nil]
  | case2 => exact absurd rfl hd
  | case3 cur c t x d' hp ih =>
    have hp' := List.isPrefixOf_iff_prefix.1 hp
    obtain ⟨y, hy⟩ := hp'
    have : t.drop d'.length = y := by
      simp only [List.cons_append, List.cons.injEq] at hy
      rw [← hy.2]; simp
    rw [this] at ih ⊢
    rw [List.length_cons, ih hd, ← hy, occ_hit _ _ hd]; omega
  | case4 cur c t x d' hp ih =>
    rw [ih hd, occ_miss]
    rwa [← List.isPrefixOf_iff_prefix]

theorem join_splitGo (d : Str) (hd : d ≠ []) (cur s : Str) : Str.join d (Str.splitGo d cur s) = cur.reverse ++ s := by
  fun_induction Str.splitGo d cur s with
  | case1 cur => simp [Str.join]
  | case2 => exact absurd rfl hd
  | case3 cur c t x d' hp ih =>
    obtain ⟨y, hy⟩ := List.isPrefixOf_iff_prefix.1 hp
    have : t.drop d'.length = y := by
      simp only [List.cons_append, List.cons.injEq] at hy
      rw [← hy.2]; simp
    rw [this] at ih ⊢
    rw [join_cons _ _ _ (splitGo_ne _ _ _), ih hd, ← hy]; simp
  | case4 cur c t x d' hp ih => rw [ih hd]; simp

theorem splitGo_take (d : Str) (hd : d ≠ []) (cur s : Str) (n : Nat) (hn : 1 ≤ n) (hle : n ≤ occ d s) :
    ∃ r, Str.join d ((Str.splitGo d cur s).take n) = cur.reverse ++ r ∧ NthOcc d n s (r ++ d) := by
  fun_induction Str.splitGo d cur s generalizing n with
  | case1 cur => rw [occ_nil] at hle; omega
  | case2 => exact absurd rfl hd
  | case3 cur c t x d' hp ih =>
    obtain ⟨y, hy⟩ := List.isPrefixOf_iff_prefix.1 hp
    have hdrop : t.drop d'.length = y := by
      simp only [List.cons_append, List.cons.injEq] at hy
      rw [← hy.2]; simp
    rw [hdrop] at ih ⊢
    rw [← hy] at hle ⊢
    have hocc := occ_hit (x :: d') y hd
    obtain ⟨m, rfl⟩ : ∃ m, n = m + 1 := ⟨n - 1, by omega⟩
    rw [List.take_succ_cons]
    have step : ∀ q, q <+: (x :: d') ++ y → m + 1 ≤ occ (x :: d') q →
        ∃ q', q = (x :: d') ++ q' ∧ q' <+: y ∧ m ≤ occ (x :: d') q' := by
      intro q hq hm
      have hl := occ_one_le _ _ (by omega : 1 ≤ occ (x :: d') q)
      have hpre : (x :: d') <+: q := List.prefix_of_prefix_length_le (List.prefix_append _ y) hq hl
      obtain ⟨q', rfl⟩ := hpre
      refine ⟨q', rfl, (List.prefix_append_right_inj _).1 hq, ?_⟩
      rw [occ_hit _ _ hd] at hm; omega
    by_cases hm : m = 0
    · subst hm
      refine ⟨[], by simp [Str.join], ⟨by simp, ?_, ?_⟩⟩
      · have := occ_hit (x :: d') [] hd
        rw [List.append_nil, occ_nil] at this
        simpa using this
      · intro q hq h1
        simpa using occ_one_le _ _ h1
    · obtain ⟨r, hr, ho⟩ := ih hd m (by omega) (by omega)
      refine ⟨(x :: d') ++ r, ?_, ?_, ?_, ?_⟩
      · rw [join_cons, hr]
        · simp
        · intro h
          have := congrArg List.length h
          rw [List.length_take, splitGo_length _ hd] at this
          simp at this; omega
      · rw [List.append_assoc]
        exact (List.prefix_append_right_inj _).2 ho.isPrefix
      · rw [List.append_assoc, occ_hit _ _ hd, ho.count]; omega
      · intro q hq hmq
        obtain ⟨q', rfl, hq', hm'⟩ := step q hq hmq
        have := ho.least q' hq' hm'
        simp only [List.length_append] at this ⊢; omega
  | case4 cur c t x d' hp ih =>
    rw [List.isPrefixOf_iff_prefix] at hp
    rw [occ_miss _ _ _ hp] at hle
    obtain ⟨r, hr, ho⟩ := ih hd n hn hle
    refine ⟨c :: r, by rw [hr]; simp, ?_, ?_, ?_⟩
    · exact List.cons_prefix_cons.2 ⟨rfl, ho.isPrefix⟩
    · rw [List.cons_append, occ_miss, ho.count]
      intro h'
      exact hp (h'.trans (List.cons_prefix_cons.2 ⟨rfl, ho.isPrefix⟩))
    · intro q hq hmq
      cases q with
      | nil => rw [occ_nil] at hmq; omega
      | cons c' q =>
        obtain ⟨rfl, hq'⟩ := List.cons_prefix_cons.1 hq
        rw [occ_miss _ _ _ (fun h' => hp (h'.trans hq))] at hmq
        have := ho.least q hq' hmq
        simp only [List.length_append, List.length_cons] at this ⊢; omega

variable {v : Val} {s : Str}

theorem substringIndex_nat (hs : py.ensureStr v = some s) {w : Val} {d : Str} (hw : py.ensureStr w = some d) (hd : d ≠ [])
    (n : Nat) : Str.substringIndex py v w (.int n) = .str (Str.join d ((Str.splitGo d [] s).take n)) := by
  have h : ¬ (n : Int) < 0 := by omega
  simp only [Str.substringIndex, Str.substringIndexRaw, ensureStr_ne py hs, if_false, hs, hw, Option.bind_eq_bind,
    Option.bind_some, Str.index, Str.split, hd, h, slice_to]
  rfl

/-- **C34**, positive counts: the whole text when it has fewer than `n` delimiters, otherwise the text before the `n`-th. -/
theorem C34_positive (hs : py.ensureStr v = some s) {w : Val} {d : Str} (hw : py.ensureStr w = some d) (hd : d ≠ [])
    (n : Nat) (hn : 1 ≤ n) :
    (occ d s < n → Str.substringIndex py v w (.int n) = .str s) ∧
    (n ≤ occ d s → ∃ r, Str.substringIndex py v w (.int n) = .str r ∧ NthOcc d n s (r ++ d)) := by
  rw [substringIndex_nat py hs hw hd]
  constructor
  · intro h
    rw [List.take_of_length_le (by rw [splitGo_length _ hd]; omega), join_splitGo _ hd]; rfl
  · intro h
    obtain ⟨r, h1, h2⟩ := splitGo_take d hd [] s n hn h
    exact ⟨r, by rw [h1]; rfl, h2⟩

/-- **C34**, count zero: the empty text. -/
theorem C34_zero (hs : py.ensureStr v = some s) {w : Val} {d : Str} (hw : py.ensureStr w = some d) (hd : d ≠ []) :
    Str.substringIndex py v w (.int 0) = .str [] := by
  have := substringIndex_nat py hs hw hd 0
  simpa [Str.join] using this

/-- **C106**, negative counts, as computed: the text after the `n`-th delimiter from the *left* — the `n` first pieces are
dropped instead of the `n` last kept.  Right exactly when the pieces are `2 n` in number. -/
theorem C106_negative_partial (hs : py.ensureStr v = some s) {w : Val} {d : Str} (hw : py.ensureStr w = some d) (hd : d ≠ [])
    (n : Nat) (hn : 1 ≤ n) (l : List Str) (hl : Str.split s d = some l) :
    Str.substringIndex py v w (.int (-(n : Int))) = .str (Str.join d (l.drop n)) ∧
    (l.length = 2 * n → Str.substringIndex py v w (.int (-(n : Int))) = .str (Str.join d (l.drop (l.length - n)))) := by
  have h : -(n : Int) < 0 := by omega
  have e : Str.substringIndex py v w (.int (-(n : Int))) = .str (Str.join d (l.drop n)) := by
    simp only [Str.substringIndex, Str.substringIndexRaw, ensureStr_ne py hs, if_false, hs, hw, Option.bind_eq_bind,
      Option.bind_some, Str.index, hl, h, if_true, Int.neg_neg, slice_from]
    rfl
  refine ⟨e, fun h2 => ?_⟩
  rw [e, h2, show 2 * n - n = n by omega]

/-- **C106 is violated for negative counts**: SUBSTRING_INDEX('a.b.c', '.', -1) is 'b.c' instead of 'c'. -/
theorem C106_negative_violated :
    Str.substringIndex py (.str "a.b.c".toList) (.str ".".toList) (.int (-1)) = .str "b.c".toList := by
  have h : Str.splitGo ".".toList [] "a.b.c".toList = ["a".toList, "b".toList, "c".toList] := by
    have := splitGo_join '.' ['a'] [['b'], ['c']] (by decide)
    exact this
  have hs : Str.split "a.b.c".toList ".".toList = some ["a".toList, "b".toList, "c".toList] := by
    rw [Str.split, if_neg (by decide), h]
  exact (C106_negative_partial py (by rfl : py.ensureStr (.str "a.b.c".toList) = some "a.b.c".toList)
    (by rfl : py.ensureStr (.str ".".toList) = some ".".toList) (by decide) 1 (by omega) _ hs).1

/-- C34's positive case is not vacuous: 'a.b.c' has two '.', and the text before the second is 'a.b'. -/
example : occ ".".toList "a.b.c".toList = 2 ∧
    Str.substringIndex py (.str "a.b.c".toList) (.str ".".toList) (.int 2) = .str "a.b".toList := by
  constructor
  · decide +kernel
  · have h : Str.splitGo ".".toList [] "a.b.c".toList = ["a".toList, "b".toList, "c".toList] := by decide +kernel
    have := substringIndex_nat py (by rfl : py.ensureStr (.str "a.b.c".toList) = some "a.b.c".toList)
      (by rfl : py.ensureStr (.str ".".toList) = some ".".toList) (by decide) 2
    rw [h] at this
    exact this

/-! ## C35 -/

/-- **C35**, CONCAT: the texts one after the other; NULL when an argument is NULL. -/
theorem C35_concat (args : List Val) (l : List Str) (h : args.mapM py.ensureStr = some l) :
    Str.concat py args = .str l.flatten := by
  simp [Str.concat, Str.concatRaw, h, caught]

theorem mapM_none {α β : Type} (f : α → Option β) (l : List α) (a : α) (ha : a ∈ l) (hf : f a = none) : l.mapM f = none := by
  induction l with
  | nil => simp at ha
  | cons b l ih =>
    rw [List.mapM_cons]
    rcases List.mem_cons.1 ha with rfl | h
    · rw [hf]; rfl
    · rw [ih h]
      cases f b <;> rfl

theorem C35_concat_null (args : List Val) (h : Val.null ∈ args) : Str.concat py args = .null := by
  have : args.mapM py.ensureStr = none := mapM_none _ _ _ h rfl
  simp [Str.concat, Str.concatRaw, this, caught]

/-- **C35**, CONCAT is associative, and lengths add up. -/
theorem C35_concat_assoc (a b : List Val) (l m : List Str) (ha : a.mapM py.ensureStr = some l)
    (hb : b.mapM py.ensureStr = some m) :
    Str.concat py [Str.concat py a, Str.concat py b] = Str.concat py (a ++ b) ∧
    Str.charLength py (Str.concat py (a ++ b)) = .int (l.flatten.length + m.flatten.length : Nat) := by
  have hab : (a ++ b).mapM py.ensureStr = some (l ++ m) := by
    rw [List.mapM_append, ha, hb]; rfl
  rw [C35_concat py a l ha, C35_concat py b m hb, C35_concat py _ _ hab]
  constructor
  · simp [Str.concat, Str.concatRaw, Py.ensureStr, caught]
  · simp [Str.charLength, Str.charLengthRaw, Py.ensureStr, caught]

/-- **C105**, CONCAT_WS: the separator between the texts.  Violated for NULL arguments, which SQL skips: the result is NULL. -/
theorem C105_concat_ws_partial (d : Str) (args : List Val) :
    (∀ l, args.mapM py.ensureStr = some l → Str.concatWs py (.str d) args = .str (Str.join d l)) ∧
    (Val.null ∈ args → Str.concatWs py (.str d) args = .null) := by
  constructor
  · intro l h
    simp [Str.concatWs, Str.concatWsRaw, h, caught]
  · intro h
    have : args.mapM py.ensureStr = none := mapM_none _ _ _ h rfl
    simp [Str.concatWs, Str.concatWsRaw, this, caught]

/-- **C35**, REPEAT: `n` copies; the empty text for a negative count. -/
theorem C35_repeat (h : py.ensureStr v = some s) (n : Nat) :
    Str.mysqlRepeat py v (.int n) = .str (List.replicate n s).flatten ∧
    Str.mysqlRepeat py v (.int (-(n : Int))) = .str [] ∧
    Str.charLength py (Str.mysqlRepeat py v (.int n)) = .int (n * s.length : Nat) := by
  have e : Str.mysqlRepeat py v (.int n) = .str (List.replicate n s).flatten := by
    simp [Str.mysqlRepeat, Str.repeatRaw, ensureStr_ne py h, h, Str.index, caught]
  refine ⟨e, ?_, ?_⟩
  · have : (-(n : Int)).toNat = 0 := by omega
    simp [Str.mysqlRepeat, Str.repeatRaw, ensureStr_ne py h, h, Str.index, this, caught]
  · rw [e]
    simp [Str.charLength, Str.charLengthRaw, Py.ensureStr, caught]

/-- **C35**, REPEAT is additive in the count. -/
theorem C35_repeat_add (h : py.ensureStr v = some s) (m n : Nat) :
    Str.concat py [Str.mysqlRepeat py v (.int m), Str.mysqlRepeat py v (.int n)] = Str.mysqlRepeat py v (.int (m + n : Nat)) := by
  rw [(C35_repeat py h m).1, (C35_repeat py h n).1, (C35_repeat py h (m + n)).1, ← List.replicate_append_replicate, List.flatten_append]
  simp [Str.concat, Str.concatRaw, Py.ensureStr, caught]

/-- **C35**, REVERSE: an involution on texts that reverses concatenation and keeps the length. -/
theorem C35_reverse (s t : Str) :
    Str.reverse py (Str.reverse py (.str s)) = .str s ∧
    Str.reverse py (Str.concat py [.str s, .str t]) = Str.concat py [Str.reverse py (.str t), Str.reverse py (.str s)] ∧
    Str.charLength py (Str.reverse py (.str s)) = Str.charLength py (.str s) := by
  simp [Str.reverse, Str.reverseRaw, Str.concat, Str.concatRaw, Str.charLength, Str.charLengthRaw, Py.ensureStr, caught]

/-- **C35**, INSERT: for a position inside the text and a non-negative length, exactly that range is replaced. -/
theorem C35_insert (h : py.ensureStr v = some s) {w : Val} {t : Str} (hw : py.ensureStr w = some t) (x l : Nat) :
    Str.insert py v (.int (x + 1 : Nat)) (.int l) w = .str (s.take x ++ t ++ s.drop (x + l)) := by
  have e1 : ((x + 1 : Nat) : Int) - 1 = (x : Int) := by omega
  have e2 : ((x + 1 : Nat) : Int) + (l : Int) - 1 = ((x + l : Nat) : Int) := by omega
  simp only [Str.insert, Str.insertRaw, h, hw, Str.index, Option.bind_eq_bind, Option.bind_some, e1, e2, slice_to, slice_from]
  rfl

/-- **C105 is violated by INSERT at a position outside the text** (SQL leaves the text alone): position 0 doubles most of it,
a position after the end appends. -/
theorem C105_insert_violated :
    Str.insert py (.str "abc".toList) (.int 0) (.int 1) (.str "Z".toList) = .str "abZabc".toList ∧
    Str.insert py (.str "abc".toList) (.int 9) (.int 1) (.str "Z".toList) = .str "abcZ".toList := ⟨rfl, rfl⟩

theorem splitGo_noOcc (d : Str) (hd : d ≠ []) (cur s : Str) (h : ¬ d <:+: s) : Str.splitGo d cur s = [cur.reverse ++ s] := by
  fun_induction Str.splitGo d cur s with
  | case1 cur => simp
  | case2 => exact absurd rfl hd
  | case3 cur c t x d' hp ih => exact absurd (List.isPrefixOf_iff_prefix.1 hp).isInfix h
  | case4 cur c t x d' hp ih =>
    rw [ih hd]
    · simp
    · rintro ⟨p, q, hpq⟩
      exact h ⟨c :: p, q, by rw [← hpq]; simp⟩

theorem splitGo_first (a : Str) (ha : a ≠ []) (cur s x y : Str) (h : FirstOcc a s x y) :
    Str.splitGo a cur s = (cur.reverse ++ x) :: Str.splitGo a [] y := by
  induction x generalizing cur s with
  | nil =>
    have := h.eq
    subst this
    cases a with
    | nil => exact absurd rfl ha
    | cons z a =>
      have hp : (z :: a).isPrefixOf (z :: (a ++ y)) = true := by
        rw [List.isPrefixOf_iff_prefix]; exact ⟨y, rfl⟩
      simp only [List.nil_append, List.cons_append]
      rw [Str.splitGo]
      simp [hp]
  | cons c x ih =>
    have := h.eq
    subst this
    cases a with
    | nil => exact absurd rfl ha
    | cons z a =>
      have hp : ¬ (z :: a).isPrefixOf (c :: (x ++ (z :: a) ++ y)) = true := by
        rw [List.isPrefixOf_iff_prefix]
        exact h.first 0 (by simp)
      simp only [List.cons_append]
      rw [Str.splitGo]
      simp only [hp, Bool.false_eq_true, if_false]
      have := ih (c :: cur) (x ++ (z :: a) ++ y) ⟨rfl, fun i hi => ?_⟩
      · rw [this]; simp
      · have := h.first (i + 1) (by simp; omega)
        simpa using this

/-- **C35**, REPLACE of a non-empty text: unchanged when it does not occur; otherwise its first occurrence is replaced, and the
rest is treated likewise. -/
theorem C35_replace (h : py.ensureStr v = some s) (a b : Str) (ha : a ≠ []) :
    (¬ a <:+: s → Str.mysqlReplace py v (.str a) (.str b) = .str s) ∧
    (∀ x y, FirstOcc a s x y → ∃ r, Str.mysqlReplace py (.str y) (.str a) (.str b) = .str r ∧
      Str.mysqlReplace py v (.str a) (.str b) = .str (x ++ b ++ r)) := by
  have e : ∀ (w : Val) (t : Str), py.ensureStr w = some t →
      Str.mysqlReplace py w (.str a) (.str b) = .str (Str.join b (Str.splitGo a [] t)) := by
    intro w t hw
    simp [Str.mysqlReplace, Str.replaceRaw, ensureStr_ne py hw, hw, caught, Str.replace, ha]
  rw [e v s h]
  constructor
  · intro hn
    rw [splitGo_noOcc a ha [] s hn]; rfl
  · intro x y hf
    refine ⟨_, e (.str y) y rfl, ?_⟩
    rw [splitGo_first a ha [] s x y hf, join_cons _ _ _ (splitGo_ne _ _ _)]; rfl

/-- **C35**, REPLACE of a text by itself changes nothing. -/
theorem C35_replace_self (h : py.ensureStr v = some s) (a : Str) (ha : a ≠ []) :
    Str.mysqlReplace py v (.str a) (.str a) = .str s := by
  simp [Str.mysqlReplace, Str.replaceRaw, ensureStr_ne py h, h, caught, Str.replace, ha, join_splitGo a ha]

/-- **C105 is violated by REPLACE of the empty text** (SQL: unchanged). -/
theorem C105_replace_empty_violated :
    Str.mysqlReplace py (.str "ab".toList) (.str []) (.str "x".toList) = .str "xaxbx".toList := rfl

/-- **C35**, STRCMP: 0 exactly for equal texts, antisymmetric, and −1 exactly when the `<` of C28 holds. -/
theorem C35_strcmp (s t : Str) :
    (Str.strcmp py (.str s) (.str t) = .int 0 ↔ s = t) ∧
    (Str.strcmp py (.str s) (.str t) = .int (-1) ↔ Str.strcmp py (.str t) (.str s) = .int 1) ∧
    (Str.strcmp py (.str s) (.str t) = .int (-1) ↔ py.cmp .lt (.str s) (.str t) = .int 1) := by
  have e : ∀ s t : Str, Str.strcmp py (.str s) (.str t) =
      if s = t then .int 0 else if strCmp s t = .lt then .int (-1) else .int 1 := by
    intro s t; simp [Str.strcmp, Str.twoTexts, Py.ensureStr, caught]
  have hlt : py.cmp .lt (.str s) (.str t) = .int 1 ↔ strCmp s t = .lt := by
    simp only [Py.cmp, Py.cmpRaw, cls, pyOp, pyCmp, caught, Cmp.holds, ofBool]
    by_cases h : strCmp s t = .lt <;> simp [h, ofBool]
  rw [e, e, hlt]
  have hsw := strCmp_swap s t
  have heq := strCmp_eq_iff s t
  by_cases hst : s = t
  · subst hst
    have : strCmp s s = .eq := heq.2 rfl
    simp [this]
  · have hts : ¬ t = s := fun h => hst h.symm
    have hne : strCmp s t ≠ .eq := fun h => hst (heq.1 h)
    simp only [hst, hts, if_false, hsw]
    cases hc : strCmp s t <;> simp_all

theorem strip_ends (s : Str) : ∃ x y, s = x ++ strip s ++ y ∧ (∀ c ∈ x, isBlank c = true) ∧ (∀ c ∈ y, isBlank c = true) := by
  refine ⟨s.takeWhile isBlank, ((s.dropWhile isBlank).reverse.takeWhile isBlank).reverse, ?_, ?_, ?_⟩
  · have h1 := List.takeWhile_append_dropWhile (p := isBlank) (l := s)
    have h2 := List.takeWhile_append_dropWhile (p := isBlank) (l := (s.dropWhile isBlank).reverse)
    have h3 := congrArg List.reverse h2
    rw [List.reverse_append, List.reverse_reverse] at h3
    rw [strip, List.append_assoc, h3, h1]
  · intro c hc
    exact List.all_eq_true.1 (List.all_takeWhile) c hc
  · intro c hc
    exact List.all_eq_true.1 (List.all_takeWhile) c (List.mem_reverse.1 hc)

/-- **C35**, TRIM removes only blanks at the ends, and leaves none there. -/
theorem C35_trim (h : py.ensureStr v = some s) :
    ∃ x t y, Str.trim py v = .str t ∧ s = x ++ t ++ y ∧ (∀ c ∈ x, isBlank c = true) ∧ (∀ c ∈ y, isBlank c = true) ∧
      (∀ c, t.head? = some c → isBlank c = false) ∧ (∀ c, t.getLast? = some c → isBlank c = false) := by
  obtain ⟨x, y, h1, h2, h3⟩ := strip_ends s
  refine ⟨x, strip s, y, ?_, h1, h2, h3, ?_, ?_⟩
  · clear h1 h2 h3
    cases v with
    | null => simp [Py.ensureStr] at h
    | _ => simp only [Str.trim, Str.trimRaw, h, Option.map_some, caught, Option.getD_some]
  · intro c hc
    -- the first character is the first of `dropWhile`
    have hpre : strip s <+: s.dropWhile isBlank := by
      have := List.dropWhile_suffix isBlank (l := (s.dropWhile isBlank).reverse)
      rw [strip]
      have := List.reverse_prefix.2 this
      rwa [List.reverse_reverse] at this
    cases hst : strip s with
    | nil => rw [hst] at hc; simp at hc
    | cons a t =>
      rw [hst] at hc hpre
      simp only [List.head?_cons, Option.some.injEq] at hc
      subst hc
      obtain ⟨z, hz⟩ := hpre
      have := List.head?_dropWhile_not isBlank s
      rw [← hz] at this
      simpa using this
  · intro c hc
    have := List.head?_dropWhile_not isBlank (s.dropWhile isBlank).reverse
    rw [strip, List.getLast?_reverse] at hc
    rw [hc] at this
    simpa using this

end

section

/-! ## C36 -/

/-- Tokens matched against a prefix of the text. -/
inductive TokMatch (same : Char → Char → Bool) : List Str.Tok → Str → Prop
  | nil (s) : TokMatch same [] s
  | lit {c d ts s} : same c d = true → TokMatch same ts s → TokMatch same (.lit c :: ts) (d :: s)
  | star {ts} (x s) : '\n' ∉ x → TokMatch same ts s → TokMatch same (.star :: ts) (x ++ s)

theorem reMatch_iff (same : Char → Char → Bool) (ts : List Str.Tok) (s : Str) :
    Str.reMatch same ts s = true ↔ TokMatch same ts s := by
  fun_induction Str.reMatch same ts s with
  | case1 s => exact ⟨fun _ => .nil s, fun _ => rfl⟩
  | case2 c ts =>
    constructor
    · intro h; simp at h
    · intro h; cases h
  | case3 c ts d s ih =>
    rw [Bool.and_eq_true, ih]
    constructor
    · exact fun h => .lit h.1 h.2
    · intro h; cases h with | lit h1 h2 => exact ⟨h1, h2⟩
  | case4 ts s ih ih2 =>
    cases s with
    | nil =>
      rw [Bool.or_false, ih]
      constructor
      · exact fun h => .star [] [] (by simp) h
      · intro h
        generalize hs : ([] : Str) = s at h
        cases h with
        | star x s hx h =>
          have := List.append_eq_nil_iff.1 hs.symm
          rw [this.1, List.nil_append]; exact h
    | cons d s =>
      simp only at ih2
      rw [Bool.or_eq_true, Bool.and_eq_true, ih, ih2]
      constructor
      · rintro (h | ⟨hd, h⟩)
        · exact .star [] _ (by simp) h
        · generalize hts : Str.Tok.star :: ts = ts' at h
          cases h with
          | nil => simp at hts
          | lit => simp at hts
          | star x s hx h =>
            injection hts with _ hts
            subst hts
            have hd' : d ≠ '\n' := by simpa using hd
            exact .star (d :: x) s (by simp [hx, Ne.symm hd']) h
      · intro h
        generalize hs : d :: s = s' at h
        cases h with
        | star x s'' hx h =>
          cases x with
          | nil => left; exact h
          | cons e x =>
            right
            simp only [List.cons_append, List.cons.injEq] at hs
            obtain ⟨rfl, rfl⟩ := hs
            simp only [List.mem_cons, not_or] at hx
            exact ⟨by simpa using Ne.symm hx.1, .star x s'' hx.2 h⟩

/-- No two `%` in succession. -/
def NoDouble : Str → Prop
  | '%' :: '%' :: _ => False
  | _ :: r => NoDouble r
  | [] => True

/-- For a text without newlines and a pattern without `%%` and `_`, what `LIKE` computes: some beginning of the text
matches the pattern. -/
theorem like_prefix (same : Char → Char → Bool) (r s : Str) (hd : NoDouble r) (hu : '_' ∉ r) (hn : '\n' ∉ s) :
    TokMatch same (Str.toks r) s ↔ ∃ x y, s = x ++ y ∧ Like same r x := by
  induction r generalizing s with
  | nil =>
    rw [Str.toks]
    exact ⟨fun _ => ⟨[], s, rfl, rfl⟩, fun _ => .nil s⟩
  | cons c r ih =>
    simp only [List.mem_cons, not_or] at hu
    by_cases hc : c = '%'
    · subst hc
      have hd' : NoDouble r := by
        cases r with
        | nil => trivial
        | cons e r =>
          by_cases he : e = '%'
          · subst he; exact absurd hd (by simp [NoDouble])
          · unfold NoDouble at hd
            split at hd
            · exact hd.elim
            · rename_i h1 _ h2
              injection h2 with _ h2
              rw [h2]; exact hd
            · rename_i h2; simp at h2
      have ht : Str.toks ('%' :: r) = .star :: Str.toks r := by
        cases r with
        | nil => rfl
        | cons e r =>
          by_cases he : e = '%'
          · subst he; exact absurd hd (by simp [NoDouble])
          · rw [Str.toks]
            intro r' h'; injection h' with h' _; exact he h'
      rw [ht]
      constructor
      · intro h
        generalize hts : Str.Tok.star :: Str.toks r = ts at h
        cases h with
        | nil => simp at hts
        | lit => simp at hts
        | star x s' hx h =>
          injection hts with _ hts
          subst hts
          obtain ⟨u, w, rfl, hu'⟩ := (ih s' hd' hu.2 (fun h' => hn (by simp [h']))).1 h
          refine ⟨x ++ u, w, by simp, ?_⟩
          rw [Like]
          exact ⟨x, u, rfl, hu'⟩
      · rintro ⟨x, y, rfl, hl⟩
        rw [Like] at hl
        obtain ⟨u, w, rfl, hw⟩ := hl
        have h1 : '\n' ∉ u := fun h' => hn (by simp [h'])
        have h2 : '\n' ∉ w ++ y := fun h' => hn (by
          rw [List.append_assoc]; exact List.mem_append_right _ h')
        have := TokMatch.star (same := same) u (w ++ y) h1 ((ih (w ++ y) hd' hu.2 h2).2 ⟨w, y, rfl, hw⟩)
        rwa [← List.append_assoc] at this
    · have hd' : NoDouble r := by
        unfold NoDouble at hd
        split at hd
        · exact hd.elim
        · rename_i h1 _ h2
          injection h2 with _ h2
          rw [h2]; exact hd
        · rename_i h2; simp at h2
      have ht : Str.toks (c :: r) = .lit c :: Str.toks r := by
        rw [Str.toks]
        · intro r' h; exact absurd h hc
        · exact hc
      have hL : ∀ x, Like same (c :: r) x ↔ ∃ d t, x = d :: t ∧ same c d = true ∧ Like same r t := by
        intro x
        rw [Like]
        · exact hc
        · exact fun h => hu.1 h.symm
      rw [ht]
      constructor
      · intro h
        generalize hts : Str.Tok.lit c :: Str.toks r = ts at h
        cases h with
        | nil => simp at hts
        | star => simp at hts
        | @lit c' d _ s' h1 h2 =>
          injection hts with hc' hts
          injection hc' with hc'
          subst hts; subst hc'
          obtain ⟨u, w, rfl, hu'⟩ := (ih s' hd' hu.2 (fun h' => hn (by simp [h']))).1 h2
          exact ⟨d :: u, w, rfl, (hL _).2 ⟨d, u, rfl, h1, hu'⟩⟩
      · rintro ⟨x, y, rfl, hl⟩
        obtain ⟨d, t, rfl, h1, h2⟩ := (hL _).1 hl
        exact .lit h1 ((ih (t ++ y) hd' hu.2 (fun h' => hn (by
          rw [List.cons_append]; exact List.mem_cons_of_mem _ h'))).2 ⟨t, y, rfl, h2⟩)

/-- A pattern that ends with `%` and matches a beginning of the text matches all of it. -/
theorem like_extend (same : Char → Char → Bool) (r x y : Str) (h : Like same (r ++ ['%']) x) :
    Like same (r ++ ['%']) (x ++ y) := by
  induction r generalizing x with
  | nil =>
    rw [List.nil_append, Like] at h ⊢
    obtain ⟨u, w, rfl, hw⟩ := h
    rw [Like] at hw
    subst hw
    exact ⟨u ++ y, [], by simp, by rw [Like]⟩
  | cons c r ih =>
    rw [List.cons_append] at h ⊢
    by_cases hc : c = '%'
    · subst hc
      rw [Like] at h ⊢
      obtain ⟨u, w, rfl, hw⟩ := h
      exact ⟨u, w ++ y, by simp, ih w hw⟩
    · by_cases hu : c = '_'
      · subst hu
        rw [Like] at h ⊢
        obtain ⟨d, t, rfl, ht⟩ := h
        exact ⟨d, t ++ y, rfl, ih t ht⟩
      · rw [Like] at h ⊢
        · obtain ⟨d, t, rfl, h1, ht⟩ := h
          exact ⟨d, t ++ y, rfl, h1, ih t ht⟩
        all_goals first | exact hc | exact hu

theorem like_value (same : Char → Char → Bool) (r s : Str) (hr : r ≠ ['%', '%']) :
    Str.like same (.str s) (.str r) = ofBool (Str.reMatch same (Str.toks r) s) := by
  simp [Str.like, Str.likeRaw, Str.likeToks, hr, caught]

theorem ofBool_one (p : Bool) : ofBool p = .int 1 ↔ p = true := by cases p <;> simp [ofBool]

theorem noDouble_ne {r : Str} (h : NoDouble r) : r ≠ ['%', '%'] := by rintro rfl; exact h

/-- **C36**, patterns without `_`, `%%` and escapes, texts without newlines: what LIKE decides is that some *beginning* of the
text matches the pattern. -/
theorem C36_like_computed (same : Char → Char → Bool) (r s : Str) (hd : NoDouble r) (hu : '_' ∉ r) (hn : '\n' ∉ s) :
    Str.like same (.str s) (.str r) = .int 1 ↔ ∃ x, x <+: s ∧ Like same r x := by
  rw [like_value same r s (noDouble_ne hd), ofBool_one, reMatch_iff, like_prefix same r s hd hu hn]
  constructor
  · rintro ⟨x, y, h, h'⟩; exact ⟨x, ⟨y, h.symm⟩, h'⟩
  · rintro ⟨x, ⟨y, h⟩, h'⟩; exact ⟨x, y, h.symm, h'⟩

/-- **C36**: for such patterns, a text that matches is always accepted; and when the pattern ends with `%`, LIKE decides exactly
that the whole text matches. -/
theorem C36_like_partial (same : Char → Char → Bool) (r s : Str) (hd : NoDouble r) (hu : '_' ∉ r) (hn : '\n' ∉ s) :
    (Like same r s → Str.like same (.str s) (.str r) = .int 1) ∧
    (∀ r', r = r' ++ ['%'] → (Str.like same (.str s) (.str r) = .int 1 ↔ Like same r s)) := by
  refine ⟨fun h => (C36_like_computed same r s hd hu hn).2 ⟨s, List.prefix_refl s, h⟩, ?_⟩
  rintro r' rfl
  rw [C36_like_computed same _ s hd hu hn]
  constructor
  · rintro ⟨x, ⟨y, rfl⟩, h⟩; exact like_extend same r' x y h
  · exact fun h => ⟨s, List.prefix_refl s, h⟩

/-- The hypotheses hold of `%b%` and 'abc', which matches. -/
example : NoDouble "%b%".toList ∧ '_' ∉ "%b%".toList ∧ '\n' ∉ "abc".toList ∧
    Str.like (fun a b => a == b) (.str "abc".toList) (.str "%b%".toList) = .int 1 := by
  refine ⟨?_, by decide, by decide, by decide +kernel⟩
  simp [NoDouble]

/-- LIKE with a NULL operand is NULL. -/
theorem C36_like_null (same : Char → Char → Bool) (x : Val) :
    Str.like same .null x = .null ∧ Str.like same x .null = .null := by
  simp [Str.like, Str.likeRaw, caught]

/-- **C36 is violated**: 'abcdef' LIKE 'abc' holds, 'abc' LIKE 'a_c' and 'axb' LIKE 'a%%b' do not, and neither does a text with a
newline like '%b'. -/
theorem C36_like_violated :
    let eq : Char → Char → Bool := fun a b => a == b
    Str.like eq (.str "abcdef".toList) (.str "abc".toList) = .int 1 ∧
    Str.like eq (.str "abc".toList) (.str "a_c".toList) = .int 0 ∧
    Str.like eq (.str "axb".toList) (.str "a%%b".toList) = .int 0 ∧
    Str.like eq (.str "a\nb".toList) (.str "%b".toList) = .int 0 := by decide +kernel

end
end Verif.Props
