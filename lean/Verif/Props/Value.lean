import Verif.Proofs.Value
/-! Property theorems C48 (SET literals) and C50 (numeric coercion). -/
namespace Verif.Props
open Verif.Val

/-! ## C50 -/

/-- **C50**: the decimal text of an integer converts back to the integer, by both conversions. -/
theorem C50_integer_text_roundtrip (py : Py) (i : Int) :
    py.ensureInt (.str (intText i)) = some (.int i) ∧ py.ensureNumber (.str (intText i)) = some (.int i) := by
  have hdot : '.' ∉ intText i := by
    unfold intText
    have : '.' ∉ natText i.natAbs := fun h => absurd (natText_digits _ _ h) (by decide)
    split <;> simp [this]
  have hne : intText i ≠ [] := by
    unfold intText
    split
    · simp
    · exact natText_ne_nil _
  generalize ht : intText i = t at *
  have hint : py.int t = some i := ht ▸ int_intText py i
  cases t with
  | nil => exact absurd rfl hne
  | cons c t => simp [Py.ensureInt, Py.ensureNumber, hint, hdot]

/-- **C50**: a text of digits followed by something that is not a digit, without a point and refused by `int()`,
converts to the number written by the digits. -/
theorem C50_longest_digit_prefix (py : Py) (a rest : Str) (ha : allDigits a = true)
    (hr : ∀ c, rest.head? = some c → isDigit c = false) (hdot : '.' ∉ rest) (hpy : py.int (a ++ rest) = none) :
    py.ensureNumber (.str (a ++ rest)) = some (.int (digitsVal a)) := by
  obtain ⟨hne, hd⟩ := allDigits_iff.mp ha
  have h1 : '.' ∉ a ++ rest := by
    simp [hdot]
    intro h
    exact absurd (hd _ h) (by decide)
  have h2 := parseNumber_int_prefix py a rest ha hr
  cases hx : a ++ rest with
  | nil => simp at hx; exact absurd hx.1 hne
  | cons c s =>
    rw [hx] at h1 h2 hpy
    simp only [Py.ensureNumber, if_neg h1, hpy, Py.ensureInt, h2]
    simp

/-- **C50**: digits, a point, digits, then anything not starting with a digit, refused by `float()`: converts to the
decimal number written by this prefix. -/
theorem C50_longest_decimal_prefix (py : Py) (a b rest : Str) (ha : allDigits a = true) (hb : allDigits b = true)
    (hr : ∀ c, rest.head? = some c → isDigit c = false) (hpy : py.float (a ++ '.' :: (b ++ rest)) = none) :
    py.ensureNumber (.str (a ++ '.' :: (b ++ rest))) = some (.flt (decVal a b)) := by
  obtain ⟨hne, hd⟩ := allDigits_iff.mp ha
  obtain ⟨hbne, hbd⟩ := allDigits_iff.mp hb
  have h1 : '.' ∈ a ++ '.' :: (b ++ rest) := by simp
  have h2 := parseNumber_float_dot py a b rest ha hbd hr
  rw [if_neg hbne] at h2
  cases hx : a ++ '.' :: (b ++ rest) with
  | nil => simp at hx
  | cons c s =>
    rw [hx] at h1 h2 hpy
    simp only [Py.ensureNumber, if_pos h1, hpy, Py.ensureFloat, h2]
    simp

/-- **C50**: conversion never fails on a text starting with a digit. -/
theorem C50_never_fails_on_digit (py : Py) (c : Char) (s : Str) (hc : isDigit c = true) :
    (py.ensureInt (.str (c :: s))).isSome ∧ (py.ensureFloat (.str (c :: s))).isSome ∧
      (py.ensureNumber (.str (c :: s))).isSome := by
  have h1 : (py.ensureInt (.str (c :: s))).isSome := by
    simp [Py.ensureInt, parseNumber_total py c s false hc]
  have h2 : (py.ensureFloat (.str (c :: s))).isSome := by
    simp [Py.ensureFloat, parseNumber_total py c s true hc]
  refine ⟨h1, h2, ?_⟩
  simp only [Py.ensureNumber]
  split <;> simp [h1, h2]

/-- A Python in which `int()` and `float()` accept only plain numbers. -/
def plainPy : Py := ⟨fun _ => none, fun _ => none, fun _ => []⟩

/-- Non-vacuity and limits: "12abc" is 12 and "3.25kg" is 3.25, but a sign before such a prefix, or a text without
leading digit, is an error (NULL for the caller), where MySQL would use -12 and 0. -/
theorem C50_examples :
    plainPy.ensureNumber (.str "12abc".toList) = some (.int 12) ∧
    plainPy.ensureNumber (.str "3.25kg".toList) = some (.flt (mkRat 325 100)) ∧
    plainPy.ensureNumber (.str "-12abc".toList) = none ∧
    plainPy.ensureNumber (.str "abc".toList) = none := by
  decide +kernel

/-! ## C48 -/

theorem isDigit_char {c : Char} (h : isDigit c = true) : ∃ n < 10, c = digitChar n := by
  simp only [isDigit, decide_eq_true_eq] at h
  obtain ⟨h1, h2⟩ := h
  have h1' : 48 ≤ c.toNat := h1
  have h2' : c.toNat ≤ 57 := h2
  refine ⟨c.toNat - 48, by omega, ?_⟩
  unfold digitChar
  have : '0'.toNat + (c.toNat - 48) = c.toNat := by
    have : '0'.toNat = 48 := rfl
    omega
  rw [this]
  simp

theorem digit_facts {c : Char} (h : isDigit c = true) :
    c.toLower ≠ 't' ∧ c.toLower ≠ 'f' ∧ c.toLower ≠ 'n' ∧ c ≠ '\'' ∧ c ≠ '"' ∧ isBlank c = false ∧ c ≠ '-' ∧
      c ≠ '.' := by
  obtain ⟨n, hn, rfl⟩ := isDigit_char h
  have : ∀ n < 10, (digitChar n).toLower ≠ 't' ∧ (digitChar n).toLower ≠ 'f' ∧ (digitChar n).toLower ≠ 'n' ∧
    digitChar n ≠ '\'' ∧ digitChar n ≠ '"' ∧ isBlank (digitChar n) = false ∧ digitChar n ≠ '-' ∧
      digitChar n ≠ '.' := by decide
  exact this n hn

/-- The first character of a number text. -/
def NumStart (c : Char) : Prop := isDigit c = true ∨ c = '-'

theorem numStart_facts {c : Char} (h : NumStart c) :
    c.toLower ≠ 't' ∧ c.toLower ≠ 'f' ∧ c.toLower ≠ 'n' ∧ c ≠ '\'' ∧ c ≠ '"' ∧ isBlank c = false := by
  rcases h with h | rfl
  · have := digit_facts h; simp [this]
  · decide

theorem setParse_num (py : Py) {c : Char} {s : Str} (h : NumStart c) :
    py.setParse (c :: s) = if isIntLit (c :: s) then (py.int (c :: s)).map .int
      else if isDecLit (c :: s) then (py.float (c :: s)).map .flt else none := by
  obtain ⟨h1, h2, h3, h4, h5, _⟩ := numStart_facts h
  unfold Py.setParse
  simp [h4, h5, lower, h1, h2, h3]

theorem intText_start (i : Int) : ∃ c s, intText i = c :: s ∧ NumStart c := by
  unfold intText
  split
  · exact ⟨_, _, rfl, Or.inr rfl⟩
  · cases h : natText i.natAbs with
    | nil => exact absurd h (natText_ne_nil _)
    | cons c s => exact ⟨c, s, rfl, Or.inl (natText_digits i.natAbs c (by simp [h]))⟩

theorem isIntLit_intText (i : Int) : isIntLit (intText i) = true := by
  unfold intText isIntLit
  split
  · simp [allDigits_natText]
  · simp [allDigits_natText]

/-- **C48**: `SET x = <integer>` assigns that integer, for every integer. -/
theorem C48_set_integer (py : Py) (i : Int) : py.setParse (intText i) = some (.int i) := by
  obtain ⟨c, s, e, hc⟩ := intText_start i
  have h1 := isIntLit_intText i
  have h2 := int_intText py i
  rw [e] at h1 h2 ⊢
  rw [setParse_num py hc, if_pos h1, h2]
  rfl

theorem strip_of_ends {s : Str} (h1 : ∀ c, s.head? = some c → isBlank c = false)
    (h2 : ∀ c, s.getLast? = some c → isBlank c = false) : strip s = s := by
  unfold strip
  have e1 : s.dropWhile isBlank = s := by
    cases s with
    | nil => rfl
    | cons c s => simp [h1 c rfl]
  rw [e1]
  have e2 : s.reverse.dropWhile isBlank = s.reverse := by
    cases hr : s.reverse with
    | nil => rfl
    | cons c t =>
      have : s.getLast? = some c := by
        rw [← List.head?_reverse, hr]; rfl
      simp [h2 c this]
  rw [e2, List.reverse_reverse]

/-- **C48**, the other literal parser (command line and `${x:f(args)}` arguments): also for every integer. -/
theorem C48_parse_integer (py : Py) (i : Int) : py.parseValue (intText i) = some (.int i) := by
  obtain ⟨c, s, e, hc⟩ := intText_start i
  have h1 := isIntLit_intText i
  have h2 := int_intText py i
  have hs : strip (intText i) = intText i := by
    apply strip_of_ends
    · intro d hd
      rw [e] at hd; simp at hd; subst hd
      exact (numStart_facts hc).2.2.2.2.2
    · intro d hd
      have hm : d ∈ intText i := List.mem_of_getLast? hd
      have : NumStart d := by
        unfold intText at hm
        split at hm
        · rcases List.mem_cons.mp hm with h | h
          · exact Or.inr h
          · exact Or.inl (natText_digits _ _ h)
        · exact Or.inl (natText_digits _ _ hm)
      exact (numStart_facts this).2.2.2.2.2
  unfold Py.parseValue
  rw [hs]
  rw [e] at h1 h2 ⊢
  obtain ⟨_, _, _, h4, h5, _⟩ := numStart_facts hc
  have hq : isQuote c = false := by simp [isQuote, h4, h5]
  simp only [hq, h1, h2, if_true]
  simp

/-- **C92**, strings: a quoted text gives the text, provided it neither starts nor ends with a blank and does not
itself start with a quote (full statement without these provisos is false: next theorem). -/
theorem C92_set_quoted_partial (py : Py) (s : Str) (h1 : ∀ c, s.head? = some c → isBlank c = false ∧ c ≠ '\'')
    (h2 : ∀ c, s.getLast? = some c → isBlank c = false) :
    py.setParse ('\'' :: (s ++ ['\''])) = some (.str s) := by
  unfold Py.setParse
  simp only [if_true, or_true]
  have hmid : sliceMid ('\'' :: (s ++ ['\''])) 1 1 = s := by
    simp [sliceMid]
  have ht : ¬ (('\'' :: (s ++ ['\''])).take 3 = ['\'', '\'', '\''] ∨ ('\'' :: (s ++ ['\''])).take 3 = ['"', '"', '"']) := by
    rintro (h | h)
    · cases s with
      | nil => simp at h
      | cons c s => simp at h; exact (h1 c rfl).2 h.1
    · simp at h
  rw [if_neg ht, hmid, strip_of_ends (fun c h => (h1 c h).1) h2]

/-- **C92 is violated** for strings with outer blanks: `SET x = ' a '` assigns `a`. -/
theorem C92_blanks_lost (py : Py) : py.setParse "' a '".toList = some (.str "a".toList) := by
  rfl

/-- **C48**, the other parser keeps every quoted text, blanks and quotes included. -/
theorem C48_parse_quoted (py : Py) (s : Str) : py.parseValue ('\'' :: (s ++ ['\''])) = some (.str s) := by
  have hs : strip ('\'' :: (s ++ ['\''])) = '\'' :: (s ++ ['\'']) := by
    apply strip_of_ends
    · intro c hc; simp at hc; subst hc; decide
    · intro c hc
      rw [show ('\'' :: (s ++ ['\''])) = ('\'' :: s) ++ ['\''] by simp, List.getLast?_concat] at hc
      simp at hc; subst hc; decide
  unfold Py.parseValue
  rw [hs]
  have hl : ('\'' :: (s ++ ['\''])).getLast?.getD ' ' = '\'' := by
    rw [show ('\'' :: (s ++ ['\''])) = ('\'' :: s) ++ ['\''] by simp, List.getLast?_concat]; rfl
  simp only [hl]
  rw [if_pos ⟨by simp, by decide, by decide⟩]
  simp [sliceMid]

theorem splitDot_dec {a b : Str} (ha : '.' ∉ a) (hb : '.' ∉ b) : splitDot (a ++ '.' :: b) = some (a, b) := by
  have h : (a ++ '.' :: b).dropWhile (fun c => decide (c ≠ '.')) = '.' :: b ∧
      (a ++ '.' :: b).takeWhile (fun c => decide (c ≠ '.')) = a := by
    induction a with
    | nil => simp
    | cons c a ih =>
      simp at ha
      have := ih ha.2
      have hc : ¬ c = '.' := fun e => ha.1 e.symm
      simp only [List.cons_append, List.dropWhile_cons, List.takeWhile_cons, ne_eq, hc, not_false_eq_true,
        decide_true, if_true]
      exact ⟨this.1, by rw [this.2]⟩
  unfold splitDot
  rw [h.1, h.2]
  simp [hb]

theorem not_intLit_of_dot {s : Str} (h : '.' ∈ s) : isIntLit s = false := by
  have key : ∀ t : Str, '.' ∈ t → allDigits t = false := by
    intro t ht
    cases hh : allDigits t with
    | false => rfl
    | true => exact absurd ((allDigits_iff.mp hh).2 _ ht) (by decide)
  unfold isIntLit
  rw [key s h]
  cases s with
  | nil => rfl
  | cons c s =>
    by_cases hc : c = '-'
    · subst hc
      simp at h
      simp [key s h]
    · simp; split
      · next e => simp at e; exact absurd e.1 hc
      · rfl

/-- **C48**: `SET x = <digits>.<digits>` assigns that decimal number. -/
theorem C48_set_decimal (py : Py) (a b : Str) (ha : allDigits a = true) (hb : allDigits b = true) :
    py.setParse (a ++ '.' :: b) = some (.flt (decVal a b)) := by
  obtain ⟨hne, hd⟩ := allDigits_iff.mp ha
  obtain ⟨_, hbd⟩ := allDigits_iff.mp hb
  have hda : '.' ∉ a := fun h => absurd (hd _ h) (by decide)
  have hdb : '.' ∉ b := fun h => absurd (hbd _ h) (by decide)
  have h1 : isIntLit (a ++ '.' :: b) = false := not_intLit_of_dot (by simp)
  have h2 : isDecLit (a ++ '.' :: b) = true := by
    unfold isDecLit
    rw [splitDot_dec hda hdb]
    simp [ha, hb]
  have h3 := float_dec py ha hb
  cases a with
  | nil => exact absurd rfl hne
  | cons c a =>
    rw [List.cons_append] at h1 h2 h3 ⊢
    rw [setParse_num py (Or.inl (hd c (by simp))), h1, h2, h3]
    simp

/-- **C92 is violated** for negative decimals: `SET x = -<digits>.<digits>` is never a number for the SET parser
(it raises), and the other parser returns the text. -/
theorem C92_negative_decimal_refused (py : Py) (a b : Str) (ha : allDigits a = true) (hb : allDigits b = true) :
    py.setParse ('-' :: (a ++ '.' :: b)) = none ∧
    py.parseValue ('-' :: (a ++ '.' :: b)) = some (.str ('-' :: (a ++ '.' :: b))) := by
  obtain ⟨hne, hd⟩ := allDigits_iff.mp ha
  obtain ⟨hbne, hbd⟩ := allDigits_iff.mp hb
  have hda : '.' ∉ '-' :: a := by
    intro h; simp at h; exact absurd (hd _ h) (by decide)
  have hdb : '.' ∉ b := fun h => absurd (hbd _ h) (by decide)
  have h1 : isIntLit ('-' :: (a ++ '.' :: b)) = false := not_intLit_of_dot (by simp)
  have hm : allDigits ('-' :: a) = false := by
    cases hh : allDigits ('-' :: a) with
    | false => rfl
    | true => exact absurd ((allDigits_iff.mp hh).2 '-' (by simp)) (by decide)
  have h2 : isDecLit ('-' :: (a ++ '.' :: b)) = false := by
    unfold isDecLit
    rw [← List.cons_append, splitDot_dec hda hdb]
    have he : allDigits [] = false := rfl
    simp [hm, he]
  constructor
  · rw [setParse_num py (Or.inr rfl), h1, h2]; simp
  · have hs : strip ('-' :: (a ++ '.' :: b)) = '-' :: (a ++ '.' :: b) := by
      apply strip_of_ends
      · intro c hc; simp at hc; subst hc; decide
      · intro c hc
        have hl : ('-' :: (a ++ '.' :: b)).getLast? = b.getLast? := by
          rw [← List.cons_append, List.getLast?_append, List.getLast?_cons]
          cases b with
          | nil => exact absurd rfl hbne
          | cons x xs => simp [List.getLast?_cons]
        rw [hl] at hc
        exact (digit_facts (hbd c (List.mem_of_getLast? hc))).2.2.2.2.2.1
    unfold Py.parseValue
    rw [hs]
    simp only [h1, h2]
    simp [isQuote, lower]

/-- Non-vacuity. -/
example : plainPy.setParse "-42".toList = some (.int (-42)) ∧ plainPy.setParse "1.50".toList = some (.flt (mkRat 3 2)) ∧
    plainPy.setParse "-1.5".toList = none ∧ plainPy.setParse "'it''s'".toList = some (.str "it''s".toList) := by
  decide +kernel

end Verif.Props
