import Verif.Model.Value
/-! Proofs about number texts and their conversion. -/
namespace Verif.Val

theorem digitChar_isDigit {n : Nat} (h : n < 10) : isDigit (digitChar n) = true := by
  have : ∀ n < 10, isDigit (digitChar n) = true := by decide
  exact this n h

theorem digitVal_digitChar {n : Nat} (h : n < 10) : digitVal (digitChar n) = n := by
  have : ∀ n < 10, digitVal (digitChar n) = n := by decide
  exact this n h

theorem natText_digits (n : Nat) : ∀ c ∈ natText n, isDigit c = true := by
  fun_induction natText n with
  | case1 n h => intro c hc; simp at hc; subst hc; exact digitChar_isDigit h
  | case2 n h ih =>
    intro c hc
    simp at hc
    rcases hc with hc | hc
    · exact ih c hc
    · subst hc; exact digitChar_isDigit (by omega)

theorem natText_ne_nil (n : Nat) : natText n ≠ [] := by
  unfold natText; split <;> simp

theorem digitsVal_append (a : Str) (c : Char) : digitsVal (a ++ [c]) = 10 * digitsVal a + digitVal c := by
  simp [digitsVal]

theorem digitsVal_natText (n : Nat) : digitsVal (natText n) = n := by
  fun_induction natText n with
  | case1 n h => simp [digitsVal, digitVal_digitChar h]
  | case2 n h ih => rw [digitsVal_append, ih, digitVal_digitChar (by omega)]; omega

theorem allDigits_iff {s : Str} : allDigits s = true ↔ s ≠ [] ∧ ∀ c ∈ s, isDigit c = true := by
  simp [allDigits]

theorem allDigits_natText (n : Nat) : allDigits (natText n) = true :=
  allDigits_iff.mpr ⟨natText_ne_nil n, natText_digits n⟩

theorem isDigit_ne {c d : Char} (h : isDigit c = true) (hd : isDigit d = false) : c ≠ d := by
  rintro rfl; rw [h] at hd; simp at hd

theorem splitSign_digits {s : Str} (h : allDigits s = true) : splitSign s = (1, s) := by
  obtain ⟨hne, hd⟩ := allDigits_iff.mp h
  cases s with
  | nil => exact absurd rfl hne
  | cons c s =>
    have hc := hd c (by simp)
    have h1 : c ≠ '-' := isDigit_ne hc (by decide)
    have h2 : c ≠ '+' := isDigit_ne hc (by decide)
    unfold splitSign
    split
    · next e => simp at e; exact absurd e.1 h1
    · next e => simp at e; exact absurd e.1 h2
    · rfl

theorem simpleInt_digits {s : Str} (h : allDigits s = true) : simpleInt s = some (digitsVal s : Int) := by
  simp [simpleInt, splitSign_digits h, h]

theorem simpleInt_neg {s : Str} (h : allDigits s = true) : simpleInt ('-' :: s) = some (-(digitsVal s : Int)) := by
  simp only [simpleInt, splitSign, h, if_true]
  congr 1; omega

theorem simpleInt_intText (i : Int) : simpleInt (intText i) = some i := by
  unfold intText
  split
  · rw [simpleInt_neg (allDigits_natText _), digitsVal_natText]; congr 1; omega
  · next h =>
    rw [simpleInt_digits (allDigits_natText _), digitsVal_natText, Int.natAbs_of_nonneg (by omega)]

theorem int_intText (py : Py) (i : Int) : py.int (intText i) = some i := by
  simp [Py.int, simpleInt_intText]

theorem int_digits (py : Py) {s : Str} (h : allDigits s = true) : py.int s = some (digitsVal s : Int) := by
  simp [Py.int, simpleInt_digits h]

theorem float_digits (py : Py) {s : Str} (h : allDigits s = true) : py.float s = some (digitsVal s : Rat) := by
  have : simpleFloat s = some (digitsVal s : Rat) := by
    unfold simpleFloat
    rw [splitSign_digits h]
    simp [h]
  simp [Py.float, this]

theorem takeWhile_digits {a : Str} (ha : ∀ c ∈ a, isDigit c = true) {rest : Str}
    (hr : ∀ c, rest.head? = some c → isDigit c = false) :
    (a ++ rest).takeWhile isDigit = a ∧ (a ++ rest).dropWhile isDigit = rest := by
  induction a with
  | nil =>
    cases rest with
    | nil => simp
    | cons c r =>
      have := hr c rfl
      simp [this]
  | cons c a ih =>
    have := ih (fun c hc => ha c (by simp [hc]))
    simp [ha c (by simp), this]

theorem float_dec (py : Py) {a b : Str} (ha : allDigits a = true) (hb : allDigits b = true) :
    py.float (a ++ '.' :: b) = some (decVal a b) := by
  have hs : splitSign (a ++ '.' :: b) = (1, a ++ '.' :: b) := by
    have := splitSign_digits ha
    obtain ⟨hne, hd⟩ := allDigits_iff.mp ha
    cases a with
    | nil => exact absurd rfl hne
    | cons c s =>
      have hc := hd c (by simp)
      have h1 : c ≠ '-' := isDigit_ne hc (by decide)
      have h2 : c ≠ '+' := isDigit_ne hc (by decide)
      rw [List.cons_append]
      unfold splitSign
      split
      · next e => simp at e; exact absurd e.1 h1
      · next e => simp at e; exact absurd e.1 h2
      · rfl
  have hn : allDigits (a ++ '.' :: b) = false := by
    cases h : allDigits (a ++ '.' :: b) with
    | false => rfl
    | true =>
      have := (allDigits_iff.mp h).2 '.' (by simp)
      exact absurd this (by decide)
  obtain ⟨h1, h2⟩ := takeWhile_digits (allDigits_iff.mp ha).2 (rest := '.' :: b)
    (by intro c hc; simp at hc; subst hc; decide)
  have : simpleFloat (a ++ '.' :: b) = some (decVal a b) := by
    unfold simpleFloat
    rw [hs]
    simp only [hn, h1, h2, ha, hb]
    simp
  simp [Py.float, this]

/-! ### `parse_number` -/

/-- Scanning over digits. -/
theorem scan_digits (f : Bool) (a : Str) (ha : ∀ c ∈ a, isDigit c = true) (rest : Str) :
    ∀ (i : Nat) (idx dot : Option Nat), scanNumber f (a ++ rest) i idx dot =
      scanNumber f rest (i + a.length) (if a = [] then idx else some (i + a.length - 1)) dot := by
  induction a with
  | nil => intro i idx dot; simp
  | cons c a ih =>
    intro i idx dot
    have hc := ha c (by simp)
    rw [List.cons_append, scanNumber, if_pos hc, ih (fun c h => ha c (by simp [h]))]
    have e1 : i + 1 + a.length = i + (c :: a).length := by simp; omega
    rw [e1]
    congr 1
    by_cases h : a = []
    · simp [h]
    · simp [h]

/-- Scanning stops at a character that is neither a digit nor an acceptable point. -/
theorem scan_stop (f : Bool) (rest : Str) (i : Nat) (idx dot : Option Nat)
    (h1 : ∀ c, rest.head? = some c → isDigit c = false)
    (h2 : f = false ∨ idx = none ∨ dot.isSome ∨ ∀ c, rest.head? = some c → c ≠ '.') :
    scanNumber f rest i idx dot = (idx, dot) := by
  cases rest with
  | nil => rfl
  | cons c rest =>
    have := h1 c rfl
    rw [scanNumber, if_neg (by simp [this])]
    rw [if_neg]
    rintro ⟨g1, g2, g3, g4⟩
    rcases h2 with h | h | h | h
    · simp [h] at g2
    · simp [h] at g1
    · cases dot <;> simp_all
    · exact h c rfl g4

theorem parseNumber_int_prefix (py : Py) (a rest : Str) (ha : allDigits a = true)
    (hr : ∀ c, rest.head? = some c → isDigit c = false) :
    py.parseNumber (a ++ rest) false = some (.int (digitsVal a)) := by
  obtain ⟨hne, hd⟩ := allDigits_iff.mp ha
  have hlen : 0 < a.length := List.length_pos_iff.mpr hne
  unfold Py.parseNumber
  rw [scan_digits false a hd, if_neg hne, scan_stop _ _ _ _ _ hr (Or.inl rfl)]
  simp only [Option.getD_none, Nat.not_lt_zero, gt_iff_lt, if_false]
  have : 0 + a.length - 1 + 1 = a.length := by omega
  rw [this]
  simp [int_digits py ha]

theorem mem_takeWhile_digit {s : Str} {d : Char} (h : d ∈ s.takeWhile isDigit) : isDigit d = true := by
  induction s with
  | nil => simp at h
  | cons c s ih =>
    rw [List.takeWhile_cons] at h
    split at h
    · next hc =>
      rcases List.mem_cons.mp h with e | e
      · subst e; exact hc
      · exact ih e
    · simp at h

/-- A text starting with a digit: its digits, then the rest. -/
theorem split_digits (c : Char) (s : Str) (hc : isDigit c = true) :
    ∃ a rest, c :: s = a ++ rest ∧ allDigits a = true ∧ ∀ d, rest.head? = some d → isDigit d = false := by
  refine ⟨(c :: s).takeWhile isDigit, (c :: s).dropWhile isDigit, (List.takeWhile_append_dropWhile).symm, ?_, ?_⟩
  · rw [allDigits_iff]
    refine ⟨by simp [hc], fun d hd => ?_⟩
    exact (mem_takeWhile_digit hd)
  · intro d hd
    have := List.head?_dropWhile_not isDigit (c :: s)
    rw [hd] at this
    simpa using this

theorem parseNumber_float_digits (py : Py) (a rest : Str) (ha : allDigits a = true)
    (hr : ∀ c, rest.head? = some c → isDigit c = false ∧ c ≠ '.') :
    py.parseNumber (a ++ rest) true = some (.int (digitsVal a)) := by
  obtain ⟨hne, hd⟩ := allDigits_iff.mp ha
  have hlen : 0 < a.length := List.length_pos_iff.mpr hne
  unfold Py.parseNumber
  rw [scan_digits true a hd, if_neg hne, scan_stop _ _ _ _ _ (fun c h => (hr c h).1)
    (Or.inr (Or.inr (Or.inr (fun c h => (hr c h).2))))]
  simp only [Option.getD_none, Nat.not_lt_zero, gt_iff_lt, if_false]
  have : 0 + a.length - 1 + 1 = a.length := by omega
  rw [this]
  simp [int_digits py ha]

theorem parseNumber_float_dot (py : Py) (a b rest : Str) (ha : allDigits a = true)
    (hb : ∀ c ∈ b, isDigit c = true) (hr : ∀ c, rest.head? = some c → isDigit c = false) :
    py.parseNumber (a ++ '.' :: (b ++ rest)) true =
      some (.flt (if b = [] then (digitsVal a : Rat) else decVal a b)) := by
  obtain ⟨hne, hd⟩ := allDigits_iff.mp ha
  have hlen : 0 < a.length := List.length_pos_iff.mpr hne
  unfold Py.parseNumber
  rw [scan_digits true a hd, if_neg hne, scanNumber, if_neg (by decide)]
  rw [if_pos (by simp)]
  rw [scan_digits true b hb, scan_stop _ _ _ _ _ hr (Or.inr (Or.inr (Or.inl rfl)))]
  by_cases hbn : b = []
  · subst hbn
    simp only [if_true]
    have e : 0 + a.length - 1 + 1 = a.length := by omega
    rw [e]
    simp [hlen, float_digits py ha]
  · simp only [if_neg hbn]
    have e : 0 + a.length + 1 + b.length - 1 + 1 = (a ++ '.' :: b).length := by
      have : 0 < b.length := List.length_pos_iff.mpr hbn
      simp; omega
    rw [e]
    have e2 : (a ++ '.' :: (b ++ rest)).take (a ++ '.' :: b).length = a ++ '.' :: b := by
      rw [show a ++ '.' :: (b ++ rest) = (a ++ '.' :: b) ++ rest by simp, List.take_left]
    rw [e2, float_dec py ha (allDigits_iff.mpr ⟨hbn, hb⟩)]
    simp [hlen]

theorem parseNumber_total (py : Py) (c : Char) (s : Str) (f : Bool) (hc : isDigit c = true) :
    (py.parseNumber (c :: s) f).isSome := by
  obtain ⟨a, rest, e, ha, hr⟩ := split_digits c s hc
  rw [e]
  cases f with
  | false => simp [parseNumber_int_prefix py a rest ha hr]
  | true =>
    by_cases hdot : ∃ r, rest = '.' :: r
    · obtain ⟨r, rfl⟩ := hdot
      have h1 : r = r.takeWhile isDigit ++ r.dropWhile isDigit := (List.takeWhile_append_dropWhile).symm
      rw [h1, parseNumber_float_dot py a _ _ ha (fun d hd => mem_takeWhile_digit hd)]
      · simp
      · intro d hd
        have := List.head?_dropWhile_not isDigit r
        rw [hd] at this
        simpa using this
    · rw [parseNumber_float_digits py a rest ha]
      · simp
      · intro d hd
        refine ⟨hr d hd, ?_⟩
        rintro rfl
        cases rest with
        | nil => simp at hd
        | cons x r => simp at hd; exact hdot ⟨r, by rw [hd]⟩

end Verif.Val
