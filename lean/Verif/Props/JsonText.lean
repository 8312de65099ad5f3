import Verif.Model.JsonText
import Verif.Proofs.Value
import Verif.Props.Value
/-! Property theorems C178: JSON texts. -/
namespace Verif.Props
open Verif.Val Verif.Json Verif.JsonText

namespace JsonTextLemmas

/-- What can stand after a value inside a document, or nothing. -/
def Stop : Str → Prop
  | [] => True
  | c :: _ => c = ',' ∨ c = ']' ∨ c = '}'

theorem lit (c d : Char) (h : c.toNat = d.toNat) : c = d := Char.toNat_inj.1 h

theorem hexVal_digit (n : Nat) (h : n < 16) : hexVal (hexDigit n) = some n := by
  have : ∀ m : Fin 16, hexVal (hexDigit m.1) = some m.1 := by decide
  exact this ⟨n, h⟩

theorem units_simple (e : Char) (n : Nat) (s : Str) (h : simple e = some n) :
    units ('\\' :: e :: s) = (units s).map fun r => (n :: r.1, r.2) := by
  rw [units.eq_def]
  simp only [if_neg (by decide : ¬ '\\' = '"'), if_true]
  split
  · rename_i he
    obtain ⟨rfl, _⟩ := List.cons.inj he
    rw [show simple 'u' = none by decide] at h
    cases h
  · rename_i _ he
    obtain ⟨rfl, rfl⟩ := List.cons.inj he
    rw [h]; rfl
  · rename_i he; cases he

theorem units_escape (c : Char) (s : Str) : units (escape c ++ s) = (units s).map fun r => (c.toNat :: r.1, r.2) := by
  unfold escape
  by_cases h1 : c = '"'
  · subst h1; exact units_simple _ _ _ (by decide)
  rw [if_neg h1]
  by_cases h2 : c = '\\'
  · subst h2; exact units_simple _ _ _ (by decide)
  rw [if_neg h2]
  by_cases h3 : c = '\n'
  · subst h3; exact units_simple _ _ _ (by decide)
  rw [if_neg h3]
  by_cases h4 : c = '\r'
  · subst h4; exact units_simple _ _ _ (by decide)
  rw [if_neg h4]
  by_cases h5 : c = '\t'
  · subst h5; exact units_simple _ _ _ (by decide)
  rw [if_neg h5]
  by_cases h6 : c.toNat = 12
  · rw [if_pos h6, h6]; exact units_simple _ _ _ (by decide)
  rw [if_neg h6]
  by_cases h7 : c.toNat = 8
  · rw [if_pos h7, h7]; exact units_simple _ _ _ (by decide)
  rw [if_neg h7]
  by_cases h8 : c.toNat < 32
  · rw [if_pos h8]
    simp only [List.cons_append, List.nil_append]
    rw [units.eq_def]
    have e : hex4 '0' '0' (hexDigit (c.toNat / 16)) (hexDigit (c.toNat % 16)) = some c.toNat := by
      have z : hexVal '0' = some 0 := by decide
      rw [hex4, z, hexVal_digit _ (by omega), hexVal_digit _ (by omega)]
      simp only [Option.bind_some, Option.map_some, Option.some.injEq]
      omega
    simp [e]
  · rw [if_neg h8]
    simp only [List.cons_append, List.nil_append]
    rw [units.eq_def]
    simp [h1, h2, h8]

theorem units_text (t s : Str) : units (t.flatMap escape ++ '"' :: s) = some (t.map Char.toNat, s) := by
  induction t with
  | nil => simp only [List.flatMap_nil, List.nil_append]; rw [units.eq_def]; simp
  | cons c t ih => rw [List.flatMap_cons, List.append_assoc, units_escape, ih]; rfl

theorem chars_text (t : Str) : chars (t.map Char.toNat) = some t := by
  induction t with
  | nil => rfl
  | cons c t ih =>
    have hv : c.toNat < 0xD800 ∨ 0xDFFF < c.toNat := by
      rcases c.valid with h | ⟨h, _⟩
      · exact .inl h
      · exact .inr h
    rw [List.map_cons, chars.eq_def]
    simp only [ih]
    rw [if_neg (by omega), if_neg (by omega)]
    simp

theorem string_quote (t s : Str) : string (t.flatMap escape ++ '"' :: s) = some (t, s) := by
  simp [string, units_text, chars_text]

theorem natText_head (n : Nat) : natText n = ['0'] ∨ ∃ c s, natText n = c :: s ∧ c ≠ '0' := by
  induction n using Nat.strongRecOn with
  | _ n ih =>
    rw [natText]
    split
    · rename_i h
      have : ∀ m : Fin 10, [digitChar m.1] = ['0'] ∨ ∃ c s, [digitChar m.1] = c :: s ∧ c ≠ '0' := by
        intro m
        by_cases hm : digitChar m.1 = '0'
        · exact .inl (by rw [hm])
        · exact .inr ⟨_, _, rfl, hm⟩
      exact this ⟨n, h⟩
    · rename_i h
      rcases ih (n / 10) (by omega) with h0 | ⟨c, s, hc, hne⟩
      · exfalso
        have := digitsVal_natText (n / 10)
        rw [h0] at this
        have e : digitsVal ['0'] = 0 := by decide
        omega
      · exact .inr ⟨c, s ++ [digitChar (n % 10)], by rw [hc]; rfl, hne⟩

theorem digit_stop {rest : Str} (h : Stop rest) : rest.takeWhile isDigit = [] ∧ rest.dropWhile isDigit = rest := by
  cases rest with
  | nil => exact ⟨rfl, rfl⟩
  | cons c r =>
    have : isDigit c = false := by rcases h with rfl | rfl | rfl <;> decide
    simp [this]

theorem intPart_nat (n : Nat) {rest : Str} (h : Stop rest) : intPart (natText n ++ rest) = some (natText n, rest) := by
  rcases natText_head n with h0 | ⟨c, s, hc, hne⟩
  · rw [h0]; rfl
  · have hd := natText_digits n
    rw [hc] at hd ⊢
    have hcd := hd c (by simp)
    have hs : ∀ a ∈ s, isDigit a = true := fun a ha => hd a (by simp [ha])
    obtain ⟨e1, e2⟩ := digit_stop h
    simp only [List.cons_append, intPart, if_neg hne, hcd, if_true]
    rw [List.takeWhile_append_of_pos hs, List.dropWhile_append_of_pos hs, e1, e2, List.append_nil]

theorem frac_stop {rest : Str} (h : Stop rest) : fracPart rest = ([], rest) := by
  cases rest with
  | nil => rfl
  | cons c r => rcases h with rfl | rfl | rfl <;> rfl

theorem exp_stop {rest : Str} (h : Stop rest) : expPart rest = ([], rest) := by
  cases rest with
  | nil => rfl
  | cons c r =>
    have : ¬ (c = 'e' ∨ c = 'E') := by rcases h with rfl | rfl | rfl <;> decide
    simp [expPart, this]

theorem number_int (py : Py) (i : Int) {rest : Str} (h : Stop rest) : number py (intText i ++ rest) = some (.int i, rest) := by
  have hi := simpleInt_intText i
  unfold intText at hi ⊢
  split
  · rename_i hneg
    rw [if_pos hneg] at hi
    simp only [number, List.cons_append, List.head?_cons, if_true, List.tail_cons, intPart_nat _ h, Option.bind_some, frac_stop h, exp_stop h,
      and_self, List.nil_append, hi, Option.map_some]
  · rename_i hneg
    rw [if_neg hneg] at hi
    have hh : (natText i.natAbs ++ rest).head? ≠ some '-' := by
      have hd := natText_digits i.natAbs
      have hn := natText_ne_nil i.natAbs
      cases ht : natText i.natAbs with
      | nil => exact absurd ht hn
      | cons c s =>
        rw [ht] at hd
        have := hd c (by simp)
        intro he
        simp at he
        subst he
        exact absurd this (by decide)
    simp only [number, if_neg hh, intPart_nat _ h, Option.bind_some, frac_stop h, exp_stop h,
      and_self, if_true, List.nil_append, hi, Option.map_some]

theorem dumps_head (py : Py) (j : J) (hf : ∀ q, j = .flt q → ∃ c s, py.floatText q = c :: s ∧ (isDigit c = true ∨ c = '-')) :
    ∃ c s, dumps py j = c :: s ∧ (c = 'n' ∨ c = 't' ∨ c = 'f' ∨ isDigit c = true ∨ c = '-' ∨ c = '"' ∨ c = '[' ∨ c = '{') := by
  cases j with
  | null => exact ⟨_, _, by rw [dumps], by simp⟩
  | bool b => cases b <;> exact ⟨_, _, by rw [dumps], by simp⟩
  | int i =>
    rw [dumps]
    unfold intText
    split
    · exact ⟨_, _, rfl, by simp⟩
    · cases ht : natText i.natAbs with
      | nil => exact absurd ht (natText_ne_nil _)
      | cons c s => exact ⟨c, s, rfl, .inr (.inr (.inr (.inl (natText_digits i.natAbs c (by rw [ht]; simp)))))⟩
  | flt q =>
    obtain ⟨c, s, h, hc⟩ := hf q rfl
    rw [dumps]
    refine ⟨c, s, h, ?_⟩
    rcases hc with hc | hc
    · exact .inr (.inr (.inr (.inl hc)))
    · exact .inr (.inr (.inr (.inr (.inl hc))))
  | str t => exact ⟨_, _, by rw [dumps]; rfl, by simp⟩
  | arr l => cases l <;> exact ⟨_, _, by rw [dumps], by simp⟩
  | obj d =>
    cases d with
    | nil => exact ⟨_, _, by rw [dumps], by simp⟩
    | cons p d => obtain ⟨k, x⟩ := p; exact ⟨_, _, by rw [dumps], by simp⟩

end JsonTextLemmas
open JsonTextLemmas

/-- The text Python writes for a fraction is a number of JSON that Python reads back. -/
structure FloatOk (py : Py) (q : Rat) : Prop where
  first : ∃ c s, py.floatText q = c :: s ∧ (isDigit c = true ∨ c = '-')
  read : ∀ rest, Stop rest → number py (py.floatText q ++ rest) = some (.flt q, rest)

mutual
/-- A document of Python: the names of the members of an object differ, fractions are written and read exactly. -/
def Document (py : Py) : J → Prop
  | .flt q => FloatOk py q
  | .arr l => DocumentL py l
  | .obj d => (d.map (·.1)).Nodup ∧ DocumentO py d
  | _ => True
def DocumentL (py : Py) : List J → Prop
  | [] => True
  | x :: l => Document py x ∧ DocumentL py l
def DocumentO (py : Py) : List (Str × J) → Prop
  | [] => True
  | (_, x) :: d => Document py x ∧ DocumentO py d
end

namespace JsonTextLemmas

theorem document_flt {py : Py} {j : J} (h : Document py j) (q : Rat) (e : j = .flt q) :
    ∃ c s, py.floatText q = c :: s ∧ (isDigit c = true ∨ c = '-') := by
  subst e
  rw [Document] at h
  exact h.first

/-- No blank, no closing bracket. -/
theorem skip_dumps (py : Py) (j : J) (h : Document py j) (r : Str) : skip (dumps py j ++ r) = dumps py j ++ r ∧
    (dumps py j ++ r).head? ≠ some ']' ∧ (dumps py j ++ r).head? ≠ some '}' := by
  obtain ⟨c, s, e, hc⟩ := dumps_head py j (document_flt h)
  rw [e]
  have hb : (c = ' ' || c = '\t' || c = '\n' || c = '\r') = false ∧ c ≠ ']' ∧ c ≠ '}' := by
    rcases hc with rfl | rfl | rfl | hc | rfl | rfl | rfl | rfl
    · decide
    · decide
    · decide
    · have h0 : isDigit ' ' = false := by decide
      have h1 : isDigit '\t' = false := by decide
      have h2 : isDigit '\n' = false := by decide
      have h3 : isDigit '\r' = false := by decide
      have h4 : isDigit ']' = false := by decide
      have h5 : isDigit '}' = false := by decide
      refine ⟨?_, ?_, ?_⟩
      · simp only [Bool.or_eq_false_iff, decide_eq_false_iff_not]
        refine ⟨⟨⟨?_, ?_⟩, ?_⟩, ?_⟩ <;> rintro rfl <;> simp_all
      · rintro rfl; simp_all
      · rintro rfl; simp_all
    · decide
    · decide
    · decide
    · decide
  refine ⟨?_, by simpa using hb.2.1, by simpa using hb.2.2⟩
  rw [skip, List.cons_append, List.dropWhile_cons_of_neg (by simp only [hb.1]; decide)]

theorem put_new (k : Str) (v : J) (d : List (Str × J)) (h : k ∉ d.map (·.1)) : put k v d = d ++ [(k, v)] := by
  induction d with
  | nil => rfl
  | cons p d ih =>
    obtain ⟨k', v'⟩ := p
    simp only [List.map_cons, List.mem_cons, not_or] at h
    rw [put, if_neg (Ne.symm h.1), ih h.2]
    rfl

theorem word_number (py : Py) (s : Str) (h : ∃ c r, s = c :: r ∧ (isDigit c = true ∨ c = '-')) : word py s = number py s ∧ ∀ n, value py (n + 1) s = number py s := by
  obtain ⟨c, r, rfl, h⟩ := h
  have hn : c ≠ 'n' ∧ c ≠ 't' ∧ c ≠ 'f' ∧ c ≠ '"' ∧ c ≠ '[' ∧ c ≠ '{' := by
    rcases h with h | rfl
    · refine ⟨?_, ?_, ?_, ?_, ?_, ?_⟩ <;> rintro rfl <;> revert h <;> decide
    · decide
  have hw : word py (c :: r) = number py (c :: r) := by
    unfold word
    split
    · rename_i he; exact absurd (List.cons.inj he).1 hn.1
    · rename_i he; exact absurd (List.cons.inj he).1 hn.2.1
    · rename_i he; exact absurd (List.cons.inj he).1 hn.2.2.1
    · rfl
  refine ⟨hw, fun n => ?_⟩
  rw [value.eq_def]
  simp only
  split
  · rename_i he; exact absurd (List.cons.inj he).1 hn.2.2.2.1
  · rename_i he; exact absurd (List.cons.inj he).1 hn.2.2.2.2.1
  · rename_i he; exact absurd (List.cons.inj he).1 hn.2.2.2.2.2
  · exact hw

theorem stop_tail (py : Py) (l : List J) (rest : Str) : Stop (dumpsL py l ++ ']' :: rest) := by
  cases l with
  | nil => simp [dumpsL, Stop]
  | cons x l => simp [dumpsL, Stop]

theorem stop_tailO (py : Py) (d : List (Str × J)) (rest : Str) : Stop (dumpsO py d ++ '}' :: rest) := by
  cases d with
  | nil => simp [dumpsO, Stop]
  | cons p d => obtain ⟨k, x⟩ := p; simp [dumpsO, Stop]

/-- What is to be proved of a value. -/
def Reads (py : Py) (x : J) : Prop := ∀ n rest, Stop rest → (dumps py x).length ≤ n → value py n (dumps py x ++ rest) = some (x, rest)

theorem skip_bracket (c : Char) (s : Str) (h : (c = ' ' || c = '\t' || c = '\n' || c = '\r') = false) : skip (c :: s) = c :: s := by
  rw [skip, List.dropWhile_cons_of_neg (by simp only [h]; decide)]

theorem skip_blank (s : Str) : skip (' ' :: s) = skip s := by
  rw [skip, List.dropWhile_cons_of_pos (by decide)]; rfl

theorem value_arr (py : Py) (n : Nat) (s : Str) (hs : skip s = s) (h : s.head? ≠ some ']') :
    value py (n + 1) ('[' :: s) = (elements py n s).map fun r => (.arr r.1, r.2) := by
  rw [value.eq_def]
  simp only [hs]
  split
  · simp at h
  · rfl

theorem value_obj (py : Py) (n : Nat) (s : Str) (hs : skip s = s) (h : s.head? ≠ some '}') :
    value py (n + 1) ('{' :: s) = (members py n [] s).map fun r => (.obj r.1, r.2) := by
  rw [value.eq_def]
  simp only [hs]
  split
  · simp at h
  · rfl

mutual
theorem reads (py : Py) (x : J) (h : Document py x) : Reads py x := by
  intro n rest hr hn
  obtain ⟨m, rfl⟩ : ∃ m, n = m + 1 := by
    obtain ⟨c, s, e, _⟩ := dumps_head py x (document_flt h)
    rw [e] at hn
    exact ⟨n - 1, by simp at hn; omega⟩
  match x with
  | .null => rw [dumps, value.eq_def]; rfl
  | .bool true => rw [dumps, value.eq_def]; rfl
  | .bool false => rw [dumps, value.eq_def]; rfl
  | .int i =>
    rw [dumps] at hn ⊢
    have : ∃ c r, intText i ++ rest = c :: r ∧ (isDigit c = true ∨ c = '-') := by
      unfold intText
      split
      · exact ⟨_, _, rfl, .inr rfl⟩
      · cases ht : natText i.natAbs with
        | nil => exact absurd ht (natText_ne_nil _)
        | cons c s => exact ⟨c, _, rfl, .inl (natText_digits i.natAbs c (by rw [ht]; simp))⟩
    rw [(word_number py _ this).2, number_int py i hr]
  | .flt q =>
    rw [Document] at h
    rw [dumps]
    obtain ⟨c, s, e, hc⟩ := h.first
    rw [(word_number py _ ⟨c, s ++ rest, by rw [e]; rfl, hc⟩).2, h.read rest hr]
  | .str t =>
    rw [dumps, quote, value.eq_def]
    simp only [List.cons_append, List.append_assoc, List.nil_append, string_quote, Option.map_some]
  | .arr [] => rw [dumps, value.eq_def]; rfl
  | .arr (x :: l) =>
    rw [Document, DocumentL] at h
    rw [dumps] at hn ⊢
    have e : '[' :: (dumps py x ++ (dumpsL py l ++ [']'])) ++ rest = '[' :: (dumps py x ++ (dumpsL py l ++ ']' :: rest)) := by simp
    obtain ⟨s1, s2, _⟩ := skip_dumps py x h.1 (dumpsL py l ++ ']' :: rest)
    rw [e, value_arr py m _ s1 s2, readsL py l h.2 x (reads py x h.1) m rest (by simp at hn; omega)]
    rfl
  | .obj [] => rw [dumps, value.eq_def]; rfl
  | .obj ((k, x) :: d) =>
    rw [Document, DocumentO] at h
    obtain ⟨hd, hx, ho⟩ := h
    rw [dumps] at hn ⊢
    have e : '{' :: (quote k ++ (':' :: ' ' :: (dumps py x ++ (dumpsO py d ++ ['}'])))) ++ rest =
        '{' :: (quote k ++ (':' :: ' ' :: (dumps py x ++ (dumpsO py d ++ '}' :: rest)))) := by simp
    rw [e, value_obj py m _ (by rw [quote]; exact skip_bracket _ _ (by decide)) (by simp [quote]),
      readsO py d ho k x hx (reads py x hx) [] m rest (by simpa using hd) (by simp at hn; omega)]
    rfl
theorem readsL (py : Py) (l : List J) (h : DocumentL py l) (x : J) (hx : Reads py x) (n : Nat) (rest : Str)
    (hn : (dumps py x).length + (dumpsL py l).length + 1 ≤ n) :
    elements py n (dumps py x ++ (dumpsL py l ++ ']' :: rest)) = some (x :: l, rest) := by
  obtain ⟨m, rfl⟩ : ∃ m, n = m + 1 := ⟨n - 1, by omega⟩
  rw [elements, hx m _ (stop_tail py l rest) (by omega)]
  simp only [Option.bind_some]
  match l with
  | [] => rw [dumpsL]; rfl
  | y :: l =>
    rw [DocumentL] at h
    rw [dumpsL] at hn ⊢
    have e : ',' :: ' ' :: (dumps py y ++ dumpsL py l) ++ ']' :: rest = ',' :: ' ' :: (dumps py y ++ (dumpsL py l ++ ']' :: rest)) := by simp
    rw [e, skip_bracket _ _ (by decide)]
    simp only [skip_blank, (skip_dumps py y h.1 _).1]
    rw [readsL py l h.2 y (reads py y h.1) m rest (by simp at hn; omega)]
    rfl
theorem readsO (py : Py) (d : List (Str × J)) (h : DocumentO py d) (k : Str) (x : J) (hdoc : Document py x) (hx : Reads py x)
    (done : List (Str × J)) (n : Nat) (rest : Str) (hk : ((done ++ (k, x) :: d).map (·.1)).Nodup)
    (hn : (dumps py x).length + (dumpsO py d).length + 1 ≤ n) :
    members py n done (quote k ++ (':' :: ' ' :: (dumps py x ++ (dumpsO py d ++ '}' :: rest)))) = some (done ++ (k, x) :: d, rest) := by
  obtain ⟨m, rfl⟩ : ∃ m, n = m + 1 := ⟨n - 1, by omega⟩
  have hnew : k ∉ done.map (·.1) := by
    rw [List.map_append, List.map_cons] at hk
    intro hc
    exact (List.nodup_append.1 hk).2.2 k hc k (by simp) rfl
  rw [members.eq_def]
  simp only [quote, List.cons_append, List.append_assoc, List.nil_append, string_quote, Option.bind_some]
  rw [skip_bracket _ _ (by decide)]
  simp only [skip_blank, (skip_dumps py x hdoc _).1]
  rw [hx m _ (stop_tailO py d rest) (by omega)]
  simp only [Option.bind_some]
  match d with
  | [] => rw [dumpsO]; simp only [List.nil_append]; rw [skip_bracket _ _ (by decide)]; simp only [put_new k x done hnew]
  | (k', y) :: d =>
    rw [DocumentO] at h
    rw [dumpsO] at hn ⊢
    have e : ',' :: ' ' :: (quote k' ++ (':' :: ' ' :: (dumps py y ++ dumpsO py d))) ++ '}' :: rest =
        ',' :: ' ' :: (quote k' ++ (':' :: ' ' :: (dumps py y ++ (dumpsO py d ++ '}' :: rest)))) := by simp
    rw [e, skip_bracket _ _ (by decide)]
    simp only [skip_blank]
    rw [show skip (quote k' ++ (':' :: ' ' :: (dumps py y ++ (dumpsO py d ++ '}' :: rest)))) =
      quote k' ++ (':' :: ' ' :: (dumps py y ++ (dumpsO py d ++ '}' :: rest))) from by rw [quote]; exact skip_bracket _ _ (by decide),
      put_new k x done hnew,
      readsO py d h.2 k' y h.1 (reads py y h.1) (done ++ [(k, x)]) m rest (by simpa using hk) (by simp at hn; omega)]
    simp
end

theorem loads_dumps (py : Py) (j : J) (h : Document py j) : loads py (dumps py j) = some j := by
  have hs := (skip_dumps py j h []).1
  rw [List.append_nil] at hs
  have hv := reads py j h ((dumps py j).length + 1) [] trivial (by omega)
  rw [List.append_nil] at hv
  rw [loads, hs, hv]
  rfl

end JsonTextLemmas

/-- **C178**: `JSON_DECODE(JSON_ENCODE(x))` is `x`, for every document. -/
theorem C178_roundtrip (py : Py) (j : J) (h : Document py j) : jsonDecode py (jsonEncode py j) = j := by
  rw [jsonEncode, jsonDecode, loads_dumps py j h]; rfl

/-- **C178**: different documents have different texts. -/
theorem C178_injective (py : Py) (j k : J) (hj : Document py j) (hk : Document py k) (h : jsonEncode py j = jsonEncode py k) : j = k := by
  rw [← C178_roundtrip py j hj, h, C178_roundtrip py k hk]

/-- **C178**: a text is valid exactly when it can be decoded; NULL is what `null` and texts that are not valid decode to. -/
theorem C178_valid (py : Py) (s : Str) :
    (jsonValid py (.str s) = .int 1 ∨ jsonValid py (.str s) = .int 0) ∧
    (jsonValid py (.str s) = .int 0 → jsonDecode py (.str s) = .null) ∧
    (∀ j, Document py j → dumps py j = s → jsonValid py (.str s) = .int 1) := by
  refine ⟨?_, ?_, ?_⟩
  · rw [jsonValid]; cases (loads py s).isSome <;> simp
  · intro h
    rw [jsonValid] at h
    cases hl : loads py s with
    | none => rw [jsonDecode, hl]; rfl
    | some j => rw [hl] at h; simp at h
  · rintro j h rfl
    rw [jsonValid, loads_dumps py j h]; rfl

/-- A document that is no text. -/
def NoText : J → Prop
  | .str _ => False
  | _ => True

theorem JsonTextLemmas.document_text (py : Py) (j : J) (h : Document py j) : document py (.str (dumps py j)) = j := by
  rw [document, loads_dumps py j h]; rfl

theorem JsonTextLemmas.document_same (py : Py) (j : J) (h : NoText j) : document py j = j := by
  cases j with
  | str s => exact absurd h id
  | _ => rfl

/-- **C178** (partial: documents that are texts themselves are read once more, `C178_string_violated`).  For every JSON function it makes no
difference whether a document is given as a value or as its text. -/
theorem C178_text_partial (py : Py) (j : J) (h : Document py j) (hn : NoText j) (paths : List Str) (path : Str) (all : Bool) (kvs : List (Str × J))
    (c : J) (hc : Document py c) (hcn : NoText c) :
    jsonExtract py (jsonEncode py j) paths = jsonExtract py j paths ∧
    jsonContainsPath py (jsonEncode py j) all paths = jsonContainsPath py j all paths ∧
    jsonContains py (jsonEncode py j) (jsonEncode py c) path = jsonContains py j c path ∧
    jsonDepth py (jsonEncode py j) = jsonDepth py j ∧ jsonKeys py (jsonEncode py j) path = jsonKeys py j path ∧
    jsonLength py (jsonEncode py j) path = jsonLength py j path ∧ jsonSetOf py (jsonEncode py j) kvs = jsonSetOf py j kvs ∧
    jsonRemoveOf py (jsonEncode py j) paths = jsonRemoveOf py j paths := by
  simp only [jsonEncode, jsonExtract, jsonContainsPath, jsonContains, jsonDepth, jsonKeys, jsonLength, jsonSetOf, jsonRemoveOf,
    document_text py j h, document_text py c hc, document_same py j hn, document_same py c hcn, and_self]

/-- **C178 is violated by documents that are texts**: a text found in a document is read once more when it happens to be JSON: JSON_DEPTH
and JSON_LENGTH of the text `[1, [2, 3]]` (as `JSON_EXTRACT('{"a": "[1, [2, 3]]"}', '$.a')` gives it) are those of the list, where a text
has depth 1. -/
theorem C178_string_violated (py : Py) (j : J) (h : Document py j) (paths : List Str) :
    jsonDepth py (.str (dumps py j)) = depth j ∧ jsonLength py (.str (dumps py j)) [] = length j ∧
    jsonExtract py (.str (dumps py j)) paths = extract j paths := by
  simp only [jsonDepth, jsonLength, jsonExtract, document_text py j h, and_self]

/-- **C178 is violated by JSON_VALID**: of NULL and of numbers it is 1, where the documentation of MySQL says NULL and 0. -/
theorem C178_valid_violated (py : Py) (j : J) (h : NoText j) : jsonValid py j = .int 1 := by
  cases j with
  | str s => exact absurd h id
  | _ => rfl

namespace JsonTextCases

/-- `{"a": [1, -20, "x\"\n"], "b": {}}`. -/
def doc : J := .obj [(['a'], .arr [.int 1, .int (-20), .str ['x', '"', '\n']]), (['b'], .obj [])]

theorem doc_ok (py : Py) : Document py doc := by
  simp [doc, Document, DocumentL, DocumentO]

example : dumps plainPy doc = "{\"a\": [1, -20, \"x\\\"\\n\"], \"b\": {}}".toList := by decide +kernel

example : loads plainPy (dumps plainPy doc) = some doc := loads_dumps plainPy doc (doc_ok plainPy)

/-- Blanks and escapes are read, too; `[1,]` is refused. -/
example : (loads plainPy " [ 1 , \"\\u0041\" ] ".toList).map (dumps plainPy) = some "[1, \"A\"]".toList ∧
    (loads plainPy "[1,]".toList).isSome = false := by decide +kernel

/-- Fractions that are written as they are read. -/
example : FloatOk { plainPy with floatText := fun _ => ['1', '.', '5'] } (3 / 2) where
  first := ⟨'1', ['.', '5'], rfl, .inl (by decide)⟩
  read := by
    intro rest h
    have e : (['1', '.', '5'] : Str) ++ rest = '1' :: '.' :: '5' :: rest := rfl
    have f : Py.float { plainPy with floatText := fun _ => ['1', '.', '5'] } ['1', '.', '5'] = some (3 / 2) := by decide +kernel
    have d : isDigit '5' = true := by decide
    have d1 : isDigit '1' = true := by decide
    have d2 : isDigit '.' = false := by decide
    simp [number, intPart, fracPart, d, d1, d2, digit_stop h, exp_stop h, f]

example : jsonDepth plainPy (jsonExtract plainPy (.str "{\"a\": \"[1, [2]]\"}".toList) ["$.a".toList]) = 3 := by decide +kernel

end JsonTextCases
end Verif.Props
