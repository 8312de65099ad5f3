import Verif.Proofs.Regexp
import Mathlib.Data.Nat.Find
import Mathlib.Data.List.Induction
/-! C72: the regular-expression functions. -/
namespace Verif.Props
open Verif.Val Verif.Regexp Verif.Spec.Regexp Verif.Proofs.Regexp

namespace Rx

/-- The occurrences are determined by text and pattern. -/
theorem occurrences_unique {p : Pattern} {s : Str} {o : Nat} {l l' : List (Nat × Nat)}
    (h : Occurrences p s o l) (h' : Occurrences p s o l') : l = l' := by
  induction h generalizing l' with
  | none hn =>
    cases h' with
    | none _ => rfl
    | next a b _ _ => exact absurd b (hn _ _ a)
  | @next o i n l ho hm hl _ ih =>
    cases h' with
    | none hn => exact absurd hm (hn _ _ ho)
    | @next _ i' n' l' ho' hm' hl' ht' =>
      have : i' = i := by
        rcases Nat.lt_trichotomy i' i with h' | h' | h'
        · exact absurd hm' (hl _ _ ho' h')
        · exact h'
        · exact absurd hm (hl' _ _ ho h')
      subst this
      have : n = n' := by have h1 := hm.2; rw [hm'.2] at h1; simpa using h1.symm
      subst this
      rw [ih ht']

theorem scan_unique {p : Pattern} {s : Str} {o : Nat} {l l' : List (Nat × Nat)} (h : Scan p s o l) (h' : Scan p s o l') : l = l' := by
  have same : ∀ {o i n i' n' : Nat}, o ≤ i → Match p s i n → (∀ j k, o ≤ j → j < i → ¬ Match p s j k) →
      o ≤ i' → Match p s i' n' → (∀ j k, o ≤ j → j < i' → ¬ Match p s j k) → i = i' ∧ n = n' := by
    intro o i n i' n' a b c a' b' c'
    have hi : i = i' := by
      rcases Nat.lt_trichotomy i i' with h | h | h
      · exact absurd b (c' _ _ a h)
      · exact h
      · exact absurd b' (c _ _ a' h)
    subst hi
    have h1 := b.2; rw [b'.2] at h1
    exact ⟨rfl, by simpa using h1.symm⟩
  induction h generalizing l' with
  | none hn =>
    cases h' with
    | none _ => rfl
    | next h1 _ h2 _ _ => exact absurd h2 (hn _ _ h1)
    | empty h1 h2 _ _ => exact absurd h2 (hn _ _ h1)
  | next h1 h0 h2 h3 _ ih =>
    cases h' with
    | none hn => exact absurd h2 (hn _ _ h1)
    | next k1 _ k2 k3 k4 =>
      obtain ⟨rfl, rfl⟩ := same h1 h2 h3 k1 k2 k3
      rw [ih k4]
    | empty k1 k2 k3 k4 =>
      obtain ⟨rfl, rfl⟩ := same h1 h2 h3 k1 k2 k3
      omega
  | empty h1 h2 h3 _ ih =>
    cases h' with
    | none hn => exact absurd h2 (hn _ _ h1)
    | next k1 k0 k2 k3 k4 =>
      obtain ⟨rfl, rfl⟩ := same h1 h2 h3 k1 k2 k3
      omega
    | empty k1 k2 k3 k4 =>
      obtain ⟨rfl, _⟩ := same h1 h2 h3 k1 k2 k3
      rw [ih k4]

theorem scan_exists {p : Pattern} (sd : Sound p) (s : Str) : ∀ o, ∃ l, Scan p s o l := by
  have main : ∀ d o, s.length + 1 - o < d → ∃ l, Scan p s o l := by
    intro d
    induction d with
    | zero => intro o h; omega
    | succ d ih =>
      intro o h
      by_cases hex : ∃ i, o ≤ i ∧ ∃ n, Match p s i n
      · classical
        obtain ⟨h1, n, h2⟩ := Nat.find_spec hex
        have h3 : ∀ j k, o ≤ j → j < Nat.find hex → ¬ Match p s j k := by
          intro j k hj hji hm
          exact Nat.find_min hex hji ⟨hj, k, hm⟩
        have hin := sd _ _ _ h2.2
        have hi := h2.1
        rw [List.length_drop] at hin
        rcases Nat.eq_zero_or_pos n with rfl | h0
        · obtain ⟨l, hl⟩ := ih (Nat.find hex + 1) (by omega)
          exact ⟨_, .empty h1 h2 h3 hl⟩
        · obtain ⟨l, hl⟩ := ih (Nat.find hex + n) (by omega)
          exact ⟨_, .next h1 h0 h2 h3 hl⟩
      · refine ⟨[], .none ?_⟩
        intro i n hi hm
        exact hex ⟨i, hi, n, hm⟩
  intro o
  exact main _ o (Nat.lt_succ_self _)

/-- A pattern without empty matches has a list of occurrences in every text. -/
theorem occurrences_exist {p : Pattern} (sd : Sound p) (ne : NonEmpty p) (s : Str) :
    ∀ o, ∃ l, Occurrences p s o l := by
  have main : ∀ d o, s.length - o < d → ∃ l, Occurrences p s o l := by
    intro d
    induction d with
    | zero => intro o h; omega
    | succ d ih =>
      intro o h
      by_cases hex : ∃ i, o ≤ i ∧ ∃ n, Match p s i n
      · classical
        let i := Nat.find hex
        obtain ⟨h1, n, h2⟩ := Nat.find_spec hex
        have h3 : ∀ j k, o ≤ j → j < i → ¬ Match p s j k := by
          intro j k hj hji hm
          exact Nat.find_min hex hji ⟨hj, k, hm⟩
        have hn : n ≠ 0 := by
          rintro rfl; exact ne _ _ h2.2
        have hin := sd _ _ _ h2.2
        have hi := h2.1
        rw [List.length_drop] at hin
        obtain ⟨l, hl⟩ := ih (i + n) (by show s.length - (Nat.find hex + n) < d; omega)
        exact ⟨_, .next h1 h2 h3 hl⟩
      · refine ⟨[], .none ?_⟩
        intro i n hi hm
        exact hex ⟨i, hi, n, hm⟩
  intro o
  exact main _ o (Nat.lt_succ_self _)

/-- The occurrences from a place on are those of the rest of the text. -/
theorem occurrences_shift {p : Pattern} (cf : ContextFree p) {s : Str} {o j : Nat} {l : List (Nat × Nat)} (ho : o ≤ s.length)
    (h : Occurrences p s (o + j) l) {rs : Str} :
    Occurrences p (s.drop o) j (l.map fun m => (m.1 - o, m.2)) ∧
    replaced (s.drop o) rs j (l.map fun m => (m.1 - o, m.2)) = replaced s rs (o + j) l := by
  generalize hx : o + j = x at h
  induction h generalizing j with
  | none hn =>
    subst hx
    refine ⟨.none ?_, by simp [replaced]⟩
    intro i n hi hm
    exact hn _ _ (by omega) ((match_drop cf s o i n ho).1 hm)
  | @next x i n l hxi hm hl _ ih =>
    subst hx
    obtain ⟨h1, h2⟩ := ih (j := i - o + n) (by omega)
    refine ⟨.next (by omega) ?_ ?_ h1, ?_⟩
    · rw [match_drop cf s o _ _ ho, show o + (i - o) = i by omega]; exact hm
    · intro k m hk hki hm'
      rw [match_drop cf s o _ _ ho] at hm'
      exact hl _ _ (by omega) (by omega) hm'
    · simp only [List.map_cons, replaced, h2, List.drop_drop]
      congr 3
      omega

/-- The pattern of a single character. -/
def charPattern (c : Char) : Pattern :=
  ⟨fun _ r => match r with | x :: _ => if x = c then some 1 else none | [] => none, fun rs _ _ => some rs⟩

/-- `^c`. -/
def startPattern (c : Char) : Pattern :=
  ⟨fun b r => if b = [] then (charPattern c).at_ b r else none, fun rs _ _ => some rs⟩

/-- The empty pattern. -/
def emptyPattern : Pattern := ⟨fun _ _ => some 0, fun rs _ _ => some rs⟩

theorem char_sound (c : Char) : Sound (charPattern c) := by
  intro b r n h
  unfold charPattern at h
  cases r with
  | nil => simp at h
  | cons x t => simp at h; obtain ⟨_, rfl⟩ := h; simp

theorem char_nonEmpty (c : Char) : NonEmpty (charPattern c) := by
  intro b r h
  unfold charPattern at h
  cases r with
  | nil => simp at h
  | cons x t => simp at h

theorem char_contextFree (c : Char) : ContextFree (charPattern c) := fun _ _ => rfl

end Rx

/-- C72, missing: patterns that look back and patterns with empty matches (see the violations).  `REGEXP_INSTR` gives the place of
the wanted occurrence, or the place behind it, counted in the whole text, and 0 when there are not so many occurrences. -/
theorem C72_instr_partial (E : Engine) (s r : Str) (mt : Option Str) (p : Pattern) (hp : E r (parseFlags mt) = some p)
    (cf : ContextFree p) (sd : Sound p) (ne : NonEmpty p) (o k : Nat) (l : List (Nat × Nat)) (hl : Occurrences p s o l) :
    (∀ i n, l[k]? = some (i, n) →
      instr E (some s) (some r) (o + 1) (k + 1) false mt = some ((i : Int) + 1) ∧
      instr E (some s) (some r) (o + 1) (k + 1) true mt = some (((i + n : Nat) : Int) + 1)) ∧
    (l[k]? = none → ∀ ret, instr E (some s) (some r) (o + 1) (k + 1) ret mt = some 0) := by
  obtain ⟨h1, h2⟩ := loop_occurrences cf sd ne s k o l hl
  have hk : ((k : Int) + 1 - 1).toNat = k := by omega
  refine ⟨?_, ?_⟩
  · intro i n hk'
    obtain ⟨o', a, e1, e2, e3, _⟩ := h2 i n hk'
    simp only [instr, hp, hk, from_nat, e1]
    constructor
    · simp; omega
    · simp; omega
  · intro hk' ret
    simp only [instr, hp, hk, from_nat, h1 hk']

/-- C72, missing: as above.  `REGEXP_SUBSTR` gives the text of the wanted occurrence, NULL when there are not so many. -/
theorem C72_substr_partial (E : Engine) (s r : Str) (mt : Option Str) (p : Pattern) (hp : E r (parseFlags mt) = some p)
    (cf : ContextFree p) (sd : Sound p) (ne : NonEmpty p) (o k : Nat) (l : List (Nat × Nat)) (hl : Occurrences p s o l) :
    substr E (some s) (some r) (o + 1) (k + 1) mt = (l[k]?).map fun m => (s.drop m.1).take m.2 := by
  obtain ⟨h1, h2⟩ := loop_occurrences cf sd ne s k o l hl
  have hk : ((k : Int) + 1 - 1).toNat = k := by omega
  cases hk' : l[k]? with
  | none => simp only [substr, hp, hk, from_nat, h1 hk', Option.map_none]
  | some m =>
    obtain ⟨i, n⟩ := m
    obtain ⟨o', a, e1, e2, e3, _⟩ := h2 i n hk'
    simp only [substr, hp, hk, from_nat, e1, Option.map_some]
    rw [slice_mid _ _ _ (by simp; omega), List.drop_drop, e2]

/-- C72, missing: as above.  `REGEXP_REPLACE` with an occurrence replaces that occurrence and nothing else; when there are not so
many the text is unchanged. -/
theorem C72_replace_one_partial (E : Engine) (s r rs : Str) (mt : Option Str) (p : Pattern) (hp : E r (parseFlags mt) = some p)
    (cf : ContextFree p) (sd : Sound p) (ne : NonEmpty p) (o k : Nat) (l : List (Nat × Nat)) (hl : Occurrences p s o l) :
    (∀ i n, l[k]? = some (i, n) →
      replace E (some s) (some r) (some rs) (o + 1) (k + 1) mt = some (s.take i ++ rs ++ s.drop (i + n))) ∧
    (l[k]? = none → replace E (some s) (some r) (some rs) (o + 1) (k + 1) mt = some s) := by
  obtain ⟨h1, h2⟩ := loop_occurrences cf sd ne s k o l hl
  have hk : ((k : Int) + 1 - 1).toNat = k := by omega
  have hpos : ¬ ((k : Int) + 1 ≤ 0) := by omega
  refine ⟨?_, ?_⟩
  · intro i n hk'
    obtain ⟨o', a, e1, e2, e3, _⟩ := h2 i n hk'
    simp only [replace, hp, hk, from_nat, e1, hpos, if_false]
    have ea : (o' : Int) + 1 + a - 1 = (i : Nat) := by omega
    have eb : (o' : Int) + 1 + ((a + n : Nat) : Int) - 1 = ((i + n : Nat) : Int) := by omega
    rw [ea, eb, slice_to _ _ (by omega), slice_from]
  · intro hk'
    simp only [replace, hp, hk, from_nat, h1 hk', hpos, if_false]

/-- C72, missing: a starting position behind 1 (see `C72_prefix_dropped_violated`).
`REGEXP_REPLACE` without an occurrence replaces every occurrence by a replacement text that is not a template; patterns may look
back and have empty matches here. -/
theorem C72_replace_all_partial (E : Engine) (s r rs : Str) (mt : Option Str) (p : Pattern) (hp : E r (parseFlags mt) = some p)
    (sd : Sound p) (pl : Plain p rs) (l : List (Nat × Nat)) (hl : Scan p s 0 l) :
    replace E (some s) (some r) (some rs) 1 0 mt = some (replaced s rs 0 l) := by
  have := sub_scan sd pl s hl (Nat.zero_le _)
  have h0 : from_ s 1 = s.drop 0 := from_nat s 0
  simp only [replace, hp, h0]
  simpa using this

/-- There is always exactly one list of matches to replace; without empty matches it is the list of occurrences. -/
theorem C72_scan (p : Pattern) (sd : Sound p) (s : Str) (o : Nat) :
    (∃ l, Scan p s o l ∧ ∀ l', Scan p s o l' → l' = l) ∧
    (NonEmpty p → ∀ l, Scan p s o l ↔ Occurrences p s o l) := by
  constructor
  · obtain ⟨l, hl⟩ := Rx.scan_exists sd s o
    exact ⟨l, hl, fun l' h' => Rx.scan_unique h' hl⟩
  · intro ne l
    constructor
    · intro h
      induction h with
      | none h => exact .none h
      | next h1 _ h2 h3 _ ih => exact .next h1 h2 h3 ih
      | empty _ h2 _ _ _ => exact absurd h2.2 (ne _ _)
    · intro h
      induction h with
      | none h => exact .none h
      | @next _ _ n _ h1 h2 h3 _ ih =>
        refine .next h1 ?_ h2 h3 ih
        rcases Nat.eq_zero_or_pos n with rfl | h0
        · exact absurd h2.2 (ne _ _)
        · exact h0

/-- Every text and every pattern without empty matches has occurrences, so the theorems above always apply; and only one list of
them. -/
theorem C72_occurrences (p : Pattern) (sd : Sound p) (ne : NonEmpty p) (s : Str) (o : Nat) :
    ∃ l, Occurrences p s o l ∧ ∀ l', Occurrences p s o l' → l' = l := by
  obtain ⟨l, hl⟩ := Rx.occurrences_exist sd ne s o
  exact ⟨l, hl, fun l' h' => Rx.occurrences_unique h' hl⟩

/-- The first occurrence from the beginning of a text is right for every pattern, also for one that looks back or has empty
matches. -/
theorem C72_first (E : Engine) (s r : Str) (mt : Option Str) (p : Pattern) (hp : E r (parseFlags mt) = some p) (sd : Sound p)
    (hs : s ≠ []) (i n : Nat) (hm : Match p s i n) (hf : ∀ j k, j < i → ¬ Match p s j k) (rs : Str) :
    instr E (some s) (some r) 1 1 false mt = some ((i : Int) + 1) ∧
    instr E (some s) (some r) 1 1 true mt = some (((i + n : Nat) : Int) + 1) ∧
    substr E (some s) (some r) 1 1 mt = some ((s.drop i).take n) ∧
    replace E (some s) (some r) (some rs) 1 1 mt = some (s.take i ++ rs ++ s.drop (i + n)) := by
  have hs' := search_of hm hf
  have h0 : from_ s 1 = s := by simpa using from_nat s 0
  have hin : i + n ≤ s.length := by
    have := sd _ _ _ hm.2
    have h2 := hm.1
    simp at this; omega
  have hl : loop p ((1 : Int) - 1).toNat s 1 = some (1, i, i + n, s) := by
    rw [loop]
    simp [hs, hs']
  refine ⟨?_, ?_, ?_, ?_⟩
  · simp only [instr, hp, h0, hl]; simp; omega
  · simp only [instr, hp, h0, hl]; simp; omega
  · simp only [substr, hp, h0, hl]
    rw [slice_mid _ _ _ hin]
  · simp only [replace, hp, h0, hl]
    have e : ¬ ((1 : Int) ≤ 0) := by omega
    simp only [e, if_false]
    have ea : (1 : Int) + i - 1 = (i : Nat) := by omega
    have eb : (1 : Int) + ((i + n : Nat) : Int) - 1 = ((i + n : Nat) : Int) := by omega
    rw [ea, eb, slice_to _ _ (by omega), slice_from]

/-- Without any match the functions give 0, NULL and the unchanged text, for every pattern. -/
theorem C72_no_match (E : Engine) (s r : Str) (mt : Option Str) (p : Pattern) (hp : E r (parseFlags mt) = some p)
    (hn : ∀ i n, ¬ Match p s i n) (k : Nat) (ret : Bool) (rs : Str) :
    instr E (some s) (some r) 1 (k + 1) ret mt = some 0 ∧
    substr E (some s) (some r) 1 (k + 1) mt = none ∧
    replace E (some s) (some r) (some rs) 1 (k + 1) mt = some s := by
  have h0 : from_ s 1 = s := by simpa using from_nat s 0
  have hs : search p s = none := by
    cases hs : search p s with
    | none => rfl
    | some ab =>
      obtain ⟨a, b⟩ := ab
      obtain ⟨n, _, hm, _⟩ := search_some hs
      exact absurd hm (hn _ _)
  have hl : ∀ k, loop p k s 1 = none := by
    intro k
    cases k <;> (rw [loop]; simp [hs])
  have e : ¬ ((k : Int) + 1 ≤ 0) := by omega
  simp only [instr, substr, replace, hp, h0, hl, e, if_false, and_self]

/-- The three functions agree with each other for every pattern, position and occurrence: when `REGEXP_SUBSTR` gives a text, it is
what stands in the subject between the places `REGEXP_INSTR` gives, and `REGEXP_REPLACE` replaces exactly that; otherwise
`REGEXP_INSTR` gives 0 and `REGEXP_REPLACE` the subject. -/
theorem C72_agree (E : Engine) (s r : Str) (mt : Option Str) (p : Pattern) (hp : E r (parseFlags mt) = some p) (sd : Sound p)
    (o k : Nat) (rs : Str) :
    (∃ i n : Nat, o ≤ i ∧ i + n ≤ s.length ∧
      substr E (some s) (some r) (o + 1) (k + 1) mt = some ((s.drop i).take n) ∧
      instr E (some s) (some r) (o + 1) (k + 1) false mt = some ((i : Int) + 1) ∧
      instr E (some s) (some r) (o + 1) (k + 1) true mt = some (((i + n : Nat) : Int) + 1) ∧
      replace E (some s) (some r) (some rs) (o + 1) (k + 1) mt = some (s.take i ++ rs ++ s.drop (i + n))) ∨
    (substr E (some s) (some r) (o + 1) (k + 1) mt = none ∧
      (∀ ret, instr E (some s) (some r) (o + 1) (k + 1) ret mt = some 0) ∧
      replace E (some s) (some r) (some rs) (o + 1) (k + 1) mt = some s) := by
  have hk : ((k : Int) + 1 - 1).toNat = k := by omega
  have hpos : ¬ ((k : Int) + 1 ≤ 0) := by omega
  cases hl : loop p k (s.drop o) ((o : Int) + 1) with
  | none =>
    right
    simp only [instr, substr, replace, hp, hk, from_nat, hl, hpos, if_false]
    simp
  | some res =>
    left
    obtain ⟨o', a, n, rfl, e2, e3, _⟩ := loop_inside sd s k o res hl
    refine ⟨o' + a, n, by omega, by omega, ?_, ?_, ?_, ?_⟩
    · simp only [substr, hp, hk, from_nat, hl]
      rw [slice_mid _ _ _ (by simp; omega), List.drop_drop]
    · simp only [instr, hp, hk, from_nat, hl]; simp; omega
    · simp only [instr, hp, hk, from_nat, hl]; simp; omega
    · simp only [replace, hp, hk, from_nat, hl, hpos, if_false]
      have ea : (o' : Int) + 1 + a - 1 = ((o' + a : Nat) : Int) := by omega
      have eb : (o' : Int) + 1 + ((a + n : Nat) : Int) - 1 = ((o' + a + n : Nat) : Int) := by omega
      rw [ea, eb, slice_to _ _ (by omega), slice_from]

/-- NULL in, NULL out. -/
theorem C72_null (E : Engine) (s r rs mt : Option Str) (pos occ : Int) (ret : Bool) (h : s = none ∨ r = none) :
    like E s r mt = none ∧ instr E s r pos occ ret mt = none ∧ substr E s r pos occ mt = none ∧
    replace E s r rs pos occ mt = none ∧ (∀ s r, replace E s r none pos occ mt = none) := by
  refine ⟨?_, ?_, ?_, ?_, ?_⟩
  · rcases h with rfl | rfl
    · cases r <;> simp [like]
    · simp [like]
  · rcases h with rfl | rfl
    · cases r <;> simp [instr]
    · simp [instr]
  · rcases h with rfl | rfl
    · cases r <;> simp [substr]
    · simp [substr]
  · rcases h with rfl | rfl
    · cases r <;> simp [replace]
    · simp [replace]
  · intro s r; cases s <;> cases r <;> simp [replace]

/-- A pattern that is not a regular expression does not stop the query: it matches nothing, and `REGEXP_SUBSTR` and
`REGEXP_REPLACE` give NULL. -/
theorem C72_invalid (E : Engine) (s r rs : Str) (mt : Option Str) (h : E r (parseFlags mt) = none) (pos occ : Int) (ret : Bool) :
    like E (some s) (some r) mt = some 0 ∧ instr E (some s) (some r) pos occ ret mt = some 0 ∧
    substr E (some s) (some r) pos occ mt = none ∧ replace E (some s) (some r) (some rs) pos occ mt = none := by
  simp [like, instr, substr, replace, h]

/-- `REGEXP` tells whether the text *begins* with a match. -/
theorem C72_like_partial (E : Engine) (s r : Str) (mt : Option Str) (p : Pattern) (hp : E r (parseFlags mt) = some p) :
    (like E (some s) (some r) mt = some 1 ↔ ∃ n, Match p s 0 n) ∧
    (like E (some s) (some r) mt = some 0 ↔ ¬ ∃ n, Match p s 0 n) := by
  unfold Match
  simp only [like, hp]
  cases h : p.at_ [] s <;> simp [h]

/-- Violation: SQL's `REGEXP` is true when the text *contains* a match; here the answer is wrong for exactly the texts that contain
one but do not begin with one. -/
theorem C72_contains_violated (E : Engine) (s r : Str) (mt : Option Str) (p : Pattern) (hp : E r (parseFlags mt) = some p) :
    ((like E (some s) (some r) mt = some 1 ↔ ∃ i n, Match p s i n) ↔
      ((∃ i n, Match p s i n) → ∃ n, Match p s 0 n)) ∧
    ∃ (E' : Engine), like E' (some "ab".toList) (some "b".toList) none = some 0 ∧
      (∃ p', E' "b".toList (parseFlags none) = some p' ∧ Match p' "ab".toList 1 1) := by
  refine ⟨?_, fun _ _ => some (Rx.charPattern 'b'), by decide +kernel, _, rfl, by decide +kernel, by decide +kernel⟩
  rw [(C72_like_partial E s r mt p hp).1]
  constructor
  · intro h; exact h.2
  · intro h
    exact ⟨fun ⟨n, hn⟩ => ⟨0, n, hn⟩, h⟩

/-- Violation: `REGEXP_REPLACE` of all occurrences from a position on loses the text before that position: what it gives is what it
gives for the rest of the text alone. -/
theorem C72_prefix_dropped_violated (E : Engine) (s r rs : Str) (mt : Option Str) (o : Nat) :
    replace E (some s) (some r) (some rs) (o + 1) 0 mt = replace E (some (s.drop o)) (some r) (some rs) 1 0 mt := by
  have h0 : from_ (s.drop o) 1 = s.drop o := by simpa using from_nat (s.drop o) 0
  simp only [replace, from_nat, h0]
  cases E r (parseFlags mt) <;> simp

/-- Violation: so for every position inside the text the answer is never what SQL says, the text up to the position followed by the
rest with its occurrences replaced. -/
theorem C72_replace_from_violated (E : Engine) (s r rs : Str) (mt : Option Str) (p : Pattern) (hp : E r (parseFlags mt) = some p)
    (cf : ContextFree p) (sd : Sound p) (ne : NonEmpty p) (pl : Plain p rs) (o : Nat) (h0 : 0 < o) (ho : o ≤ s.length)
    (l : List (Nat × Nat)) (hl : Occurrences p s o l) :
    replace E (some s) (some r) (some rs) (o + 1) 0 mt = some (replaced s rs o l) ∧
    replace E (some s) (some r) (some rs) (o + 1) 0 mt ≠ some (s.take o ++ replaced s rs o l) := by
  have shift := Rx.occurrences_shift cf (o := o) (j := 0) (rs := rs) ho (by simpa using hl)
  have main : replace E (some s) (some r) (some rs) (o + 1) 0 mt = some (replaced s rs o l) := by
    rw [C72_prefix_dropped_violated, C72_replace_all_partial E _ r rs mt p hp sd pl _ (((C72_scan p sd _ _).2 ne _).2 shift.1), shift.2]
    simp
  refine ⟨main, ?_⟩
  rw [main]
  intro h
  simp at h
  rcases h with h | h
  · omega
  · subst h; simp at ho; omega

/-- Violation: `^` matches again at every place where the search goes on, so a second occurrence is found where SQL has none, and a
search from a position on finds one there. -/
theorem C72_anchor_violated :
    ∃ (E : Engine) (p : Pattern), E "^a".toList (parseFlags none) = some p ∧
      Occurrences p "aa".toList 0 [(0, 1)] ∧
      substr E (some "aa".toList) (some "^a".toList) 1 2 none = some "a".toList ∧
      Occurrences p "aa".toList 1 [] ∧
      instr E (some "aa".toList) (some "^a".toList) 2 1 false none = some 2 := by
  have key : ∀ i n, 1 ≤ i → ¬ Match (Rx.startPattern 'a') "aa".toList i n := by
    intro i n hi hm
    have h1 := hm.2
    unfold Rx.startPattern at h1
    have : "aa".toList.take i ≠ [] := by
      intro h
      simp at h
      omega
    simp only [this, if_false] at h1
    exact absurd h1 (by simp)
  refine ⟨fun _ _ => some (Rx.startPattern 'a'), Rx.startPattern 'a', rfl, ?_, by decide +kernel, ?_, by decide +kernel⟩
  · exact .next (Nat.zero_le _) ⟨by decide +kernel, by decide +kernel⟩ (fun j k _ hj => by omega) (.none fun i n hi => key i n hi)
  · exact .none key

/-- Violation: an empty match is found again and again at the same place: every occurrence is the first one. -/
theorem C72_empty_match_violated (E : Engine) (s r : Str) (mt : Option Str) (p : Pattern) (hp : E r (parseFlags mt) = some p)
    (hs : s ≠ []) (h0 : p.at_ [] s = some 0) (k : Nat) :
    instr E (some s) (some r) 1 (k + 1) false mt = some 1 := by
  have hf : from_ s 1 = s := by simpa using from_nat s 0
  have hsr : search p s = some (0, 0) :=
    search_of (a := 0) (n := 0) ⟨Nat.zero_le _, by simpa using h0⟩ (fun j k hj => absurd hj (Nat.not_lt_zero _))
  have hl : ∀ k, loop p k s 1 = some (1, 0, 0, s) := by
    intro k
    induction k with
    | zero => rw [loop]; simp [hs, hsr]
    | succ k ih => rw [loop]; simp [hs, hsr, ih]
  simp only [instr, hp, hf, hl]
  simp

/-- The letters of the match type: case matters when the last of the letters `c` and `i` is `c`, and not otherwise; `m`, `n` and `u`
switch their flags on wherever they are; upper case is the same. -/
theorem C72_flags (s : Str) (hs : s ≠ []) (hd : ¬ s.all Char.isDigit) :
    let l := s.map Char.toLower
    let f := parseFlags (some s)
    (f.testBit 1 = true ↔ (l.filter fun c => c = 'c' ∨ c = 'i').getLast? ≠ some 'c') ∧
    (f.testBit 3 = true ↔ 'm' ∈ l) ∧ (f.testBit 4 = true ↔ 'n' ∈ l) ∧ (f.testBit 5 = true ↔ 'u' ∈ l) := by
  have hf : parseFlags (some s) = (s.map Char.toLower).foldl flagStep IGNORECASE := by
    simp [parseFlags, hs, hd]
  simp only [hf]
  generalize s.map Char.toLower = l
  induction l using List.reverseRecOn with
  | nil => decide +kernel
  | append_singleton l c ih =>
    obtain ⟨h1, h3, h4, h5⟩ := ih
    rw [List.foldl_append]
    simp only [List.foldl_cons, List.foldl_nil, List.filter_append]
    generalize l.foldl flagStep IGNORECASE = f at *
    unfold flagStep IGNORECASE MULTILINE DOTALL UNICODE
    have t2 : ∀ i, Nat.testBit 2 i = decide (i = 1) := fun i => by
      have := @Nat.testBit_two_pow 1 i; simpa [eq_comm] using this
    have t8 : ∀ i, Nat.testBit 8 i = decide (i = 3) := fun i => by
      have := @Nat.testBit_two_pow 3 i; simpa [eq_comm] using this
    have t16 : ∀ i, Nat.testBit 16 i = decide (i = 4) := fun i => by
      have := @Nat.testBit_two_pow 4 i; simpa [eq_comm] using this
    have t32 : ∀ i, Nat.testBit 32 i = decide (i = 5) := fun i => by
      have := @Nat.testBit_two_pow 5 i; simpa [eq_comm] using this
    by_cases hc : c = 'c'
    · subst hc
      simp [Nat.testBit_xor, Nat.testBit_and, t2, h3, h4, h5]
    by_cases hi : c = 'i'
    · subst hi
      simp [Nat.testBit_or, t2, h3, h4, h5]
    by_cases hm : c = 'm'
    · subst hm
      simp [Nat.testBit_or, t8, h1, h3, h4, h5]
    by_cases hn : c = 'n'
    · subst hn
      simp [Nat.testBit_or, t16, h1, h3, h4, h5]
    by_cases hu : c = 'u'
    · subst hu
      simp [Nat.testBit_or, t32, h1, h3, h4, h5]
    · simp [hc, hi, hm, hn, hu, h1, h3, h4, h5, Ne.symm hm, Ne.symm hn, Ne.symm hu]

/-- Without a match type, case is ignored. -/
theorem C72_default_flags : parseFlags none = IGNORECASE ∧ parseFlags (some []) = IGNORECASE := by decide +kernel

/-- A match type of digits is taken as Python's flags: the text of the number `n` sets the bits of `n`, and case is ignored whatever
they say. -/
theorem C72_digit_flags (n : Nat) (k : Nat) :
    (parseFlags (some (Nat.toDigits 10 n))).testBit k = (n.testBit k || k == 1) := by
  have hne : Nat.toDigits 10 n ≠ [] := by
    intro h
    have := Nat.length_toDigits_pos (b := 10) (n := n)
    rw [h] at this
    simp at this
  have hd : (Nat.toDigits 10 n).all Char.isDigit = true := by
    rw [List.all_eq_true]
    intro c hc
    exact Nat.isDigit_of_mem_toDigits (by decide) (by decide) hc
  rw [parseFlags, if_neg hne, if_pos hd, Nat.testBit_or, digits_toDigits]
  congr 1
  rcases Nat.eq_zero_or_pos k with rfl | h0
  · decide +kernel
  · rcases k with _ | _ | k
    · omega
    · decide +kernel
    · have : IGNORECASE < 2 ^ (k + 1 + 1) := by
        have : 1 < 2 ^ (k + 1) := Nat.one_lt_two_pow (by omega)
        show 2 < _
        rw [Nat.pow_succ]; omega
      rw [Nat.testBit_lt_two_pow this]
      simp

/-- The hypotheses are met: the pattern `a` in `banana`, from the third place on. -/
example : Occurrences (Rx.charPattern 'a') "banana".toList 2 [(3, 1), (5, 1)] ∧
    instr (fun _ _ => some (Rx.charPattern 'a')) (some "banana".toList) (some "a".toList) 3 2 false none = some 6 ∧
    replace (fun _ _ => some (Rx.charPattern 'a')) (some "banana".toList) (some "a".toList) (some "xy".toList) 3 2 none
      = some "bananxy".toList ∧
    replace (fun _ _ => some (Rx.charPattern 'a')) (some "banana".toList) (some "a".toList) (some "xy".toList) 1 0 none
      = some "bxynxynxy".toList ∧
    replaced "banana".toList "xy".toList 0 [(1, 1), (3, 1), (5, 1)] = "bxynxynxy".toList := by
  refine ⟨?_, by decide +kernel, by decide +kernel, by decide +kernel, by decide +kernel⟩
  refine .next (by omega) ⟨by decide +kernel, by decide +kernel⟩ ?_ (.next (by omega) ⟨by decide +kernel, by decide +kernel⟩ ?_ (.none ?_))
  · intro j k h1 h2
    have : j = 2 := by omega
    subst this
    rintro ⟨_, h⟩
    simp [Rx.charPattern] at h
  · intro j k h1 h2
    have : j = 4 := by omega
    subst this
    rintro ⟨_, h⟩
    simp [Rx.charPattern] at h
  · intro i n hi ⟨h1, h2⟩
    have : i = 6 := by simp at h1; omega
    subst this
    simp [Rx.charPattern] at h2

/-- A pattern with empty matches: `b*` in `abba` gives an empty match, the two letters, and two more empty matches. -/
example : replace (fun _ _ => some ⟨fun _ r => some (r.takeWhile (· = 'b')).length, fun rs _ _ => some rs⟩) (some "abba".toList)
    (some "b*".toList) (some "-".toList) 1 0 none = some "-a--a-".toList := by decide +kernel

end Verif.Props
