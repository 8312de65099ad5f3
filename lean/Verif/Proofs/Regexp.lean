import Verif.Spec.Regexp
/-! Lemmas about the regular-expression functions. -/
namespace Verif.Proofs.Regexp
open Verif.Val Verif.Regexp Verif.Spec.Regexp

theorem search_none {p : Pattern} {cs : Str} :
    search p cs = none ↔ ∀ i, i ≤ cs.length → p.at_ (cs.take i) (cs.drop i) = none := by
  unfold search
  rw [List.findSome?_eq_none_iff]
  constructor
  · intro h i hi
    have := h i (by simp; omega)
    simpa using this
  · intro h i hi
    have := h i (by simp at hi; omega)
    simp [this]

theorem findSome_range {β : Type} (f : Nat → Option β) (N : Nat) (b : β) :
    (List.range N).findSome? f = some b → ∃ i, i < N ∧ f i = some b ∧ ∀ j, j < i → f j = none := by
  induction N with
  | zero => simp
  | succ N ih =>
    rw [List.range_succ, List.findSome?_append]
    cases hf : (List.range N).findSome? f with
    | some c =>
      intro h
      simp at h
      subst h
      obtain ⟨i, hi, h1, h2⟩ := ih hf
      exact ⟨i, by omega, h1, h2⟩
    | none =>
      intro h
      simp at h
      rw [List.findSome?_eq_none_iff] at hf
      exact ⟨N, by omega, h, fun j hj => hf j (by simpa using hj)⟩

theorem search_some {p : Pattern} {cs : Str} {a b : Nat} (h : search p cs = some (a, b)) :
    ∃ n, b = a + n ∧ Match p cs a n ∧ ∀ j k, j < a → ¬ Match p cs j k := by
  obtain ⟨i, hi, h1, h2⟩ := findSome_range _ _ _ h
  cases hm : p.at_ (cs.take i) (cs.drop i) with
  | none => simp [hm] at h1
  | some n =>
    simp [hm] at h1
    obtain ⟨rfl, rfl⟩ := h1
    refine ⟨n, rfl, ⟨by omega, hm⟩, ?_⟩
    intro j k hj hk
    have := h2 j hj
    simp [hk.2] at this

theorem search_of {p : Pattern} {cs : Str} {a n : Nat} (h : Match p cs a n)
    (hl : ∀ j k, j < a → ¬ Match p cs j k) : search p cs = some (a, a + n) := by
  cases hs : search p cs with
  | none => rw [search_none] at hs; have := hs a h.1; simp [h.2] at this
  | some ab =>
    obtain ⟨a', b'⟩ := ab
    obtain ⟨m, rfl, hm, hl'⟩ := search_some hs
    have : a' = a := by
      rcases Nat.lt_trichotomy a' a with h' | h' | h'
      · exact absurd hm (hl _ _ h')
      · exact h'
      · exact absurd h (hl' _ _ h')
    subst this
    have : m = n := by have h1 := hm.2; rw [h.2] at h1; simpa using h1.symm
    subst this; rfl

/-- For a pattern that does not look back, the matches of a part are those of the whole. -/
theorem match_drop {p : Pattern} (cf : ContextFree p) (s : Str) (o i n : Nat) (ho : o ≤ s.length) :
    Match p (s.drop o) i n ↔ Match p s (o + i) n := by
  unfold Match
  rw [cf ((s.drop o).take i), cf (s.take (o + i)), List.drop_drop, List.length_drop]
  constructor
  · rintro ⟨h1, h2⟩; exact ⟨by omega, h2⟩
  · rintro ⟨h1, h2⟩; exact ⟨by omega, h2⟩

theorem loop_occurrences {p : Pattern} (cf : ContextFree p) (sd : Sound p) (ne : NonEmpty p) (s : Str) :
    ∀ (k o : Nat) (l : List (Nat × Nat)), Occurrences p s o l →
      (l[k]? = none → loop p k (s.drop o) ((o : Int) + 1) = none) ∧
      (∀ i n, l[k]? = some (i, n) → ∃ o' a : Nat,
        loop p k (s.drop o) ((o : Int) + 1) = some ((o' : Int) + 1, a, a + n, s.drop o') ∧ o' + a = i ∧ i + n ≤ s.length ∧ o ≤ i) := by
  intro k
  induction k with
  | zero =>
    intro o l h
    cases h with
    | none hn =>
      refine ⟨fun _ => ?_, by simp⟩
      unfold loop
      by_cases hc : s.drop o = []
      · simp [hc]
      · have ho : o ≤ s.length := by
          apply Nat.le_of_lt; apply Nat.lt_of_not_le; intro h'; exact hc (List.drop_eq_nil_of_le h')
        have : search p (s.drop o) = none := by
          cases hs : search p (s.drop o) with
          | none => rfl
          | some ab =>
            obtain ⟨a, b⟩ := ab
            obtain ⟨n, _, hm, _⟩ := search_some hs
            exact absurd ((match_drop cf s o a n ho).1 hm) (hn _ _ (by omega))
        simp [hc, this]
    | @next _ i n l ho' hm hl ht =>
      refine ⟨by simp, ?_⟩
      intro i' n' he
      simp at he
      obtain ⟨rfl, rfl⟩ := he
      have hin : i + n ≤ s.length := by
        have := sd _ _ _ hm.2
        have h2 := hm.1
        simp at this; omega
      have hpos : 0 < n := by
        rcases Nat.eq_zero_or_pos n with h0 | h0
        · subst h0; exact absurd hm.2 (ne _ _)
        · exact h0
      have hc : s.drop o ≠ [] := by simp; omega
      have hs : search p (s.drop o) = some (i - o, (i - o) + n) := by
        apply search_of
        · rw [match_drop cf s o _ _ (by omega)]
          have : o + (i - o) = i := by omega
          rw [this]; exact hm
        · intro j k hj hk
          rw [match_drop cf s o _ _ (by omega)] at hk
          exact hl (o + j) k (by omega) (by omega) hk
      refine ⟨o, i - o, ?_, by omega, hin, ho'⟩
      unfold loop
      simp only [hc, if_false, hs]
  | succ k ih =>
    intro o l h
    cases h with
    | none hn =>
      refine ⟨fun _ => ?_, by simp⟩
      unfold loop
      by_cases hc : s.drop o = []
      · simp [hc]
      · have ho : o ≤ s.length := by
          apply Nat.le_of_lt; apply Nat.lt_of_not_le; intro h'; exact hc (List.drop_eq_nil_of_le h')
        have : search p (s.drop o) = none := by
          cases hs : search p (s.drop o) with
          | none => rfl
          | some ab =>
            obtain ⟨a, b⟩ := ab
            obtain ⟨n, _, hm, _⟩ := search_some hs
            exact absurd ((match_drop cf s o a n ho).1 hm) (hn _ _ (by omega))
        simp [hc, this]
    | @next _ i n l ho' hm hl ht =>
      have hin : i + n ≤ s.length := by
        have := sd _ _ _ hm.2
        have h2 := hm.1
        simp at this; omega
      have hpos : 0 < n := by
        rcases Nat.eq_zero_or_pos n with h0 | h0
        · subst h0; exact absurd hm.2 (ne _ _)
        · exact h0
      have hc : s.drop o ≠ [] := by simp; omega
      have hs : search p (s.drop o) = some (i - o, (i - o) + n) := by
        apply search_of
        · rw [match_drop cf s o _ _ (by omega)]
          have : o + (i - o) = i := by omega
          rw [this]; exact hm
        · intro j k hj hk
          rw [match_drop cf s o _ _ (by omega)] at hk
          exact hl (o + j) k (by omega) (by omega) hk
      have step : loop p (k + 1) (s.drop o) ((o : Int) + 1) = loop p k (s.drop (i + n)) (((i + n : Nat) : Int) + 1) := by
        rw [loop]
        simp only [hc, if_false, hs]
        rw [List.drop_drop]
        congr 1
        · congr 1; omega
        · omega
      rw [step]
      obtain ⟨h1, h2⟩ := ih (i + n) l ht
      refine ⟨fun hk => h1 (by simpa using hk), ?_⟩
      intro i' n' hk
      obtain ⟨o', a, e1, e2, e3, e4⟩ := h2 i' n' (by simpa using hk)
      exact ⟨o', a, e1, e2, e3, by omega⟩

/-- The loop only ever looks at a part of the text, at the position it says. -/
theorem loop_inside {p : Pattern} (sd : Sound p) (s : Str) :
    ∀ (k o : Nat) (r : Int × Nat × Nat × Str), loop p k (s.drop o) ((o : Int) + 1) = some r →
      ∃ o' a n : Nat, r = ((o' : Int) + 1, a, a + n, s.drop o') ∧ o ≤ o' ∧ o' + a + n ≤ s.length ∧
        p.at_ ((s.drop o').take a) (s.drop (o' + a)) = some n := by
  intro k
  induction k with
  | zero =>
    intro o r h
    unfold loop at h
    by_cases hc : s.drop o = []
    · simp [hc] at h
    · simp only [hc, if_false] at h
      cases hs : search p (s.drop o) with
      | none => simp [hs] at h
      | some ab =>
        obtain ⟨a, b⟩ := ab
        simp only [hs, Option.some.injEq] at h
        obtain ⟨n, rfl, hm, _⟩ := search_some hs
        have hlt : o < s.length := by
          apply Nat.lt_of_not_le; intro h'; exact hc (List.drop_eq_nil_of_le h')
        have h1 := hm.1
        have h2 := hm.2
        have h3 := sd _ _ _ h2
        simp at h1 h3
        rw [List.drop_drop] at h2
        exact ⟨o, a, n, h.symm, Nat.le_refl _, by omega, h2⟩
  | succ k ih =>
    intro o r h
    rw [loop] at h
    by_cases hc : s.drop o = []
    · simp [hc] at h
    · simp only [hc, if_false] at h
      cases hs : search p (s.drop o) with
      | none => simp [hs] at h
      | some ab =>
        obtain ⟨a, b⟩ := ab
        simp only [hs] at h
        rw [List.drop_drop] at h
        have : (o : Int) + 1 + b = ((o + b : Nat) : Int) + 1 := by omega
        rw [this] at h
        obtain ⟨o', a', n', e1, e2, e3⟩ := ih _ _ h
        exact ⟨o', a', n', e1, by omega, e3⟩

theorem from_nat (s : Str) (o : Nat) : from_ s ((o : Int) + 1) = s.drop o := by
  unfold from_ Verif.Str.slice Verif.Str.bound
  have h1 : (o : Int) + 1 - 1 = o := by omega
  rw [h1]
  have h2 : ¬ ((o : Int) < 0) := by omega
  simp only [h2, if_false, Int.toNat_natCast]
  by_cases h : o ≤ s.length
  · rw [Nat.min_eq_left h]
    rw [List.take_of_length_le (by simp)]
  · rw [Nat.min_eq_right (by omega)]
    simp
    omega

theorem slice_to (s : Str) (b : Nat) (h : b ≤ s.length) : Verif.Str.slice s none (some (b : Int)) = s.take b := by
  unfold Verif.Str.slice Verif.Str.bound
  have h2 : ¬ ((b : Int) < 0) := by omega
  simp [h2, Nat.min_eq_left h]

theorem slice_from (s : Str) (a : Nat) : Verif.Str.slice s (some (a : Int)) none = s.drop a := by
  have := from_nat s a
  unfold from_ at this
  rwa [show (a : Int) + 1 - 1 = a by omega] at this

theorem slice_mid (s : Str) (a n : Nat) (h : a + n ≤ s.length) :
    Verif.Str.slice s (some (a : Int)) (some ((a + n : Nat) : Int)) = (s.drop a).take n := by
  unfold Verif.Str.slice Verif.Str.bound
  have h1 : ¬ ((a : Int) < 0) := by omega
  have h2 : ¬ (((a + n : Nat) : Int) < 0) := by omega
  simp only [h1, h2, if_false, Int.toNat_natCast]
  rw [Nat.min_eq_left (by omega), Nat.min_eq_left (by omega)]
  congr 1; omega

/-- `re.sub` while the characters of the last match are dropped. -/
theorem sub_wait (p : Pattern) (rs : Str) : ∀ (w : Nat) (before rest : Str), w ≤ rest.length →
    sub p rs w before rest = sub p rs 0 (before ++ rest.take w) (rest.drop w) := by
  intro w
  induction w with
  | zero => intro b r _; simp
  | succ w ih =>
    intro b r h
    cases r with
    | nil => simp at h
    | cons c t =>
      rw [sub, ih _ _ (by simpa using h)]
      simp

/-- `re.sub` over the characters before the next match. -/
theorem sub_skip (p : Pattern) (rs : Str) : ∀ (k : Nat) (before rest : Str), k ≤ rest.length →
    (∀ j, j < k → p.at_ (before ++ rest.take j) (rest.drop j) = none) →
    sub p rs 0 before rest = (sub p rs 0 (before ++ rest.take k) (rest.drop k)).map (rest.take k ++ ·) := by
  intro k
  induction k with
  | zero =>
    intro b r _ _
    simp
  | succ k ih =>
    intro b r h hn
    cases r with
    | nil => simp at h
    | cons c t =>
      have h0 := hn 0 (by omega)
      simp at h0
      rw [sub, h0]
      simp only
      rw [ih (b ++ [c]) t (by simpa using h)]
      · simp [Function.comp_def]
      · intro j hj
        have := hn (j + 1) (by omega)
        simpa using this

theorem sub_occurrences {p : Pattern} (sd : Sound p) (ne : NonEmpty p) {rs : Str} (pl : Plain p rs) (s : Str) {o : Nat}
    {l : List (Nat × Nat)} (h : Occurrences p s o l) (ho : o ≤ s.length) :
    sub p rs 0 (s.take o) (s.drop o) = some (replaced s rs o l) := by
  induction h with
  | @none o hn =>
    rw [sub_skip p rs (s.drop o).length _ _ (Nat.le_refl _)]
    · simp only [List.take_length, List.drop_length]
      rw [List.take_append_drop]
      rw [sub]
      · have : p.at_ s [] = none := by
          cases hm : p.at_ s [] with
          | none => rfl
          | some n => exact absurd (⟨Nat.le_refl _, by simpa using hm⟩ : Match p s s.length n) (hn _ _ ho)
        simp [this, replaced]
    · intro j hj
      cases hm : p.at_ (s.take o ++ (s.drop o).take j) ((s.drop o).drop j) with
      | none => rfl
      | some n =>
        simp at hj
        refine absurd (⟨by omega, ?_⟩ : Match p s (o + j) n) (hn _ _ (by omega))
        rw [List.take_add, ← List.drop_drop]
        exact hm
  | @next o i n l hoi hm hl ht ih =>
    have hin : i + n ≤ s.length := by
      have := sd _ _ _ hm.2
      have h2 := hm.1
      simp at this; omega
    have hpos : 0 < n := by
      rcases Nat.eq_zero_or_pos n with h0 | h0
      · subst h0; exact absurd hm.2 (ne _ _)
      · exact h0
    rw [sub_skip p rs (i - o) _ _ (by simp; omega)]
    · have e1 : s.take o ++ (s.drop o).take (i - o) = s.take i := by
        rw [← List.take_add]; congr 1; omega
      have e2 : (s.drop o).drop (i - o) = s.drop i := by
        rw [List.drop_drop]; congr 1; omega
      rw [e1, e2]
      obtain ⟨c, t, hct⟩ : ∃ c t, s.drop i = c :: t := by
        cases hd : s.drop i with
        | nil => simp at hd; omega
        | cons c t => exact ⟨c, t, rfl⟩
      obtain ⟨n', rfl⟩ : ∃ n', n = n' + 1 := ⟨n - 1, by omega⟩
      have hat := hm.2
      rw [hct] at hat ⊢
      rw [sub, hat]
      simp only [pl (s.take i) (c :: t), Option.bind_some]
      have hlen : n' ≤ t.length := by
        have : (s.drop i).length = t.length + 1 := by rw [hct]; rfl
        simp at this; omega
      rw [sub_wait _ _ _ _ _ hlen]
      have e3 : (s.take i ++ [c]) ++ t.take n' = s.take (i + (n' + 1)) := by
        rw [List.take_add, hct]; simp
      have e4 : t.drop n' = s.drop (i + (n' + 1)) := by
        rw [← List.drop_drop, hct]; simp
      rw [e3, e4, ih (by omega)]
      simp [replaced]
    · intro j hj
      cases hm' : p.at_ (s.take o ++ (s.drop o).take j) ((s.drop o).drop j) with
      | none => rfl
      | some n =>
        refine absurd (⟨by omega, ?_⟩ : Match p s (o + j) n) (hl (o + j) n (by omega) (by omega))
        rw [List.take_add, ← List.drop_drop]
        exact hm'

/-- The number of the decimal text of a number. -/
theorem digits_toDigits (n : Nat) : digits (Nat.toDigits 10 n) = n := by
  have := Nat.ofDigitChars_ten_toDigits (n := n)
  rw [Nat.ofDigitChars_eq_foldl] at this
  exact this

/-- `re.sub`, also with empty matches. -/
theorem sub_scan {p : Pattern} (sd : Sound p) {rs : Str} (pl : Plain p rs) (s : Str) {o : Nat} {l : List (Nat × Nat)}
    (h : Scan p s o l) (ho : o ≤ s.length) :
    sub p rs 0 (s.take o) (s.drop o) = some (replaced s rs o l) := by
  have skip : ∀ (o i : Nat), o ≤ i → i ≤ s.length → (∀ j k, o ≤ j → j < i → ¬ Match p s j k) →
      sub p rs 0 (s.take o) (s.drop o) = (sub p rs 0 (s.take i) (s.drop i)).map ((s.drop o).take (i - o) ++ ·) := by
    intro o i hoi hi hl
    rw [sub_skip p rs (i - o) _ _ (by simp; omega)]
    · have e1 : s.take o ++ (s.drop o).take (i - o) = s.take i := by
        rw [← List.take_add]; congr 1; omega
      have e2 : (s.drop o).drop (i - o) = s.drop i := by
        rw [List.drop_drop]; congr 1; omega
      rw [e1, e2]
    · intro j hj
      cases hm' : p.at_ (s.take o ++ (s.drop o).take j) ((s.drop o).drop j) with
      | none => rfl
      | some n =>
        refine absurd (⟨by omega, ?_⟩ : Match p s (o + j) n) (hl (o + j) n (by omega) (by omega))
        rw [List.take_add, ← List.drop_drop]
        exact hm'
  induction h with
  | @none o hn =>
    rw [skip o s.length ho (Nat.le_refl _) (fun j k h1 _ => hn j k h1)]
    rw [List.take_length, List.drop_length, sub]
    · have : p.at_ s [] = none := by
        cases hm : p.at_ s [] with
        | none => rfl
        | some n => exact absurd (⟨Nat.le_refl _, by simpa using hm⟩ : Match p s s.length n) (hn _ _ ho)
      simp only [if_pos, this, Option.map_some, List.append_nil, replaced]
      rw [List.take_of_length_le (by simp)]
  | @next o i n l hoi hpos hm hl ht ih =>
    have hin : i + n ≤ s.length := by
      have := sd _ _ _ hm.2
      have h2 := hm.1
      simp at this; omega
    rw [skip o i hoi hm.1 hl]
    obtain ⟨c, t, hct⟩ : ∃ c t, s.drop i = c :: t := by
      cases hd : s.drop i with
      | nil => simp at hd; omega
      | cons c t => exact ⟨c, t, rfl⟩
    obtain ⟨n', rfl⟩ : ∃ n', n = n' + 1 := ⟨n - 1, by omega⟩
    have hat := hm.2
    rw [hct] at hat ⊢
    rw [sub, hat]
    simp only [pl (s.take i) (c :: t), Option.bind_some]
    have hlen : n' ≤ t.length := by
      have : (s.drop i).length = t.length + 1 := by rw [hct]; rfl
      simp at this; omega
    rw [sub_wait _ _ _ _ _ hlen]
    have e3 : (s.take i ++ [c]) ++ t.take n' = s.take (i + (n' + 1)) := by
      rw [List.take_add, hct]; simp
    have e4 : t.drop n' = s.drop (i + (n' + 1)) := by
      rw [← List.drop_drop, hct]; simp
    rw [e3, e4, ih (by omega)]
    simp [replaced]
  | @empty o i l hoi hm hl ht ih =>
    rw [skip o i hoi hm.1 hl]
    by_cases hi : i = s.length
    · subst hi
      have hl' : l = [] := by
        cases ht with
        | none _ => rfl
        | next h1 _ h2 _ _ => have := h2.1; omega
        | empty h1 h2 _ _ => have := h2.1; omega
      subst hl'
      have hat := hm.2
      rw [List.drop_length] at hat ⊢
      rw [sub]
      · rw [List.take_length] at hat ⊢
        simp [hat, pl _ _, replaced]
    · have hi' : i < s.length := by have := hm.1; omega
      obtain ⟨c, t, hct⟩ : ∃ c t, s.drop i = c :: t := by
        cases hd : s.drop i with
        | nil => simp at hd; omega
        | cons c t => exact ⟨c, t, rfl⟩
      have hat := hm.2
      have e3 : s.take i ++ [c] = s.take (i + 1) := by
        rw [List.take_add, hct]; simp
      have e4 : t = s.drop (i + 1) := by
        rw [← List.drop_drop, hct]; simp
      have key : replaced s rs i l = c :: replaced s rs (i + 1) l := by
        cases ht with
        | none _ => simp [replaced, hct, ← e4]
        | @next _ i' n' l' h1 _ h2 _ _ =>
          obtain ⟨k, rfl⟩ : ∃ k, i' = i + 1 + k := ⟨i' - (i + 1), by omega⟩
          have a1 : i + 1 + k - i = k + 1 := by omega
          have a2 : i + 1 + k - (i + 1) = k := by omega
          simp only [replaced, a1, a2, hct, ← e4, List.take_succ_cons, List.cons_append]
        | @empty _ i' l' h1 h2 _ _ =>
          obtain ⟨k, rfl⟩ : ∃ k, i' = i + 1 + k := ⟨i' - (i + 1), by omega⟩
          have a1 : i + 1 + k - i = k + 1 := by omega
          have a2 : i + 1 + k - (i + 1) = k := by omega
          simp only [replaced, a1, a2, hct, ← e4, List.take_succ_cons, List.cons_append]
      rw [hct] at hat ⊢
      rw [sub, hat]
      simp only [pl (s.take i) (c :: t), Option.bind_some]
      rw [e3, e4, ih (by omega)]
      simp only [Option.map_some, replaced, Nat.add_zero, key]
      simp

end Verif.Proofs.Regexp
