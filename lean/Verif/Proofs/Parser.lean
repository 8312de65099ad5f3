import Verif.Model.Parser
import Verif.Spec.Script
/-! Helper lemmas for the parser properties. -/
namespace Verif.Parser
open Verif.Script

/-- The state after consuming `s`, with `r` left. -/
def adv (p : P) (s r : List Char) : P := ⟨s.reverse ++ p.pre, r, p.line + newlines s⟩

theorem newlines_append (a b : List Char) : newlines (a ++ b) = newlines a + newlines b := by
  simp [newlines]

theorem newlines_cons (c : Char) (b : List Char) :
    newlines (c :: b) = (if c = '\n' then 1 else 0) + newlines b := by
  simp [newlines, List.count_cons]; split <;> omega

@[simp] theorem newlines_nil : newlines [] = 0 := rfl

theorem next_eq_adv {p : P} {c : Char} {r : List Char} (h : p.rest = c :: r) :
    p.next = adv p [c] r := by
  simp [P.next, h, adv, newlines_cons]; split <;> simp

theorem adv_adv (p : P) (s r s' r' : List Char) : adv (adv p s r) s' r' = adv p (s ++ s') r' := by
  simp [adv, newlines_append]; omega

@[simp] theorem adv_rest (p : P) (s r : List Char) : (adv p s r).rest = r := rfl

theorem bsCount_cons (d : Char) (pre : List Char) :
    bsCount (d :: pre) = if d = '\\' then bsCount pre + 1 else 0 := by
  simp [bsCount, List.takeWhile_cons]; split <;> simp

theorem skipLoop_lit {c : Char} (hc : c ≠ '\\') {b : List Char} (hb : LitBody c b) :
    ∀ (pre r : List Char) (line : Nat), bsCount pre % 2 = 0 →
      skipLoop c pre (b ++ c :: r) line =
        .ok ⟨c :: (b.reverse ++ pre), r, line + newlines (b ++ [c])⟩ := by
  induction hb with
  | nil =>
    intro pre r line h
    simp [skipLoop, newlines_cons, h]; grind
  | @char d b h1 h2 _ ih =>
    intro pre r line h
    simp only [List.cons_append, skipLoop, ne_eq, h1, not_false_eq_true, if_true]
    rw [ih _ _ _ (by simp [bsCount_cons, h2])]
    simp [newlines_cons, newlines_append]; grind
  | @esc d b _ ih =>
    intro pre r line h
    have h0 : '\\' ≠ c := fun e => hc e.symm
    simp only [List.cons_append, skipLoop, ne_eq, h0, not_false_eq_true, if_true]
    have hd : bsCount (d :: '\\' :: pre) % 2 = 0 := by
      simp [bsCount_cons]; split <;> omega
    have e : bsCount ('\\' :: pre) = bsCount pre + 1 := by simp [bsCount_cons]
    by_cases hdc : d = c
    · simp only [hdc, not_true_eq_false, if_false, e]
      rw [if_pos (by omega)]
      rw [ih _ _ _ (by simpa [hdc] using hd)]
      simp [newlines_cons, newlines_append]; grind
    · simp only [hdc, not_false_eq_true, if_true]
      rw [ih _ _ _ hd]
      simp [newlines_cons, newlines_append]; grind

theorem quote_ne_bs {q : Char} (h : isQuote q) : q ≠ '\\' := by
  rcases h with h | h | h <;> subst h <;> decide

theorem skipEscape_lit {q : Char} (hq : q ≠ '\\') {b : List Char} (hb : LitBody q b) {p : P} {r : List Char}
    (hp : p.rest = q :: (b ++ [q]) ++ r) : skipEscape q p = .ok (adv p (q :: (b ++ [q])) r) := by
  have hp' : p.rest = q :: (b ++ q :: r) := by simpa using hp
  unfold skipEscape
  rw [next_eq_adv hp']
  have : bsCount (adv p [q] (b ++ q :: r)).pre % 2 = 0 := by simp [adv, bsCount_cons, hq]
  rw [show (adv p [q] (b ++ q :: r)).rest = b ++ q :: r from rfl, skipLoop_lit hq hb _ _ _ this]
  simp [adv, newlines_cons, newlines_append]; omega

theorem splitLoop_nil {isAlpha : Char → Bool} {p : P} (hp : p.rest = []) (start : Option (Nat × Nat)) (acc : List Segment) :
    splitLoop isAlpha p start acc = .ok (emit p start acc) := by
  conv => lhs; unfold splitLoop
  split
  · rfl
  · simp_all

/-- One-step unfolding of the loop of `split`. -/
theorem splitLoop_cons {isAlpha : Char → Bool} {p : P} {d : Char} {r : List Char} (hp : p.rest = d :: r)
    (start : Option (Nat × Nat)) (acc : List Segment) :
    splitLoop isAlpha p start acc =
      if tq d then
        match skipEscape d p with
        | .error q => .error q
        | .ok q => splitLoop isAlpha q start acc
      else if d = '#' then splitLoop isAlpha (skipLineComment p) start acc
      else if ['-', '-'].isPrefixOf (d :: r) then splitLoop isAlpha (skipLineComment p) start acc
      else if ['/', '*'].isPrefixOf (d :: r) then
        match readUtil ['*', '/'] dq p with
        | .error q => .error q
        | .ok q => splitLoop isAlpha q.next start acc
      else if d = ';' then splitLoop isAlpha p.next none (emit p start acc)
      else splitLoop isAlpha p.next
        (if start.isNone && isAlpha d then some (p.line, p.index) else start) acc := by
  conv => lhs; unfold splitLoop
  split
  · simp_all
  · next d' r' h =>
    have e : d' = d ∧ r' = r := by simp_all
    obtain ⟨rfl, rfl⟩ := e
    simp only [hp]
    split
    · split <;> simp_all
    · split
      · rfl
      · split
        · rfl
        · split
          · split <;> simp_all
          · split
            · cases start <;> simp [emit]
            · split <;> simp_all

theorem readUtil_nil {cs : List Char} {esc : Char → Bool} {p : P} (hp : p.rest = []) :
    readUtil cs esc p = .error p := by
  unfold readUtil
  split
  · rfl
  · simp_all

theorem readUtil_cons {cs : List Char} {esc : Char → Bool} {p : P} {d : Char} {r : List Char} (hp : p.rest = d :: r) :
    readUtil cs esc p =
      if esc d then
        match skipEscape d p with
        | .error q => .error q
        | .ok q => readUtil cs esc q
      else if cs.isPrefixOf (d :: r) then .ok p
      else readUtil cs esc p.next := by
  conv => lhs; unfold readUtil
  split
  · simp_all
  · next d' r' h =>
    have e : d' = d ∧ r' = r := by simp_all
    obtain ⟨rfl, rfl⟩ := e
    simp only [hp]
    split
    · split <;> simp_all
    · rfl

/-- `read_util` steps over text without quote characters in which the marker does not begin. -/
theorem readUtil_skip {cs : List Char} {esc : Char → Bool} {m : Char} {cs' : List Char} (hcs : cs = m :: cs')
    (hm : esc m = false) :
    ∀ (b : List Char) (p : P) (r : List Char), p.rest = b ++ (cs ++ r) →
      (∀ c ∈ b, esc c = false) →
      (∀ b1 b2, b = b1 ++ b2 → b2 ≠ [] → ¬ cs <+: (b2 ++ (cs ++ r))) →
      readUtil cs esc p = .ok (adv p b (cs ++ r)) := by
  intro b
  induction b with
  | nil =>
    intro p r hp _ _
    have hp' : p.rest = m :: (cs' ++ r) := by simpa [hcs] using hp
    have : cs.isPrefixOf (m :: (cs' ++ r)) = true := by rw [← hp', hp]; simp
    rw [readUtil_cons hp']
    simp [hm, this, adv]
    cases p; simp_all
  | cons c b ih =>
    intro p r hp hq hn
    have h1 : cs.isPrefixOf (c :: (b ++ (cs ++ r))) = false := by
      have := hn [] (c :: b) rfl (by simp)
      rw [Bool.eq_false_iff]; simpa using this
    rw [readUtil_cons (d := c) (r := b ++ (cs ++ r)) (by simpa using hp), next_eq_adv (c := c) (r := b ++ (cs ++ r)) (by simpa using hp)]
    simp only [hq c (by simp), h1, Bool.false_eq_true, if_false]
    rw [ih _ r (by simp) (fun x hx => hq x (by simp [hx]))
        (fun b1 b2 e hne => hn (c :: b1) b2 (by simp [e]) hne), adv_adv]
    simp

theorem dq_of_noQuote {b : List Char} (h : NoQuote b) : ∀ c ∈ b, dq c = false := by
  intro c hc; have := h c hc; simp [dq, this.1, this.2]

theorem skipLineComment_text {p : P} {d : Char} {b r : List Char} (hp : p.rest = (d :: b) ++ '\n' :: r)
    (hd : dq d = false) (hdn : d ≠ '\n') (hb : NoQuote b) (hn : '\n' ∉ b) :
    skipLineComment p = adv p (d :: b ++ ['\n']) r := by
  unfold skipLineComment
  rw [readUtil_skip (m := '\n') (cs' := []) rfl (by decide) (d :: b) p r (by simpa using hp)
    (by intro c hc; rcases List.mem_cons.mp hc with h | h
        · simpa [h] using hd
        · exact dq_of_noQuote hb c h)
    (by
      intro b1 b2 e hne hpre
      match b2, hne, hpre with
      | x :: b2, _, hpre =>
        have hx : x = '\n' := by
          have := List.prefix_iff_eq_take.mp hpre; simp at this; exact this.symm
        have : '\n' ∈ d :: b := by rw [e, hx]; simp
        rcases List.mem_cons.mp this with h | h
        · exact hdn h.symm
        · exact hn h)]
  simp only
  rw [next_eq_adv (c := '\n') (r := r) (by simp), adv_adv]

theorem readUtil_block {p : P} {b r : List Char} (hp : p.rest = '/' :: '*' :: (b ++ ['*', '/']) ++ r)
    (hb : NoQuote b) (hn : ¬ (['*', '/'] <:+: ('*' :: b))) :
    readUtil ['*', '/'] dq p = .ok (adv p ('/' :: '*' :: b) (['*', '/'] ++ r)) := by
  refine readUtil_skip (m := '*') (cs' := ['/']) rfl (by decide) ('/' :: '*' :: b) p r (by simpa using hp) ?_ ?_
  · intro c hc
    simp only [List.mem_cons] at hc
    rcases hc with h | h | h
    · subst h; decide
    · subst h; decide
    · exact dq_of_noQuote hb c h
  · intro b1 b2 e hne hpre
    match b1, e with
    | [], e =>
      have e : b2 = '/' :: '*' :: b := by simpa using e.symm
      subst e
      have := List.prefix_iff_eq_take.mp hpre; simp at this
    | x :: b1, e =>
      simp only [List.cons_append, List.cons.injEq] at e
      match b2, hne with
      | [y], _ =>
        -- the last character followed by `*`
        have := List.prefix_iff_eq_take.mp hpre; simp at this
      | y :: z :: b2, _ =>
        have h := List.prefix_iff_eq_take.mp hpre
        simp at h
        apply hn
        refine ⟨b1, b2, ?_⟩
        rw [e.2, ← h.1, ← h.2]; simp

/-- First character condition used by the step lemmas. -/
theorem isPrefixOf_two {a b x : Char} {r : List Char} (h : x ≠ a ∨ r.head? ≠ some b) :
    [a, b].isPrefixOf (x :: r) = false := by
  rw [Bool.eq_false_iff]
  intro h'
  simp only [List.isPrefixOf, Bool.and_eq_true, beq_iff_eq] at h'
  cases r with
  | nil => simp at h'
  | cons y r =>
    simp only [List.isPrefixOf, Bool.and_eq_true, beq_iff_eq] at h'
    rcases h with h | h
    · exact h h'.1.symm
    · simp [h'.2.1.symm] at h

variable {isAlpha : Char → Bool}

theorem tq_iff {c : Char} : tq c = true ↔ isQuote c := by
  simp [tq, isQuote, or_assoc]

/-- One step of `split` on an ordinary character. -/
theorem splitLoop_plain {p : P} {c : Char} {r : List Char} (hp : p.rest = c :: r)
    (hq : ¬ isQuote c) (hh : c ≠ '#') (hs : c ≠ ';')
    (h1 : c = '-' → r.head? ≠ some '-') (h2 : c = '/' → r.head? ≠ some '*')
    (start : Option (Nat × Nat)) (acc : List Segment) :
    splitLoop isAlpha p start acc =
      splitLoop isAlpha (adv p [c] r)
        (if start.isNone && isAlpha c then some (p.line, p.index) else start) acc := by
  have hq' : tq c = false := by rw [Bool.eq_false_iff]; exact fun h => hq (tq_iff.mp h)
  have e1 : ['-', '-'].isPrefixOf (c :: r) = false := by
    apply isPrefixOf_two
    by_cases h : c = '-'
    · exact Or.inr (h1 h)
    · exact Or.inl h
  have e2 : ['/', '*'].isPrefixOf (c :: r) = false := by
    apply isPrefixOf_two
    by_cases h : c = '/'
    · exact Or.inr (h2 h)
    · exact Or.inl h
  rw [splitLoop_cons hp, next_eq_adv hp]
  simp only [hq', hh, hs, e1, e2, if_false, Bool.false_eq_true]

theorem splitLoop_semi {p : P} {r : List Char} (hp : p.rest = ';' :: r)
    (start : Option (Nat × Nat)) (acc : List Segment) :
    splitLoop isAlpha p start acc = splitLoop isAlpha (adv p [';'] r) none (emit p start acc) := by
  have e0 : tq ';' = false := by decide
  have e1 : ['-', '-'].isPrefixOf (';' :: r) = false := isPrefixOf_two (Or.inl (by decide))
  have e2 : ['/', '*'].isPrefixOf (';' :: r) = false := isPrefixOf_two (Or.inl (by decide))
  have e3 : ¬ (';' = '#') := by decide
  rw [splitLoop_cons hp, next_eq_adv hp]
  simp only [e0, e1, e2, e3, if_false, if_true, Bool.false_eq_true]

theorem splitLoop_lit {p : P} {q : Char} {b r : List Char} (hp : p.rest = q :: (b ++ [q]) ++ r)
    (hq : isQuote q) (hb : LitBody q b) (start : Option (Nat × Nat)) (acc : List Segment) :
    splitLoop isAlpha p start acc = splitLoop isAlpha (adv p (q :: (b ++ [q])) r) start acc := by
  rw [splitLoop_cons (d := q) (r := b ++ [q] ++ r) (by simpa using hp), if_pos (tq_iff.mpr hq),
    skipEscape_lit (quote_ne_bs hq) hb hp]

theorem splitLoop_line {p : P} {dashes : Bool} {b r : List Char} (hp : p.rest = (Tok.line dashes b).text ++ r)
    (hb : NoQuote b) (hn : '\n' ∉ b) (start : Option (Nat × Nat)) (acc : List Segment) :
    splitLoop isAlpha p start acc =
      splitLoop isAlpha (adv p (Tok.line dashes b).text r) start acc := by
  cases dashes with
  | false =>
    have hp' : p.rest = ('#' :: b) ++ '\n' :: r := by simpa [Tok.text] using hp
    have e0 : tq '#' = false := by decide
    rw [splitLoop_cons (d := '#') (r := b ++ '\n' :: r) (by simpa using hp'),
      skipLineComment_text hp' (by decide) (by decide) hb hn]
    simp only [e0, if_true, Bool.false_eq_true, if_false]
    rfl
  | true =>
    have hp' : p.rest = ('-' :: ('-' :: b)) ++ '\n' :: r := by simpa [Tok.text] using hp
    have e0 : tq '-' = false := by decide
    have e1 : ['-', '-'].isPrefixOf ('-' :: ('-' :: b ++ '\n' :: r)) = true := by simp [List.isPrefixOf]
    have e2 : ¬ ('-' = '#') := by decide
    rw [splitLoop_cons (d := '-') (r := '-' :: b ++ '\n' :: r) (by simpa using hp'),
      skipLineComment_text hp' (by decide) (by decide) (b := '-' :: b)
        (by intro c hc; rcases List.mem_cons.mp hc with h | h
            · subst h; decide
            · exact hb c h)
        (by simp [hn])]
    simp only [e0, e1, e2, if_true, Bool.false_eq_true, if_false]
    rfl

theorem splitLoop_block {p : P} {b r : List Char} (hp : p.rest = (Tok.block b).text ++ r)
    (hb : NoQuote b) (hn : ¬ (['*', '/'] <:+: ('*' :: b))) (hr : r.head? ≠ some '*')
    (ha : isAlpha '/' = false) (start : Option (Nat × Nat)) (acc : List Segment) :
    splitLoop isAlpha p start acc = splitLoop isAlpha (adv p (Tok.block b).text r) start acc := by
  have hp' : p.rest = '/' :: '*' :: (b ++ ['*', '/']) ++ r := by simpa [Tok.text] using hp
  have e0 : tq '/' = false := by decide
  have e1 : ['-', '-'].isPrefixOf ('/' :: ('*' :: (b ++ ['*', '/']) ++ r)) = false :=
    isPrefixOf_two (Or.inl (by decide))
  have e2 : ['/', '*'].isPrefixOf ('/' :: ('*' :: (b ++ ['*', '/']) ++ r)) = true := by simp [List.isPrefixOf]
  have e3 : ¬ ('/' = '#') := by decide
  rw [splitLoop_cons (d := '/') (r := '*' :: (b ++ ['*', '/']) ++ r) (by simpa using hp'),
    readUtil_block hp' hb hn]
  simp only [e0, e1, e2, e3, if_true, Bool.false_eq_true, if_false]
  rw [next_eq_adv (c := '*') (r := '/' :: r) (by simp), adv_adv,
    splitLoop_plain (c := '/') (r := r) (by simp) (by decide) (by decide) (by decide) (by simp)
          (fun _ => hr), adv_adv]
  simp [ha, Tok.text]

end Verif.Parser

namespace Verif.Parser
open Verif.Script

/-! ### `skip_escape` from the other side -/

theorem skipLoop_ok_aux {c : Char} (hc : c ≠ '\\') :
    ∀ (n : Nat) (pre rest : List Char) (line : Nat) (q : P), rest.length ≤ n → bsCount pre % 2 = 0 →
      skipLoop c pre rest line = .ok q → ∃ b r, LitBody c b ∧ rest = b ++ c :: r := by
  intro n
  induction n with
  | zero =>
    intro pre rest line q hl _ h
    have : rest = [] := List.length_eq_zero_iff.mp (by omega)
    simp [this, skipLoop] at h
  | succ n ih =>
    intro pre rest line q hl hpar h
    match rest, h with
    | [], h => simp [skipLoop] at h
    | d :: r, h =>
      by_cases hd : d = c
      · exact ⟨[], r, .nil, by simp [hd]⟩
      · by_cases hb : d = '\\'
        · subst hb
          simp only [skipLoop, ne_eq, hd, not_false_eq_true, if_true] at h
          match r, h with
          | [], h => simp [skipLoop] at h
          | x :: r, h =>
            have hpar' : bsCount (x :: '\\' :: pre) % 2 = 0 := by
              simp [bsCount_cons]; split <;> omega
            have h' : ∃ l, skipLoop c (x :: '\\' :: pre) r l = .ok q := by
              by_cases hx : x = c
              · simp only [skipLoop, hx, ne_eq, not_true_eq_false, if_false] at h
                have : bsCount ('\\' :: pre) = bsCount pre + 1 := by simp [bsCount_cons]
                rw [this, if_pos (by omega)] at h
                exact ⟨_, by rw [hx]; exact h⟩
              · simp only [skipLoop, hx, ne_eq, not_false_eq_true, if_true] at h
                exact ⟨_, h⟩
            obtain ⟨l, h'⟩ := h'
            obtain ⟨b, r', hb, e⟩ := ih _ _ _ _ (by simp at hl; omega) hpar' h'
            exact ⟨'\\' :: x :: b, r', .esc hb, by simp [e]⟩
        · simp only [skipLoop, ne_eq, hd, not_false_eq_true, if_true] at h
          obtain ⟨b, r', hb', e⟩ := ih _ _ _ _ (by simp at hl; omega) (by simp [bsCount_cons, hb]) h
          exact ⟨d :: b, r', .char hd hb hb', by simp [e]⟩

theorem skipEscape_ok {c : Char} (hc : c ≠ '\\') {p q : P} {t : List Char} (hp : p.rest = c :: t)
    (h : skipEscape c p = .ok q) : ∃ b r, LitBody c b ∧ t = b ++ c :: r ∧ q = adv p (c :: (b ++ [c])) r := by
  have h0 := h
  unfold skipEscape at h
  rw [next_eq_adv hp] at h
  obtain ⟨b, r, hb, e⟩ := skipLoop_ok_aux hc _ _ _ _ _ (Nat.le_refl _)
    (by simp [adv, bsCount_cons, hc]) h
  have e : t = b ++ c :: r := e
  refine ⟨b, r, hb, e, ?_⟩
  rw [skipEscape_lit hc hb (r := r) (by simp [hp, e])] at h0
  simpa using h0.symm

theorem skipEscape_error {c : Char} (hc : c ≠ '\\') {p q : P} {t : List Char} (hp : p.rest = c :: t)
    (h : skipEscape c p = .error q) : ¬ ∃ b r, LitBody c b ∧ t = b ++ c :: r := by
  rintro ⟨b, r, hb, e⟩
  rw [skipEscape_lit hc hb (r := r) (by simp [hp, e])] at h
  simp at h

theorem litBody_unique {q : Char} {b b' r r' : List Char} (hq : q ≠ '\\')
    (h : LitBody q b) (h' : LitBody q b') (e : b ++ q :: r = b' ++ q :: r') : b = b' ∧ r = r' := by
  induction h generalizing b' with
  | nil =>
    cases h' with
    | nil => simpa using e
    | char h1 h2 h3 => simp at e; exact absurd e.1.symm h1
    | esc h3 => simp at e; exact absurd e.1 hq
  | char h1 h2 _ ih =>
    cases h' with
    | nil => simp at e; exact absurd e.1 h1
    | char g1 g2 g3 => simp at e; have := ih g3 e.2; simp [this, e.1]
    | esc h3 => simp at e; exact absurd e.1 h2
  | esc _ ih =>
    cases h' with
    | nil => simp at e; exact absurd e.1.symm hq
    | char g1 g2 g3 => simp at e; exact absurd e.1.symm g2
    | esc g3 => simp at e; have := ih g3 e.2; simp [this, e.1]

/-! ### `read_util` -/

/-- The quote test of the scanner agrees with a specification predicate; quotes are not backslashes. -/
structure QuoteSpec (esc : Char → Bool) (quote : Char → Prop) : Prop where
  iff : ∀ c, esc c = true ↔ quote c
  ne_bs : ∀ c, quote c → c ≠ '\\'

theorem tq_spec : QuoteSpec tq isQuote := ⟨fun _ => tq_iff, fun _ => quote_ne_bs⟩

theorem dq_spec : QuoteSpec dq isQuote2 := by
  constructor
  · intro c; simp [dq, isQuote2]
  · rintro c (h | h) <;> subst h <;> decide

theorem readUtil_ok {cs : List Char} {esc : Char → Bool} {quote : Char → Prop} (hs : QuoteSpec esc quote)
    {p q : P} (h : readUtil cs esc p = .ok q) :
    ∃ u r, Passed quote u ∧ p.rest = u ++ (cs ++ r) ∧ q = adv p u (cs ++ r) := by
  fun_induction readUtil cs esc p with
  | case1 => simp at h
  | case2 => simp at h
  | case3 p d t hp he q' hsk ih =>
    have hd := (hs.iff d).mp he
    obtain ⟨b, r, hb, e, e'⟩ := skipEscape_ok (hs.ne_bs d hd) hp hsk
    obtain ⟨u, r', hu, e2, e3⟩ := ih h
    subst e'
    refine ⟨d :: (b ++ d :: u), r', .lit hd hb hu, ?_, ?_⟩
    · simp at e2; simp [hp, e, e2]
    · rw [e3, adv_adv]; simp
  | case4 p d t hp he hpre =>
    simp at h; subst h
    obtain ⟨r, hr⟩ := List.isPrefixOf_iff_prefix.mp hpre
    refine ⟨[], r, .nil, by simp [hr], ?_⟩
    cases p; simp_all [adv]
  | case5 p d t hp he hpre ih =>
    obtain ⟨u, r', hu, e2, e3⟩ := ih h
    rw [next_eq_adv hp] at e2 e3
    refine ⟨d :: u, r', .char (fun hq => he ((hs.iff d).mpr hq)) hu, ?_, ?_⟩
    · simp at e2; simp [hp, e2]
    · rw [e3, adv_adv]; simp

theorem readUtil_found {m : Char} {cs : List Char} {esc : Char → Bool} {quote : Char → Prop}
    (hs : QuoteSpec esc quote) (hm : ¬ quote m) {u : List Char} (hu : Passed quote u) :
    ∀ (p : P) (r : List Char), p.rest = u ++ (m :: cs ++ r) → ∃ q, readUtil (m :: cs) esc p = .ok q := by
  induction hu with
  | nil =>
    intro p r hp
    have he : esc m = false := by rw [Bool.eq_false_iff]; exact fun h => hm ((hs.iff m).mp h)
    have : (m :: cs).isPrefixOf (m :: (cs ++ r)) = true := by simp [List.isPrefixOf]
    rw [readUtil_cons (d := m) (r := cs ++ r) (by simpa using hp), he, this]
    exact ⟨p, by simp⟩
  | @char c u hc _ ih =>
    intro p r hp
    have he : esc c = false := by rw [Bool.eq_false_iff]; exact fun h => hc ((hs.iff c).mp h)
    have hp' : p.rest = c :: (u ++ (m :: cs ++ r)) := by simpa using hp
    rw [readUtil_cons hp', he, next_eq_adv hp']
    by_cases h : (m :: cs).isPrefixOf (c :: (u ++ (m :: cs ++ r))) = true
    · rw [h]; exact ⟨p, by simp⟩
    · simp only [h, Bool.false_eq_true, if_false]
      exact ih _ r rfl
  | @lit q b u hq hb _ ih =>
    intro p r hp
    have he : esc q = true := (hs.iff q).mpr hq
    rw [readUtil_cons (d := q) (r := b ++ q :: u ++ (m :: cs ++ r)) (by simpa using hp), he,
      skipEscape_lit (hs.ne_bs q hq) hb (r := u ++ (m :: cs ++ r)) (by simpa using hp)]
    exact ih _ r rfl

theorem readUtil_error {cs : List Char} {esc : Char → Bool} {quote : Char → Prop}
    (hs : QuoteSpec esc quote) {m : Char} {cs' : List Char} (hcs : cs = m :: cs') (hm : ¬ quote m) {p q : P}
    (h : readUtil cs esc p = .error q) : ¬ OccursOutside quote cs p.rest := by
  rintro ⟨u, r, hu, e⟩
  obtain ⟨q', hq'⟩ := readUtil_found hs hm hu p r (by simpa [hcs] using e)
  rw [← hcs, h] at hq'
  simp at hq'

/-! ### Position and line-number invariant -/

/-- `p` is at some position of `sql` with the right line number. -/
def At (sql : List Char) (p : P) : Prop := p.sql = sql ∧ p.line = 1 + newlines p.pre

theorem newlines_reverse (s : List Char) : newlines s.reverse = newlines s := by simp [newlines]

theorem At.adv {sql : List Char} {p : P} {s r : List Char} (h : At sql p) (hr : p.rest = s ++ r) :
    At sql (adv p s r) := by
  refine ⟨?_, ?_⟩
  · have := h.1; simp [P.sql, Parser.adv, hr] at this ⊢; exact this
  · have := h.2; simp [Parser.adv, newlines_append, newlines_reverse, this]; omega

theorem At.next {sql : List Char} {p : P} (h : At sql p) : At sql p.next := by
  cases hr : p.rest with
  | nil => simpa [P.next, hr] using h
  | cons c r => rw [next_eq_adv hr]; exact h.adv (by simpa using hr)

theorem skipLoop_at {sql : List Char} {c : Char} {pre rest : List Char} {line : Nat}
    (h : At sql ⟨pre, rest, line⟩) :
    (∀ q, skipLoop c pre rest line = .ok q → At sql q) ∧
    (∀ q, skipLoop c pre rest line = .error q → At sql q) := by
  fun_induction skipLoop c pre rest line with
  | case1 => simpa using h
  | case2 pre line d r line' hd ih => exact ih (by have := h.next; simpa [P.next] using this)
  | case3 pre line d r line' hd hb ih => exact ih (by have := h.next; simpa [P.next] using this)
  | case4 pre line d r line' hd hb => have := h.next; simpa [P.next] using this

theorem skipEscape_at {sql : List Char} {c : Char} {p : P} (h : At sql p) :
    (∀ q, skipEscape c p = .ok q → At sql q) ∧ (∀ q, skipEscape c p = .error q → At sql q) :=
  skipLoop_at h.next

theorem readUtil_at {sql cs : List Char} {esc : Char → Bool} {p : P} (h : At sql p) :
    (∀ q, readUtil cs esc p = .ok q → At sql q) ∧ (∀ q, readUtil cs esc p = .error q → At sql q) := by
  fun_induction readUtil cs esc p with
  | case1 => simpa using h
  | case2 p d t hp he q hq => simpa using (skipEscape_at h).2 _ hq
  | case3 p d t hp he q hq ih => exact ih ((skipEscape_at h).1 _ hq)
  | case4 => simpa using h
  | case5 p d t hp he hn ih => exact ih h.next

theorem skipLineComment_at {sql : List Char} {p : P} (h : At sql p) : At sql (skipLineComment p) := by
  unfold skipLineComment
  split
  · next q hq => exact ((readUtil_at h).1 _ hq).next
  · next q hq => exact ((readUtil_at h).2 _ hq).next

theorem At.length {sql : List Char} {p : P} (h : At sql p) : p.index + p.rest.length = sql.length := by
  rw [← h.1]; simp [P.sql, P.index]

end Verif.Parser

namespace Verif.Parser
open Verif.Script

/-! ### `split` on a script given by its lexical elements -/

variable {isAlpha : Char → Bool}

theorem WF_cons {t : Tok} {ts : List Tok} (h : WF (t :: ts)) :
    t.WF ∧ WF ts ∧ ∀ u us, ts = u :: us → Adj t u := by
  cases ts with
  | nil => exact ⟨h, trivial, by simp⟩
  | cons u us =>
    refine ⟨h.1, h.2.2, ?_⟩
    intro u' us' e
    simp at e
    exact e.1 ▸ h.2.1

theorem Tok.text_ne_nil (t : Tok) : t.text ≠ [] := by
  cases t with
  | line d b => cases d <;> simp [Tok.text]
  | _ => simp [Tok.text]

theorem text_head (t : Tok) (r : List Char) : (t.text ++ r).head? = t.text.head? := by
  cases h : t.text with
  | nil => exact absurd h (Tok.text_ne_nil t)
  | cons => simp

/-- The statement start after one lexical element. -/
def startAfter (isAlpha : Char → Bool) (p : P) : Option (Nat × Nat) → Tok → Option (Nat × Nat)
  | none, .plain c => if isAlpha c then some (p.line, p.index) else none
  | st, _ => st

/-- What the loop of `split` does over one lexical element other than `;`. -/
theorem splitLoop_tok (ha : isAlpha '/' = false) {t : Tok} {ts : List Tok} (hw : WF (t :: ts))
    (hs : t ≠ .plain ';') {p : P} (hp : p.rest = t.text ++ text ts)
    (start : Option (Nat × Nat)) (acc : List Segment) :
    splitLoop isAlpha p start acc = splitLoop isAlpha (adv p t.text (text ts))
      (startAfter isAlpha p start t) acc := by
  obtain ⟨htw, _, hadj⟩ := WF_cons hw
  have hhead : ∀ c : Char, (∀ u us, ts = u :: us → u.text.head? ≠ some c) → (text ts).head? ≠ some c := by
    intro c h
    cases ts with
    | nil => simp [text]
    | cons u us => simp only [text, List.flatMap_cons, text_head]; exact h u us rfl
  match t, htw with
  | .plain c, htw =>
    rw [splitLoop_plain (c := c) (r := text ts) (by simpa [Tok.text] using hp) htw.1 htw.2
      (by intro e; apply hs; rw [e])
      (by intro e; subst e; exact hhead _ (fun u us e' => (hadj u us e').1 rfl))
      (by intro e; subst e; exact hhead _ (fun u us e' => (hadj u us e').2 (Or.inl rfl)))]
    cases start <;> simp [Tok.text, startAfter]
  | .lit q b, htw =>
    rw [splitLoop_lit (by simpa [Tok.text] using hp) htw.1 htw.2]
    cases start <;> simp [Tok.text, startAfter]
  | .line d b, htw =>
    rw [splitLoop_line (by simpa using hp) htw.1 htw.2]
    cases start <;> simp [startAfter]
  | .block b, htw =>
    rw [splitLoop_block (by simpa using hp) htw.1 htw.2
      (hhead _ (fun u us e' => (hadj u us e').2 (Or.inr ⟨b, rfl⟩))) ha]
    cases start <;> simp [startAfter]

theorem pieces_ne_nil (ts : List Tok) : pieces ts ≠ [] := by
  cases ts with
  | nil => simp [pieces]
  | cons t ts => simp only [pieces]; split <;> try simp
                 split <;> simp

/-- Statements of a list of pieces. -/
def ofPieces (isAlpha : Char → Bool) (ps : List (List Tok)) : List (List Char) :=
  (ps.map (fun p => text (trimHead isAlpha p))).filter (· ≠ [])

theorem text_plain_cons (c : Char) (ts : List Tok) : text (.plain c :: ts) = c :: text ts := by
  simp [text, Tok.text]

theorem slice_index {p : P} {s : Nat} (hs : s ≤ p.index) : p.slice s p.index = p.pre.reverse.drop s := by
  simp only [P.slice, P.sql]
  have hs' : s ≤ p.pre.reverse.length := by simpa [P.index] using hs
  rw [List.drop_append_of_le_length hs', List.take_append_of_le_length (by simp [P.index]),
    List.take_of_length_le (by simp [P.index])]

theorem slice_adv {p : P} {s : Nat} {x r : List Char} (hs : s ≤ p.index) :
    (adv p x r).slice s (adv p x r).index = p.slice s p.index ++ x := by
  have hs' : s ≤ p.pre.reverse.length := by simpa [P.index] using hs
  rw [slice_index hs, slice_index (by simp [adv, P.index] at *; omega)]
  simp only [adv, List.reverse_append, List.reverse_reverse]
  rw [List.drop_append_of_le_length hs']

theorem adv_index (p : P) (x r : List Char) : (adv p x r).index = p.index + x.length := by
  simp [adv, P.index]; omega

/-- The loop of `split` over a whole script, outside (`none`) and inside (`some`) a statement. -/
theorem splitLoop_script (ha : isAlpha '/' = false) (ts : List Tok) (hw : WF ts) :
    (∀ (p : P) (acc : List Segment), p.rest = text ts →
      ∃ segs, splitLoop isAlpha p none acc = .ok (acc ++ segs) ∧
        segs.map Segment.sql = statements isAlpha ts) ∧
    (∀ (p : P) (ln s : Nat) (acc : List Segment), p.rest = text ts → s < p.index →
      ∃ segs, splitLoop isAlpha p (some (ln, s)) acc = .ok (acc ++ segs) ∧
        segs.map Segment.sql =
          (p.slice s p.index ++ text ((pieces ts).headD [])) :: ofPieces isAlpha (pieces ts).tail) := by
  induction ts with
  | nil =>
    refine ⟨?_, ?_⟩
    · intro p acc hp
      exact ⟨[], by rw [splitLoop_nil hp]; simp [emit], by simp [statements, pieces, trimHead, text]⟩
    · intro p ln s acc hp hs
      refine ⟨[⟨p.slice s p.index, ln⟩], ?_, ?_⟩
      · rw [splitLoop_nil hp]; simp [emit, hs]
      · simp [pieces, ofPieces, text]
  | cons t ts ih =>
    obtain ⟨htw, hws, _⟩ := WF_cons hw
    obtain ⟨ih1, ih2⟩ := ih hws
    by_cases hsemi : t = .plain ';'
    · subst hsemi
      refine ⟨?_, ?_⟩
      · intro p acc hp
        rw [text_plain_cons] at hp
        obtain ⟨segs, h1, h2⟩ := ih1 (adv p [';'] (text ts)) acc rfl
        refine ⟨segs, ?_, ?_⟩
        · rw [splitLoop_semi hp]; simpa [emit] using h1
        · rw [h2]; simp [statements, pieces, trimHead, text]
      · intro p ln s acc hp hs
        rw [text_plain_cons] at hp
        obtain ⟨segs, h1, h2⟩ := ih1 (adv p [';'] (text ts)) (acc ++ [⟨p.slice s p.index, ln⟩]) rfl
        refine ⟨⟨p.slice s p.index, ln⟩ :: segs, ?_, ?_⟩
        · rw [splitLoop_semi hp]; simpa [emit, hs] using h1
        · simp [h2, pieces, text, ofPieces, statements]
    · obtain ⟨pc, pcs, hpc⟩ : ∃ pc pcs, pieces ts = pc :: pcs := by
        cases h : pieces ts with
        | nil => exact absurd h (pieces_ne_nil ts)
        | cons a b => exact ⟨a, b, rfl⟩
      have hpieces : pieces (t :: ts) = (t :: pc) :: pcs := by simp [pieces, hsemi, hpc]
      have htext : text (t :: ts) = t.text ++ text ts := by simp [text]
      have hin : ∀ (p : P) (ln s : Nat) (acc : List Segment), p.rest = text (t :: ts) → s ≤ p.index →
          ∃ segs, splitLoop isAlpha (adv p t.text (text ts)) (some (ln, s)) acc = .ok (acc ++ segs) ∧
            segs.map Segment.sql =
              (p.slice s p.index ++ text (t :: pc)) :: ofPieces isAlpha pcs := by
        intro p ln s acc hp hs
        have hlen : 0 < t.text.length := List.length_pos_iff.mpr (Tok.text_ne_nil t)
        obtain ⟨segs, h1, h2⟩ := ih2 (adv p t.text (text ts)) ln s acc rfl (by rw [adv_index]; omega)
        refine ⟨segs, h1, ?_⟩
        rw [h2, slice_adv hs, hpc]
        simp [text]
      refine ⟨?_, ?_⟩
      · intro p acc hp
        have hp' : p.rest = t.text ++ text ts := by rw [hp, htext]
        rw [splitLoop_tok ha hw hsemi hp']
        by_cases hal : ∃ c, t = .plain c ∧ isAlpha c = true
        · obtain ⟨c, rfl, hc⟩ := hal
          simp only [startAfter, hc, if_true]
          obtain ⟨segs, h1, h2⟩ := hin p p.line p.index acc hp (Nat.le_refl _)
          refine ⟨segs, h1, ?_⟩
          rw [h2]
          have : p.slice p.index p.index = [] := by simp [P.slice]
          simp [statements, hpieces, trimHead, hc, this, ofPieces, text_plain_cons]
        · have e : startAfter isAlpha p none t = none := by
            cases t with
            | plain c => simp at hal; simp [startAfter, hal]
            | _ => rfl
          rw [e]
          obtain ⟨segs, h1, h2⟩ := ih1 (adv p t.text (text ts)) acc rfl
          refine ⟨segs, h1, ?_⟩
          rw [h2]
          have : trimHead isAlpha (t :: pc) = trimHead isAlpha pc := by
            cases t with
            | plain c => simp at hal; simp [trimHead, hal]
            | _ => simp [trimHead]
          simp [statements, hpieces, hpc, this]
      · intro p ln s acc hp hs
        have hp' : p.rest = t.text ++ text ts := by rw [hp, htext]
        rw [splitLoop_tok ha hw hsemi hp']
        obtain ⟨segs, h1, h2⟩ := hin p ln s acc hp (Nat.le_of_lt hs)
        refine ⟨segs, by simpa [startAfter] using h1, ?_⟩
        rw [h2, hpieces]; simp

/-! ### Located segments -/

/-- The (start, end) positions of the statements found so far. -/
def spanSeg (sql : List Char) (ij : Nat × Nat) : Segment :=
  ⟨(sql.drop ij.1).take (ij.2 - ij.1), 1 + newlines (sql.take ij.1)⟩

/-- A span is a non-empty stretch of `sql` that starts with a letter. -/
def SpanOK (isAlpha : Char → Bool) (sql : List Char) (ij : Nat × Nat) : Prop :=
  ij.1 < ij.2 ∧ ij.2 ≤ sql.length ∧ (∃ c, sql[ij.1]? = some c ∧ isAlpha c = true) ∧
    (ij.2 < sql.length → sql[ij.2]? = some ';')

/-- The invariant of the `split` loop about `acc` and `start`. -/
structure Inv (isAlpha : Char → Bool) (sql : List Char) (idx : Nat) (start : Option (Nat × Nat))
    (spans : List (Nat × Nat)) : Prop where
  ok : ∀ ij ∈ spans, SpanOK isAlpha sql ij
  sorted : spans.Pairwise (fun a b => a.2 < b.1)
  bound : ∀ ij ∈ spans, ij.2 < idx ∧ ∀ ln s, start = some (ln, s) → ij.2 < s
  cur : ∀ ln s, start = some (ln, s) → s < idx ∧ ln = 1 + newlines (sql.take s) ∧
    ∃ c, sql[s]? = some c ∧ isAlpha c = true

theorem Inv.mono {sql : List Char} {i j : Nat} {start : Option (Nat × Nat)} {spans : List (Nat × Nat)}
    (h : Inv isAlpha sql i start spans) (hij : i ≤ j) : Inv isAlpha sql j start spans where
  ok := h.ok
  sorted := h.sorted
  bound ij hm := ⟨Nat.lt_of_lt_of_le (h.bound ij hm).1 hij, (h.bound ij hm).2⟩
  cur ln s e := ⟨Nat.lt_of_lt_of_le (h.cur ln s e).1 hij, (h.cur ln s e).2⟩

theorem At.take {sql : List Char} {p : P} (h : At sql p) : sql.take p.index = p.pre.reverse := by
  rw [← h.1]; simp [P.sql, P.index]

theorem At.get {sql : List Char} {p : P} (h : At sql p) {c : Char} {r : List Char} (hr : p.rest = c :: r) :
    sql[p.index]? = some c := by
  rw [← h.1]; simp [P.sql, P.index, hr]

theorem At.line {sql : List Char} {p : P} (h : At sql p) : p.line = 1 + newlines (sql.take p.index) := by
  rw [h.take, newlines_reverse]; exact h.2

/-- Closing the current statement at the index. -/
theorem Inv.emit {sql : List Char} {p : P} (hat : At sql p) {start : Option (Nat × Nat)}
    {spans : List (Nat × Nat)} {idx : Nat} (h : Inv isAlpha sql p.index start spans) (hi : p.index < idx)
    (hend : p.index < sql.length → sql[p.index]? = some ';') :
    ∃ spans', Inv isAlpha sql idx none spans' ∧
      emit p start (spans.map (spanSeg sql)) = spans'.map (spanSeg sql) := by
  cases start with
  | none =>
    exact ⟨spans, ⟨h.ok, h.sorted, fun ij hm => ⟨Nat.lt_trans (h.bound ij hm).1 hi, by simp⟩, by simp⟩, rfl⟩
  | some lns =>
    obtain ⟨ln, s⟩ := lns
    obtain ⟨h1, h2, h3⟩ := h.cur ln s rfl
    have hlen := hat.length
    refine ⟨spans ++ [(s, p.index)], ⟨?_, ?_, ?_, by simp⟩, ?_⟩
    · intro ij hm
      rcases List.mem_append.mp hm with hm | hm
      · exact h.ok ij hm
      · simp at hm; subst hm
        exact ⟨h1, by simp; omega, h3, hend⟩
    · rw [List.pairwise_append]
      refine ⟨h.sorted, by simp, ?_⟩
      intro a ha b hb
      simp at hb; subst hb
      exact (h.bound a ha).2 ln s rfl
    · intro ij hm
      rcases List.mem_append.mp hm with hm | hm
      · exact ⟨Nat.lt_trans (h.bound ij hm).1 hi, by simp⟩
      · simp at hm; subst hm; exact ⟨hi, by simp⟩
    · simp [Parser.emit, h1, spanSeg, P.slice, hat.1, h2]

theorem splitLoop_located (sql : List Char) :
    ∀ (n : Nat) (p : P) (start : Option (Nat × Nat)) (spans : List (Nat × Nat)) (segs : List Segment),
      p.rest.length ≤ n → At sql p → Inv isAlpha sql p.index start spans →
      splitLoop isAlpha p start (spans.map (spanSeg sql)) = .ok segs →
      ∃ spans' : List (Nat × Nat), segs = spans'.map (spanSeg sql) ∧ (∀ ij ∈ spans', SpanOK isAlpha sql ij) ∧
        spans'.Pairwise (fun a b => a.2 < b.1) := by
  intro n
  induction n with
  | zero =>
    intro p start spans segs hn hat hinv h
    have hr : p.rest = [] := List.length_eq_zero_iff.mp (by omega)
    rw [splitLoop_nil hr] at h
    have hlen := hat.length
    simp [hr] at hlen
    obtain ⟨sp, h1, h2⟩ := hinv.emit hat (Nat.lt_succ_self _) (by omega)
    exact ⟨sp, by simpa [h2] using h.symm, h1.ok, h1.sorted⟩
  | succ n ih =>
    intro p start spans segs hn hat hinv h
    have mono : ∀ {q : P}, At sql q → q.rest.length < p.rest.length →
        splitLoop isAlpha q start (spans.map (spanSeg sql)) = .ok segs →
        ∃ spans' : List (Nat × Nat), segs = spans'.map (spanSeg sql) ∧ (∀ ij ∈ spans', SpanOK isAlpha sql ij) ∧
        spans'.Pairwise (fun a b => a.2 < b.1) := by
      intro q hq hl h
      refine ih q start spans segs (by omega) hq (hinv.mono ?_) h
      have := hat.length; have := hq.length; omega
    cases hr : p.rest with
    | nil =>
      rw [splitLoop_nil hr] at h
      have hlen := hat.length
      simp [hr] at hlen
      obtain ⟨sp, h1, h2⟩ := hinv.emit hat (Nat.lt_succ_self _) (by omega)
      exact ⟨sp, by simpa [h2] using h.symm, h1.ok, h1.sorted⟩
    | cons d r =>
      have hne : p.rest ≠ [] := by simp [hr]
      have hni : p.next.index = p.index + 1 := by rw [next_eq_adv hr, adv_index]; simp
      rw [splitLoop_cons hr] at h
      split at h
      · cases hs : skipEscape d p with
        | error q => simp [hs] at h
        | ok q => simp only [hs] at h; exact mono ((skipEscape_at hat).1 _ hs) (skipEscape_rest hs) h
      · split at h
        · exact mono (skipLineComment_at hat) (skipLineComment_rest hne) h
        · split at h
          · exact mono (skipLineComment_at hat) (skipLineComment_rest hne) h
          · split at h
            · cases hs : readUtil ['*', '/'] dq p with
              | error q => simp [hs] at h
              | ok q =>
                simp only [hs] at h
                exact mono ((readUtil_at hat).1 _ hs).next (readUtil_next_rest hne hs) h
            · split at h
              · next hd =>
                subst hd
                obtain ⟨sp, h1, h2⟩ := hinv.emit (idx := p.next.index) hat (by omega)
                  (fun _ => hat.get hr)
                rw [h2] at h
                exact ih _ _ _ _ (by have := P.next_rest hr; omega) hat.next h1 h
              · refine ih _ _ _ _ (by have := P.next_rest hr; omega) hat.next ?_ h
                by_cases hb : (start.isNone && isAlpha d) = true
                · simp only [hb, if_true]
                  simp at hb
                  refine ⟨hinv.ok, hinv.sorted, ?_, ?_⟩
                  · intro ij hm
                    have := (hinv.bound ij hm).1
                    refine ⟨by omega, ?_⟩
                    intro ln s e; simp at e; omega
                  · intro ln s e
                    simp at e
                    obtain ⟨rfl, rfl⟩ := e
                    exact ⟨by omega, hat.line, d, hat.get hr, hb.2⟩
                · simp only [hb]
                  exact hinv.mono (by omega)

/-! ### Failures of `split` -/

theorem splitLoop_error (sql : List Char) :
    ∀ (n : Nat) (p q : P) (start : Option (Nat × Nat)) (acc : List Segment),
      p.rest.length ≤ n → At sql p → splitLoop isAlpha p start acc = .error q →
      ∃ a b, sql = a ++ b ∧ (OpenLiteral b ∨ OpenBlockComment b) := by
  intro n
  induction n with
  | zero =>
    intro p q start acc hn hat h
    have hr : p.rest = [] := List.length_eq_zero_iff.mp (by omega)
    rw [splitLoop_nil hr] at h
    simp at h
  | succ n ih =>
    intro p q start acc hn hat h
    cases hr : p.rest with
    | nil => rw [splitLoop_nil hr] at h; simp at h
    | cons d r =>
      have hne : p.rest ≠ [] := by simp [hr]
      have hsql : sql = p.pre.reverse ++ (d :: r) := by rw [← hat.1, P.sql, hr]
      rw [splitLoop_cons hr] at h
      split at h
      · next hd =>
        cases hs : skipEscape d p with
        | error q' =>
          have hq := tq_iff.mp hd
          exact ⟨_, _, hsql, Or.inl ⟨d, r, hq, rfl, skipEscape_error (quote_ne_bs hq) hr hs⟩⟩
        | ok q' =>
          simp only [hs] at h
          exact ih _ _ _ _ (by have := skipEscape_rest hs; omega) ((skipEscape_at hat).1 _ hs) h
      · split at h
        · exact ih _ _ _ _ (by have := skipLineComment_rest hne; omega) (skipLineComment_at hat) h
        · split at h
          · exact ih _ _ _ _ (by have := skipLineComment_rest hne; omega) (skipLineComment_at hat) h
          · split at h
            · next hpre =>
              cases hs : readUtil ['*', '/'] dq p with
              | error q' =>
                have := readUtil_error dq_spec rfl (m := '*') (by decide) hs
                obtain ⟨t, ht⟩ := List.isPrefixOf_iff_prefix.mp hpre
                refine ⟨_, _, hsql, Or.inr ⟨⟨t, by simpa using ht.symm⟩, ?_⟩⟩
                rwa [hr] at this
              | ok q' =>
                simp only [hs] at h
                exact ih _ _ _ _ (by have := readUtil_next_rest hne hs; omega)
                  ((readUtil_at hat).1 _ hs).next h
            · split at h
              · exact ih _ _ _ _ (by have := P.next_rest hr; omega) hat.next h
              · exact ih _ _ _ _ (by have := P.next_rest hr; omega) hat.next h

theorem At.init (sql : List Char) : At sql (P.init sql) := by
  simp [At, P.init, P.sql, newlines]

end Verif.Parser
