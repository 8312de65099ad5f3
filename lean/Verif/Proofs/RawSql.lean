import Verif.Spec.RawSql
import Verif.Proofs.Subst
/-! Lemmas for C150. -/
namespace Verif.RawSql
open Verif.Env (replaceAll)

variable {isW isS : Char → Bool}

theorem dropWhile_blanks {w : List Char} (hw : ∀ c ∈ w, isS c = true) (y : List Char) :
    (w ++ y).dropWhile isS = y.dropWhile isS := by
  induction w with
  | nil => rfl
  | cons c w ih =>
    rw [List.cons_append, List.dropWhile_cons, if_pos (hw c (List.mem_cons_self ..)), ih fun c h => hw c (List.mem_cons_of_mem _ h)]

theorem dropWhile_head {c : Char} (h : isS c = false) (y : List Char) : (c :: y).dropWhile isS = c :: y := by
  rw [List.dropWhile_cons, if_neg (by simp [h])]

theorem isPrefixOf_iff {p s : List Char} : p.isPrefixOf s = true ↔ p <+: s := List.isPrefixOf_iff_prefix

/-- A pattern cannot straddle the border of `q ++ y` if `y` does not begin with a character of its tail. -/
theorem prefix_straddle {p q y : List Char} (hq : q ≠ []) (hy : ∀ c, y.head? = some c → c ∉ p.tail) (h : p <+: q ++ y) :
    p <+: q := by
  obtain ⟨z, hz⟩ := h
  rcases List.append_eq_append_iff.mp hz with ⟨a, ha, hb⟩ | ⟨a, ha, hb⟩
  · exact ⟨a, ha.symm⟩
  · cases a with
    | nil => simp at ha; exact ⟨[], by simp [ha]⟩
    | cons c a =>
      exfalso
      apply hy c (by rw [hb]; rfl)
      cases q with
      | nil => exact absurd rfl hq
      | cons x q => rw [ha]; simp

theorem dropWhile_suffix (s : List Char) : s.dropWhile isS <:+ s := List.dropWhile_suffix isS

/-- Dropping the blanks of a text whose last character is none. -/
theorem dropWhile_last {u : List Char} (hu : u ≠ []) (hl : ∀ c, u.getLast? = some c → isS c = false) (y : List Char) :
    (u ++ y).dropWhile isS = u.dropWhile isS ++ y ∧ u.dropWhile isS ≠ [] ∧
      (∀ c, (u.dropWhile isS).getLast? = some c → isS c = false) := by
  induction u with
  | nil => exact absurd rfl hu
  | cons c u ih =>
    by_cases h : isS c = true
    · cases u with
      | nil => simp at hl; simp [hl] at h
      | cons c' u =>
        have := ih (by simp) (fun c h => hl c (by simpa using h))
        simpa only [List.cons_append, List.dropWhile_cons, h, if_true] using this
    · simp only [List.cons_append, List.dropWhile_cons, h, if_false, ne_eq, reduceCtorEq, not_false_eq_true, true_and,
        Bool.false_eq_true]
      exact fun x hx => hl x hx

theorem suffix_last {u b : List Char} (h : u <:+ b) (hu : u ≠ []) : u.getLast? = b.getLast? := by
  obtain ⟨t, rfl⟩ := h
  rw [List.getLast?_append]
  cases hx : u.getLast? with
  | none => rw [List.getLast?_eq_none_iff] at hx; exact absurd hx hu
  | some c => rfl

/-- What follows the body, behind its blanks. -/
theorem tail_drop (hc : Classes isW isS) {b : Blk} (hb : b.Good isW isS) (rest : List Char) :
    (b.tail ++ rest).dropWhile isS = b.closeText ++ (endrawL ++ (b.w4 ++ ('*' :: '/' :: rest))) := by
  unfold Blk.tail
  simp only [List.append_assoc, List.cons_append, List.nil_append]
  rw [dropWhile_blanks hb.w3]
  unfold Blk.closeText
  split
  · exact dropWhile_head (hc.blank 'e' (by decide)) _
  · exact dropWhile_head (hc.blank ')' (by decide)) _

/-- The first character behind the body. -/
theorem tail_head {b : Blk} (hb : b.Good isW isS) (rest : List Char) {c : Char} (h : (b.tail ++ rest).head? = some c) :
    isS c = true ∨ c = ')' ∨ c = 'e' := by
  unfold Blk.tail at h
  cases hw : b.w3 with
  | cons x w => rw [hw] at h; simp at h; left; exact hb.w3 c (by rw [hw]; simp [h])
  | nil =>
    rw [hw] at h
    unfold Blk.closeText at h
    split at h <;> simp at h
    · right; right; exact h.symm
    · right; left; exact h.symm

theorem matchEnd_end (hc : Classes isW isS) {w : List Char} (hw : ∀ c ∈ w, isS c = true) (rest : List Char) :
    matchEnd isS (endrawL ++ (w ++ ('*' :: '/' :: rest))) = some rest := by
  have hdrop : (endrawL ++ (w ++ ('*' :: '/' :: rest))).drop 6 = w ++ ('*' :: '/' :: rest) := rfl
  unfold matchEnd
  rw [if_pos (isPrefixOf_iff.mpr ⟨_, rfl⟩), hdrop, dropWhile_blanks hw, dropWhile_head (hc.blank '*' (by decide))]
  rfl

theorem skipClose_close (hc : Classes isW isS) {b : Blk} (hb : b.Good isW isS) (y : List Char) :
    skipClose isS (b.closeText ++ (endrawL ++ y)) = endrawL ++ y := by
  unfold Blk.closeText
  cases hcl : b.cls with
  | none => rfl
  | some p =>
    obtain ⟨u, v⟩ := p
    obtain ⟨hu, hv⟩ := hb.cls u v hcl
    simp only [List.cons_append, List.append_assoc, skipClose]
    rw [dropWhile_blanks hu, dropWhile_head (hc.blank '/' (by decide))]
    simp only
    rw [dropWhile_blanks hv]
    exact dropWhile_head (hc.blank 'e' (by decide)) _

theorem matchTail_tail (hc : Classes isW isS) {b : Blk} (hb : b.Good isW isS) (rest : List Char) :
    matchTail isS (b.tail ++ rest) = some rest := by
  unfold matchTail
  rw [tail_drop hc hb, skipClose_close hc hb, matchEnd_end hc hb.w4]

/-- No `endraw` begins in the body. -/
theorem no_endraw (hc : Classes isW isS) {b : Blk} (hb : b.Good isW isS) {q : List Char} (hq : q ≠ []) (hs : q <:+ b.body) (rest : List Char) :
    endrawL.isPrefixOf (q ++ (b.tail ++ rest)) = false := by
  rw [Bool.eq_false_iff]
  intro h
  rw [isPrefixOf_iff] at h
  have := prefix_straddle hq (fun c h => ?_) h
  · exact hb.no_end (this.isInfix.trans hs.isInfix)
  · rcases tail_head hb rest h with h | h | h
    · intro hm
      have : isS c = false := hc.blank c (by revert hm; simp [endrawL]; intro h; rcases h with h | h | h | h | h <;> simp [h])
      rw [h] at this; cases this
    · subst h; decide
    · subst h; decide

theorem matchEnd_none {s : List Char} (h : endrawL.isPrefixOf s = false) : matchEnd isS s = none := by
  unfold matchEnd; rw [h]; rfl

theorem no_endraw_head {c : Char} (h : c ≠ 'e') (y : List Char) : endrawL.isPrefixOf (c :: y) = false := by
  simp [endrawL, List.isPrefixOf, Ne.symm h]

theorem skipClose_other {s : List Char} (h : ∀ r, s ≠ ')' :: r) : skipClose isS s = s := by
  unfold skipClose
  split
  · next r => exact absurd rfl (h r)
  · rfl

theorem skipClose_paren {r : List Char} (h : ∀ q, r.dropWhile isS ≠ '/' :: '*' :: q) : skipClose isS (')' :: r) = ')' :: r := by
  unfold skipClose
  split
  · next r' e =>
    injection e with _ e
    subst e
    split
    · next q e => exact absurd e (h q)
    · rfl
  · rfl

theorem skipClose_mark {r q : List Char} (h : r.dropWhile isS = '/' :: '*' :: q) : skipClose isS (')' :: r) = q.dropWhile isS := by
  unfold skipClose
  split
  · next r' e =>
    injection e with _ e
    subst e
    split
    · next e => rw [h] at e; injection e with _ e; injection e with _ e; rw [e]
    · next hn => exact absurd h (hn q)
  · next hn => exact absurd rfl (hn r)

theorem matchTail_body (hc : Classes isW isS) {b : Blk} (hb : b.Good isW isS) {u : List Char} (hu : u ≠ []) (hs : u <:+ b.body)
    (rest : List Char) : matchTail isS (u ++ (b.tail ++ rest)) = none := by
  have hlast : ∀ {v : List Char}, v ≠ [] → v <:+ b.body → ∀ c, v.getLast? = some c → isS c = false := fun hv h c hl =>
    hb.body_last c ((suffix_last h hv).symm.trans hl)
  have hclose : ∀ y, ∃ c q, b.closeText ++ (endrawL ++ y) = c :: q ∧ (c = ')' ∨ (b.cls = none ∧ c = 'e')) := by
    intro y
    unfold Blk.closeText
    split
    · next h => exact ⟨'e', _, rfl, .inr ⟨h, rfl⟩⟩
    · exact ⟨')', _, rfl, .inl rfl⟩
  obtain ⟨e1, n1, l1⟩ := dropWhile_last hu (hlast hu hs) (b.tail ++ rest)
  have s1 : u.dropWhile isS <:+ b.body := (dropWhile_suffix u).trans hs
  unfold matchTail
  rw [e1]
  apply matchEnd_none
  generalize hgen : u.dropWhile isS = u1 at e1 n1 l1 s1 ⊢
  cases u1 with
  | nil => exact absurd rfl n1
  | cons c r =>
    by_cases hcp : c = ')'
    · subst hcp
      have hr : r <:+ b.body := (List.suffix_cons _ _).trans s1
      simp only [List.cons_append]
      cases r with
      | nil =>
        simp only [List.nil_append]
        rw [skipClose_paren]
        · exact no_endraw_head (by decide) _
        · intro q
          rw [tail_drop hc hb]
          obtain ⟨c, q', e, hcc⟩ := hclose (b.w4 ++ '*' :: '/' :: rest)
          rw [e]
          intro x
          injection x with x _
          rcases hcc with h | h
          · rw [x] at h; exact absurd h (by decide)
          · rw [x] at h; exact absurd h.2 (by decide)
      | cons c' r =>
        obtain ⟨e2, n2, l2⟩ := dropWhile_last (u := c' :: r) (by simp) (hlast (by simp) hr) (b.tail ++ rest)
        have s2 : (c' :: r).dropWhile isS <:+ b.body := (dropWhile_suffix _).trans hr
        by_cases hq : ∃ q, (c' :: r).dropWhile isS = '/' :: '*' :: q
        · obtain ⟨q, hq⟩ := hq
          rw [hq] at e2 s2
          have sq : q <:+ b.body := ((List.suffix_cons _ _).trans (List.suffix_cons _ _)).trans s2
          have e2' : ((c' :: r) ++ (b.tail ++ rest)).dropWhile isS = '/' :: '*' :: (q ++ (b.tail ++ rest)) := e2
          rw [skipClose_mark e2']
          cases q with
          | nil =>
            simp only [List.nil_append]
            rw [tail_drop hc hb]
            obtain ⟨c, q', e, hcc⟩ := hclose (b.w4 ++ '*' :: '/' :: rest)
            rw [e]
            rcases hcc with h | h
            · subst h; exact no_endraw_head (by decide) _
            · exact absurd (by rw [← suffix_last s2 (by simp)]; rfl) (hb.last_cls h.1)
          | cons z q =>
            obtain ⟨e3, n3, l3⟩ := dropWhile_last (u := z :: q) (by simp) (hlast (by simp) sq) (b.tail ++ rest)
            rw [e3, no_endraw hc hb n3 ((dropWhile_suffix _).trans sq)]
        · rw [skipClose_paren]
          · exact no_endraw_head (by decide) _
          · intro q
            rw [e2]
            intro x
            apply hq
            generalize (c' :: r).dropWhile isS = r1 at n2 x ⊢
            match r1, n2 with
            | [z], _ =>
              exfalso
              simp only [List.cons_append, List.nil_append, List.cons.injEq] at x
              have := tail_head hb rest (c := '*') (by rw [x.2]; rfl)
              rcases this with h | h | h
              · rw [hc.blank '*' (by decide)] at h; cases h
              · exact absurd h (by decide)
              · exact absurd h (by decide)
            | z :: z' :: q', _ =>
              simp only [List.cons_append, List.cons.injEq] at x
              exact ⟨q', by rw [x.1, x.2.1]⟩
    · rw [skipClose_other]
      · exact no_endraw hc hb n1 s1 rest
      · intro r' x
        simp only [List.cons_append, List.cons.injEq] at x
        exact hcp x.1

theorem findTail_body (hc : Classes isW isS) {b : Blk} (hb : b.Good isW isS) (rest : List Char) :
    ∀ u, u <:+ b.body → findTail isS (u ++ (b.tail ++ rest)) = some (u, rest)
  | [], _ => by
      simp only [List.nil_append]
      have := matchTail_tail hc hb rest
      cases ht : b.tail ++ rest with
      | nil => simp [Blk.tail] at ht
      | cons c cs => rw [ht] at this; simp [findTail, this]
  | c :: u, h => by
      have hm := matchTail_body hc hb (u := c :: u) (by simp) h rest
      have ih := findTail_body hc hb rest u ((List.suffix_cons _ _).trans h)
      simp only [List.cons_append] at hm ⊢
      simp [findTail, hm, ih]

theorem takeWhile_pre {f : Char → Bool} {a : List Char} {c : Char} {y : List Char} (ha : ∀ x ∈ a, f x = true) (hcf : f c = false) :
    (a ++ c :: y).takeWhile f = a ∧ (a ++ c :: y).dropWhile f = c :: y := by
  induction a with
  | nil => simp [List.takeWhile_cons, List.dropWhile_cons, hcf]
  | cons x a ih =>
    obtain ⟨h1, h2⟩ := ih fun x h => ha x (List.mem_cons_of_mem _ h)
    have hx := ha x (List.mem_cons_self ..)
    simp only [List.cons_append, List.takeWhile_cons, List.dropWhile_cons, hx, if_true, h1, h2, and_self]

/-- What stands between the name and the body is skipped. -/
theorem skip_open (hc : Classes isW isS) {b : Blk} (hb : b.Good isW isS) (rest : List Char) :
    skipOpen isS ((b.w2 ++ (b.openText ++ (b.body ++ (b.tail ++ rest)))).dropWhile isS) =
    (b.body ++ (b.tail ++ rest)).dropWhile isS := by
  rw [dropWhile_blanks hb.w2]
  cases ho : b.opn with
  | none =>
    have e : b.openText = [] := by simp [Blk.openText, ho]
    rw [e, List.nil_append]
    have hhead : ∀ v, (b.body ++ (b.tail ++ rest)).dropWhile isS ≠ '*' :: v := by
      intro v hv
      cases hbody : b.body with
      | nil =>
        rw [hbody, List.nil_append, tail_drop hc hb] at hv
        unfold Blk.closeText at hv
        split at hv <;> simp [endrawL] at hv
      | cons c cs =>
        rw [hbody, List.cons_append, dropWhile_head (hb.body_head c (by rw [hbody]; rfl))] at hv
        injection hv with hv _
        exact hb.head_opn ho (by rw [hbody, hv]; rfl)
    unfold skipOpen
    split
    · next h => exact absurd h (hhead _)
    · rfl
  | some p =>
    obtain ⟨u, v⟩ := p
    obtain ⟨hu, hv⟩ := hb.opn u v ho
    have e : b.openText = '*' :: '/' :: (u ++ '(' :: v) := by simp [Blk.openText, ho]
    rw [e]
    simp only [List.cons_append, List.append_assoc]
    rw [dropWhile_head (hc.blank '*' (by decide))]
    simp only [skipOpen]
    rw [dropWhile_blanks hu, dropWhile_head (hc.blank '(' (by decide))]
    simp only
    rw [dropWhile_blanks hv]

theorem drop_body (hc : Classes isW isS) {b : Blk} (hb : b.Good isW isS) (rest : List Char) :
    findTail isS ((b.body ++ (b.tail ++ rest)).dropWhile isS) = some (b.body, rest) := by
  cases hbody : b.body with
  | nil =>
    rw [List.nil_append, tail_drop hc hb]
    -- the blanks before the end are not part of the body: the same block without them
    have hb' : ({ b with w3 := [] } : Blk).Good isW isS := { hb with w3 := by simp }
    have := findTail_body hc hb' rest [] (List.nil_suffix)
    simpa [Blk.tail, Blk.closeText] using this
  | cons c cs =>
    rw [List.cons_append, dropWhile_head (hb.body_head c (by rw [hbody]; rfl)), ← List.cons_append, ← hbody]
    exact findTail_body hc hb rest b.body (List.suffix_refl _)

theorem text_eq (b : Blk) (rest : List Char) : b.text ++ rest =
    '/' :: '*' :: (b.w1 ++ (rawL ++ (b.name ++ (')' :: (b.w2 ++ (b.openText ++ (b.body ++ (b.tail ++ rest)))))))) := by
  simp [Blk.text]

theorem matchName_text (hc : Classes isW isS) {b : Blk} (hb : b.Good isW isS) (rest : List Char) :
    matchName isW isS (b.name ++ (')' :: (b.w2 ++ (b.openText ++ (b.body ++ (b.tail ++ rest)))))) =
      some (b.name, b.body, rest) := by
  have hp : (fun c => isW c || decide (c = '.')) ')' = false := by simp [hc.word ')' (by decide)]
  obtain ⟨t1, t2⟩ := takeWhile_pre (y := b.w2 ++ (b.openText ++ (b.body ++ (b.tail ++ rest)))) hb.name hp
  unfold matchName
  simp only [t1, t2]
  rw [if_neg hb.name_ne, skip_open hc hb, drop_body hc hb]
  rfl

/-- The match at the beginning of a block is the block. -/
theorem matchRaw_text (hc : Classes isW isS) {b : Blk} (hb : b.Good isW isS) (rest : List Char) :
    matchRaw isW isS (b.text ++ rest) = some (⟨b.text, b.name, b.body⟩, rest) := by
  have htake : (b.text ++ rest).take ((b.text ++ rest).length - rest.length) = b.text := by
    rw [List.length_append, Nat.add_sub_cancel, List.take_left']
    rfl
  have hd : (b.w1 ++ (rawL ++ (b.name ++ (')' :: (b.w2 ++ (b.openText ++ (b.body ++ (b.tail ++ rest)))))))).dropWhile isS =
      rawL ++ (b.name ++ (')' :: (b.w2 ++ (b.openText ++ (b.body ++ (b.tail ++ rest)))))) := by
    rw [dropWhile_blanks hb.w1]
    exact dropWhile_head (hc.blank 'r' (by decide)) _
  have hdrop : ∀ y : List Char, (rawL ++ y).drop 4 = y := fun y => rfl
  have hm := matchName_text hc hb rest
  generalize hs : b.text ++ rest = s at htake ⊢
  rw [text_eq] at hs
  rw [← hs] at htake ⊢
  simp only [matchRaw, hd]
  rw [if_pos (isPrefixOf_iff.mpr ⟨_, rfl⟩), hdrop, hm]
  simp only [Option.map_some, htake]

theorem matchRaw_starts {s : List Char} {p : Block × List Char} (h : matchRaw isW isS s = some p) : startsRaw isS s = true := by
  unfold matchRaw at h
  split at h
  · split at h
    · next hp => exact hp
    · cases h
  · cases h

theorem startsRaw_append {s : List Char} (h : startsRaw isS s = true) (y : List Char) : startsRaw isS (s ++ y) = true := by
  unfold startsRaw at h
  split at h
  · next t =>
    simp only [List.cons_append, startsRaw]
    rw [isPrefixOf_iff] at h ⊢
    have hne : t.dropWhile isS ≠ [] := by
      intro e; rw [e] at h; simp [rawL] at h
    have : (t ++ y).dropWhile isS = t.dropWhile isS ++ y := by
      rw [List.dropWhile_append]
      cases hd : t.dropWhile isS with
      | nil => exact absurd hd hne
      | cons c cs => rfl
    rw [this]
    exact h.trans (List.prefix_append _ _)
  · cases h

/-- `/* raw(` cannot straddle a border. -/
theorem startsRaw_border {q y : List Char} (hq : q ≠ []) (h1 : ∀ c, y.head? = some c → c ≠ '*')
    (h2 : rawL.isPrefixOf (y.dropWhile isS) = false)
    (h3 : ∀ p, p ≠ [] → (∃ a, a ≠ [] ∧ rawL = a ++ p) → ¬ p <+: y)
    (h : startsRaw isS (q ++ y) = true) : startsRaw isS q = true := by
  unfold startsRaw at h
  split at h
  · next t e =>
    match q, hq with
    | [x], _ =>
      simp only [List.cons_append, List.nil_append, List.cons.injEq] at e
      exact absurd rfl (h1 '*' (by rw [e.2]; rfl))
    | x :: x' :: q, _ =>
      simp only [List.cons_append, List.cons.injEq] at e
      obtain ⟨rfl, rfl, rfl⟩ := e
      simp only [startsRaw]
      rw [List.dropWhile_append] at h
      cases hd : q.dropWhile isS with
      | nil => rw [hd] at h; simp only [List.isEmpty_nil, if_true] at h; rw [h2] at h; cases h
      | cons c cs =>
        rw [hd] at h
        simp only [List.isEmpty_cons, if_false, Bool.false_eq_true] at h
        rw [isPrefixOf_iff] at h ⊢
        obtain ⟨z, hz⟩ := h
        rcases List.append_eq_append_iff.mp hz with ⟨a, ha, hb⟩ | ⟨a, ha, hb⟩
        · exact ⟨a, ha.symm⟩
        · cases a with
          | nil => rw [List.append_nil] at ha; exact ⟨[], by rw [ha]; simp⟩
          | cons x a => exact absurd ⟨z, hb.symm⟩ (h3 (x :: a) (by simp) ⟨c :: cs, by simp, ha⟩)
  · cases h

/-! ### Where blocks do not begin -/

/-- No block begins in `s` when `y` follows. -/
def Quiet (isS : Char → Bool) (s y : List Char) : Prop := ∀ u, u ≠ [] → u <:+ s → startsRaw isS (u ++ y) = false

theorem quiet_append {s t y : List Char} (h1 : Quiet isS s (t ++ y)) (h2 : Quiet isS t y) : Quiet isS (s ++ t) y := by
  intro u hu hs
  obtain ⟨a, ha⟩ := hs
  rcases List.append_eq_append_iff.mp ha with ⟨v, e1, e2⟩ | ⟨v, e1, e2⟩
  · subst e2
    by_cases hv : v = []
    · subst hv; simp only [List.nil_append] at *; exact h2 t hu (List.suffix_refl _)
    · rw [List.append_assoc]; exact h1 v hv ⟨a, e1.symm⟩
  · exact h2 u hu ⟨v, e2.symm⟩

theorem startsRaw_head {c : Char} (h : c ≠ '/') (y : List Char) : startsRaw isS (c :: y) = false := by
  unfold startsRaw
  split
  · next e => injection e with e _; exact absurd e h
  · rfl

theorem startsRaw_second {c : Char} (h : c ≠ '*') (y : List Char) : startsRaw isS ('/' :: c :: y) = false := by
  unfold startsRaw
  split
  · next e => injection e with _ e; injection e with e _; exact absurd e h
  · rfl

theorem quiet_plain {s y : List Char} (h : '/' ∉ s) : Quiet isS s y := by
  intro u hu hs
  cases u with
  | nil => exact absurd rfl hu
  | cons c u =>
    apply startsRaw_head
    rintro rfl
    exact h (hs.subset (List.mem_cons_self ..))

theorem quiet_one {y : List Char} (h : startsRaw isS ('/' :: y) = false) : Quiet isS ['/'] y := by
  intro u hu hs
  have : u = ['/'] := by
    rcases List.suffix_cons_iff.mp hs with h | h
    · exact h
    · exact absurd (List.suffix_nil.mp h) hu
  subst this
  exact h

theorem raw_tails {p : List Char} (hp : p ≠ []) (h : ∃ a, a ≠ [] ∧ rawL = a ++ p) :
    p = ['a', 'w', '('] ∨ p = ['w', '('] ∨ p = ['('] := by
  obtain ⟨a, ha, e⟩ := h
  match a, ha with
  | [x], _ => simp [rawL] at e; left; exact e.2.symm
  | [x, y], _ => simp [rawL] at e; right; left; exact e.2.2.symm
  | [x, y, z], _ => simp [rawL] at e; right; right; exact e.2.2.2.symm
  | x :: y :: z :: w :: a, _ => simp [rawL] at e; exact absurd e.2.2.2.2.2 hp

theorem not_mem_slash (hc : Classes isW isS) {w : List Char} (hw : ∀ c ∈ w, isS c = true) : '/' ∉ w := fun h => by
  have := hw _ h; rw [hc.blank '/' (by decide)] at this; cases this

theorem not_mem_name (hc : Classes isW isS) {n : List Char} (hn : ∀ c ∈ n, (isW c || c = '.') = true) : '/' ∉ n := fun h => by
  have := hn _ h; simp [hc.word '/' (by decide)] at this

theorem quiet_body (hc : Classes isW isS) {b : Blk} (hb : b.Good isW isS) (rest : List Char) : Quiet isS b.body (b.tail ++ rest) := by
  intro u hu hs
  rw [Bool.eq_false_iff]
  intro h
  have := startsRaw_border hu ?_ ?_ ?_ h
  · rw [hb.no_raw u hs] at this; cases this
  · intro c hh
    rcases tail_head hb rest hh with h | h | h
    · rintro rfl; rw [hc.blank '*' (by decide)] at h; cases h
    · subst h; decide
    · subst h; decide
  · rw [tail_drop hc hb]
    unfold Blk.closeText
    split <;> rfl
  · intro p hp ht hpre
    obtain ⟨z, hz⟩ := hpre
    have hh : ∀ c, p.head? = some c → isS c = true ∨ c = ')' ∨ c = 'e' := fun c h => tail_head hb rest (by
      rw [← hz]; cases p with
      | nil => cases h
      | cons x p => exact h)
    rcases raw_tails hp ht with e | e | e <;> subst e
    · rcases hh 'a' rfl with h | h | h
      · rw [hc.blank 'a' (by decide)] at h; cases h
      · exact absurd h (by decide)
      · exact absurd h (by decide)
    · rcases hh 'w' rfl with h | h | h
      · rw [hc.blank 'w' (by decide)] at h; cases h
      · exact absurd h (by decide)
      · exact absurd h (by decide)
    · rcases hh '(' rfl with h | h | h
      · rw [hc.blank '(' (by decide)] at h; cases h
      · exact absurd h (by decide)
      · exact absurd h (by decide)

theorem quiet_tail (hc : Classes isW isS) {b : Blk} (hb : b.Good isW isS) {rest : List Char} (hr : startsRaw isS ('/' :: rest) = false) :
    Quiet isS b.tail rest := by
  have e : b.tail = b.w3 ++ (b.closeText ++ ((endrawL ++ (b.w4 ++ ['*'])) ++ ['/'])) := by simp [Blk.tail]
  rw [e]
  apply quiet_append (quiet_plain (not_mem_slash hc hb.w3))
  apply quiet_append
  · unfold Blk.closeText
    split
    · exact quiet_plain (by simp)
    · next u v hcl =>
      obtain ⟨hu, hv⟩ := hb.cls u v hcl
      have e : ')' :: (u ++ '/' :: '*' :: v) = (')' :: u) ++ (['/'] ++ ('*' :: v)) := by simp
      rw [e]
      apply quiet_append (quiet_plain (by simp [not_mem_slash hc hu]))
      apply quiet_append _ (quiet_plain (by simp [not_mem_slash hc hv]))
      apply quiet_one
      simp only [List.cons_append, List.append_assoc, startsRaw]
      rw [dropWhile_blanks hv, show endrawL = 'e' :: ['n', 'd', 'r', 'a', 'w'] from rfl]
      rw [List.cons_append, dropWhile_head (hc.blank 'e' (by decide))]
      rfl
  · apply quiet_append (quiet_plain _) (quiet_one hr)
    simp [endrawL, not_mem_slash hc hb.w4]

theorem quiet_open (hc : Classes isW isS) {b : Blk} (hb : b.Good isW isS) (y : List Char) : Quiet isS b.openText y := by
  unfold Blk.openText
  split
  · exact quiet_plain (by simp)
  · next u v ho =>
    obtain ⟨hu, hv⟩ := hb.opn u v ho
    have e : '*' :: '/' :: (u ++ '(' :: v) = ['*'] ++ (['/'] ++ (u ++ '(' :: v)) := by simp
    rw [e]
    apply quiet_append (quiet_plain (by simp))
    apply quiet_append _ (quiet_plain (by simp [not_mem_slash hc hu, not_mem_slash hc hv]))
    apply quiet_one
    cases u with
    | nil => exact startsRaw_second (by decide) _
    | cons c u =>
      apply startsRaw_second
      rintro rfl
      have := hu '*' (List.mem_cons_self ..)
      rw [hc.blank '*' (by decide)] at this; cases this

/-- No block begins inside a block. -/
theorem quiet_text (hc : Classes isW isS) {b : Blk} (hb : b.Good isW isS) {rest : List Char} (hr : startsRaw isS ('/' :: rest) = false) :
    ∃ t, b.text = '/' :: t ∧ Quiet isS t rest := by
  refine ⟨('*' :: (b.w1 ++ rawL ++ b.name ++ ')' :: b.w2)) ++ (b.openText ++ (b.body ++ b.tail)), by simp [Blk.text], ?_⟩
  apply quiet_append (quiet_plain _)
  · apply quiet_append (quiet_open hc hb _)
    exact quiet_append (quiet_body hc hb rest) (quiet_tail hc hb hr)
  · simp [rawL, not_mem_slash hc hb.w1, not_mem_slash hc hb.w2, not_mem_name hc hb.name]

theorem startsRaw_text (hc : Classes isW isS) {b : Blk} (hb : b.Good isW isS) : startsRaw isS b.text = true := by
  have := matchRaw_starts (matchRaw_text hc hb [])
  rwa [List.append_nil] at this

/-! ### Documents -/

/-- A name begins with a word and a point. -/
theorem first_point (hc : Classes isW isS) {n : List Char} (hn : ∀ c ∈ n, (isW c || c = '.') = true) (hdot : '.' ∈ n)
    (y : List Char) : ∃ z, (n ++ y).dropWhile (fun c => c ≠ '.' && c ≠ '(') = '.' :: z := by
  induction n with
  | nil => cases hdot
  | cons c n ih =>
    by_cases hcd : c = '.'
    · subst hcd; exact ⟨n ++ y, by simp⟩
    · have hcp : c ≠ '(' := by
        rintro rfl
        have := hn '(' (List.mem_cons_self ..)
        simp [hc.word '(' (by decide)] at this
      obtain ⟨z', hz'⟩ := ih (fun c h => hn c (List.mem_cons_of_mem _ h)) (by
        rcases List.mem_cons.mp hdot with h | h
        · exact absurd h.symm hcd
        · exact h)
      refine ⟨z', ?_⟩
      rw [List.cons_append, List.dropWhile_cons, if_pos (by simp [hcd, hcp]), hz']

/-- No block begins at a plain character. -/
theorem plain_border (hc : Classes isW isS) : ∀ (d : List Item), WF isW isS d → ∀ q, q ≠ [] →
    startsRaw isS (q ++ run d) = false → startsRaw isS (q ++ docText d) = false
  | [], _, q, _, h => by simpa [run, docText] using h
  | .ch c :: d, hd, q, hq, h => by
      have := plain_border hc d hd.2 (q ++ [c]) (by simp) (by simpa [run] using h)
      simpa [docText] using this
  | .blk b :: d, hd, q, hq, h => by
      simp only [run, List.append_nil] at h
      rw [Bool.eq_false_iff]
      intro hs
      have := startsRaw_border hq ?_ ?_ ?_ hs
      · rw [h] at this; cases this
      · intro c hh; simp only [docText, text_eq] at hh; injection hh with hh; subst hh; decide
      · simp only [docText, text_eq]
        rw [dropWhile_head (hc.blank '/' (by decide))]
        rfl
      · intro p hp ht hpre
        simp only [docText, text_eq] at hpre
        rcases raw_tails hp ht with e | e | e <;> subst e <;> (obtain ⟨z, hz⟩ := hpre; injection hz with hz _; exact absurd hz (by decide))
  | .done n :: d, hd, q, hq, h => by
      simp only [run, List.append_nil] at h
      rw [Bool.eq_false_iff]
      intro hs
      obtain ⟨hn, hdot, _⟩ := hd
      -- a word followed by `(` is not the beginning of the name
      have key : ∀ k : List Char, (∀ c ∈ k, c ≠ '.' ∧ c ≠ '(') → ¬ (k ++ ['(']) <+: (n ++ docText d) := by
        intro k hk hpre
        obtain ⟨z, hz⟩ := hpre
        have h1 : ((k ++ ['(']) ++ z).dropWhile (fun c => c ≠ '.' && c ≠ '(') = '(' :: z := by
          rw [List.append_assoc]
          exact (takeWhile_pre (fun c hc => by simpa using hk c hc) (by simp)).2
        rw [hz] at h1
        have h2 := first_point hc hn hdot (docText d)
        obtain ⟨z', h2⟩ := h2
        rw [h2] at h1
        injection h1 with h1 _
        exact absurd h1 (by decide)
      have hne : n ≠ [] := by rintro rfl; cases hdot
      have := startsRaw_border hq ?_ ?_ ?_ hs
      · rw [h] at this; cases this
      · intro c hh
        cases n with
        | nil => exact absurd rfl hne
        | cons x n =>
          simp only [docText, List.cons_append, List.head?_cons, Option.some.injEq] at hh
          subst hh
          rintro rfl
          have := hn '*' (List.mem_cons_self ..)
          simp [hc.word '*' (by decide)] at this
      · cases hp : rawL.isPrefixOf ((docText (.done n :: d)).dropWhile isS) with
        | false => rfl
        | true =>
          exfalso
          rw [isPrefixOf_iff] at hp
          simp only [docText] at hp
          have hnb : (n ++ docText d).dropWhile isS = n ++ docText d := by
            cases n with
            | nil => exact absurd rfl hne
            | cons x n =>
              rw [List.cons_append]
              apply dropWhile_head
              have := hn x (List.mem_cons_self ..)
              by_cases hx : x = '.'
              · subst hx; exact hc.blank '.' (by decide)
              · exact hc.apart x (by simpa [hx] using this)
          rw [hnb] at hp
          exact key ['r', 'a', 'w'] (by decide) hp
      · intro p hp ht hpre
        simp only [docText] at hpre
        rcases raw_tails hp ht with e | e | e <;> subst e
        · exact key ['a', 'w'] (by decide) hpre
        · exact key ['w'] (by decide) hpre
        · exact key [] (by simp) hpre

theorem WF.good {d : List Item} (h : WF isW isS d) : ∀ b ∈ blocks d, b.Good isW isS := by
  induction d with
  | nil => intro b hb; cases hb
  | cons i d ih =>
    cases i with
    | ch c => exact ih h.2
    | done n => exact ih h.2.2
    | blk b =>
      intro b' hb'
      rcases List.mem_cons.mp hb' with e | e
      · subst e; exact h.1
      · exact ih h.2.2 b' e

/-- The matches in a statement are its blocks. -/
theorem findAll_doc (hc : Classes isW isS) : ∀ (d : List Item), WF isW isS d → Written d → ∀ fuel, (docText d).length ≤ fuel →
    findAll isW isS fuel (docText d) = (blocks d).map fun b => ⟨b.text, b.name, b.body⟩
  | [], _, _, fuel, _ => by cases fuel <;> rfl
  | .ch c :: d, hd, hw, 0, hf => by simp [docText] at hf
  | .ch c :: d, hd, hw, fuel + 1, hf => by
      have hm : matchRaw isW isS (c :: docText d) = none := by
        cases h : matchRaw isW isS (c :: docText d) with
        | none => rfl
        | some p =>
          have := matchRaw_starts h
          rw [show c :: docText d = [c] ++ docText d from rfl, plain_border hc d hd.2 [c] (by simp) hd.1] at this
          cases this
      simp only [docText, findAll, hm, blocks]
      exact findAll_doc hc d hd.2 hw fuel (by simpa [docText] using hf)
  | .blk b :: d, hd, hw, 0, hf => by simp [docText, Blk.text] at hf
  | .blk b :: d, hd, hw, fuel + 1, hf => by
      have hm := matchRaw_text hc hd.1 (docText d)
      have hl : (docText d).length ≤ fuel := by
        simp only [docText, List.length_append] at hf
        have : 0 < b.text.length := by simp [Blk.text]
        omega
      simp only [docText, blocks, List.map_cons]
      rw [show b.text ++ docText d = '/' :: (b.text.tail ++ docText d) from rfl] at hm ⊢
      simp only [findAll, hm]
      rw [findAll_doc hc d hd.2.2 hw fuel hl]

/-- The statement after one replacement. -/
def substOne (t : List Char) : List Item → List Item
  | [] => []
  | .ch c :: d => .ch c :: substOne t d
  | .blk b :: d => (if b.text = t then .done b.name else .blk b) :: substOne t d
  | .done n :: d => .done n :: substOne t d

theorem run_substOne (t : List Char) (d : List Item) : run (substOne t d) = run d := by
  induction d with
  | nil => rfl
  | cons i d ih =>
    cases i with
    | ch c => simp [substOne, run, ih]
    | done n => rfl
    | blk b => simp only [substOne]; split <;> rfl

theorem WF_substOne {t : List Char} {d : List Item} (h : WF isW isS d) (hp : ∀ b ∈ blocks d, b.text = t → '.' ∈ b.name) :
    WF isW isS (substOne t d) := by
  induction d with
  | nil => trivial
  | cons i d ih =>
    cases i with
    | ch c => exact ⟨by rw [run_substOne]; exact h.1, ih h.2 hp⟩
    | done n => exact ⟨h.1, h.2.1, ih h.2.2 hp⟩
    | blk b =>
      have ih' := ih h.2.2 (fun b' hb' => hp b' (List.mem_cons_of_mem _ hb'))
      simp only [substOne]
      split
      · next e => exact ⟨h.1.name, hp b (List.mem_cons_self ..) e, ih'⟩
      · exact ⟨h.1, by rw [run_substOne]; exact h.2.1, ih'⟩

theorem replaceAll_skip {old new : List Char} {ho : old ≠ []} (s rest : List Char)
    (h : ∀ u, u ≠ [] → u <:+ s → old.isPrefixOf (u ++ rest) = false) :
    replaceAll old new ho (s ++ rest) = s ++ replaceAll old new ho rest := by
  induction s with
  | nil => rfl
  | cons c s ih =>
    rw [List.cons_append, Env.replaceAll_miss (by rw [← isPrefixOf_iff, ← List.cons_append, h (c :: s) (by simp) (List.suffix_refl _)]; simp),
      ih fun u hu hs => h u hu (hs.trans (List.suffix_cons _ _))]
    rfl

/-- A block is found where blocks begin only. -/
theorem no_prefix (hc : Classes isW isS) {b : Blk} (hb : b.Good isW isS) {s : List Char} (h : startsRaw isS s = false) :
    b.text.isPrefixOf s = false := by
  rw [Bool.eq_false_iff]
  intro hp
  rw [isPrefixOf_iff] at hp
  obtain ⟨z, rfl⟩ := hp
  rw [startsRaw_append (startsRaw_text hc hb)] at h
  cases h

theorem replaceAll_doc (hc : Classes isW isS) {b : Blk} (hb : b.Good isW isS) (ho : b.text ≠ []) : ∀ (d : List Item), WF isW isS d →
    replaceAll b.text b.name ho (docText d) = docText (substOne b.text d)
  | [], _ => by simp [docText, substOne, replaceAll]
  | .ch c :: d, hd => by
      simp only [docText, substOne]
      rw [Env.replaceAll_miss, replaceAll_doc hc hb ho d hd.2]
      have : startsRaw isS (c :: docText d) = false := plain_border hc d hd.2 [c] (by simp) hd.1
      rw [← isPrefixOf_iff, no_prefix hc hb this]; simp
  | .done n :: d, hd => by
      simp only [docText, substOne]
      rw [replaceAll_skip, replaceAll_doc hc hb ho d hd.2.2]
      intro u hu hs
      exact no_prefix hc hb (quiet_plain (not_mem_name hc hd.1) u hu hs)
  | .blk b' :: d, hd => by
      obtain ⟨hb', hr, hd⟩ := hd
      have ih := replaceAll_doc hc hb ho d hd
      simp only [docText, substOne]
      by_cases e : b'.text = b.text
      · rw [if_pos e]
        have hname : b'.name = b.name := by
          have h1 := matchRaw_text hc hb []
          have h2 := matchRaw_text hc hb' []
          rw [e, h1] at h2
          injection h2 with h2
          injection h2 with h2 _
          injection h2 with _ h2 _
          exact h2.symm
        rw [e, Env.replaceAll_hit, ih]
        simp [docText, hname]
      · rw [if_neg e]
        obtain ⟨t, ht, hq⟩ := quiet_text hc hb' (plain_border hc d hd ['/'] (by simp) hr)
        have hfirst : b.text.isPrefixOf (b'.text ++ docText d) = false := by
          rw [Bool.eq_false_iff]
          intro hp
          rw [isPrefixOf_iff] at hp
          obtain ⟨z, hz⟩ := hp
          have h1 := matchRaw_text hc hb z
          have h2 := matchRaw_text hc hb' (docText d)
          rw [hz, h2] at h1
          injection h1 with h1
          injection h1 with h1 _
          injection h1 with h1 _ _
          exact e h1
        rw [replaceAll_skip, ih]
        · simp [docText]
        · intro u hu hs
          rw [ht] at hs
          rcases List.suffix_cons_iff.mp hs with h | h
          · rw [h, ← ht]; exact hfirst
          · exact no_prefix hc hb (hq u hu h)

theorem docOut_substOne (t : List Char) (d : List Item) : docOut (substOne t d) = docOut d := by
  induction d with
  | nil => rfl
  | cons i d ih =>
    cases i with
    | ch c => simp [substOne, docOut, ih]
    | done n => simp [substOne, docOut, ih]
    | blk b => simp only [substOne]; split <;> simp [docOut, ih]

theorem blocks_substOne (t : List Char) (d : List Item) : blocks (substOne t d) = (blocks d).filter fun b => b.text ≠ t := by
  induction d with
  | nil => rfl
  | cons i d ih =>
    cases i with
    | ch c => simp [substOne, blocks, ih]
    | done n => simp [substOne, blocks, ih]
    | blk b =>
      simp only [substOne, blocks, List.filter_cons]
      split <;> simp_all [blocks]

theorem docText_done (d : List Item) (h : blocks d = []) : docText d = docOut d := by
  induction d with
  | nil => rfl
  | cons i d ih =>
    cases i with
    | ch c => simp [docText, docOut, ih h]
    | done n => simp [docText, docOut, ih h]
    | blk b => cases h

theorem splitName_dot {n : List Char} {p : List Char × List Char} (h : splitName n = some p) : '.' ∈ n := by
  unfold splitName at h
  split at h
  · next r e => exact (List.dropWhile_suffix _).subset (e ▸ List.mem_cons_self ..)
  · cases h

theorem same_name (hc : Classes isW isS) {b b' : Blk} (hb : b.Good isW isS) (hb' : b'.Good isW isS) (e : b'.text = b.text) :
    b'.name = b.name := by
  have h1 := matchRaw_text hc hb []
  have h2 := matchRaw_text hc hb' []
  rw [e, h1] at h2
  injection h2 with h2
  injection h2 with h2 _
  injection h2 with _ h2 _
  exact h2.symm

/-- The loop over the blocks. -/
theorem rewriteLoop_doc (hc : Classes isW isS) (parts : Blk → List Char × List Char) : ∀ (bs : List Blk) (d : List Item), WF isW isS d →
    (∀ b ∈ bs, b.Good isW isS ∧ splitName b.name = some (parts b)) → (∀ b ∈ blocks d, ∃ b' ∈ bs, b'.text = b.text) →
    rewriteLoop isS (bs.map fun b => ⟨b.text, b.name, b.body⟩) (docText d) =
      (bs.map fun b => setText isS (parts b).1 (parts b).2 b.body, some (docOut d))
  | [], d, _, _, h => by
      have : blocks d = [] := by
        cases hb : blocks d with
        | nil => rfl
        | cons b bs =>
          obtain ⟨_, h, _⟩ := h b (by rw [hb]; exact List.mem_cons_self ..)
          cases h
      simp [rewriteLoop, docText_done d this]
  | b :: bs, d, hd, hg, h => by
      obtain ⟨hb, hs⟩ := hg b (List.mem_cons_self ..)
      have hne : b.text ≠ [] := by simp [Blk.text]
      have hwf : WF isW isS (substOne b.text d) := WF_substOne hd fun b' hb' e => by
        rw [same_name hc hb (hd.good b' hb') e]; exact splitName_dot hs
      have ih := rewriteLoop_doc hc parts bs (substOne b.text d) hwf (fun b' hb' => hg b' (List.mem_cons_of_mem _ hb')) (by
        intro b' hb'
        rw [blocks_substOne, List.mem_filter] at hb'
        obtain ⟨hb', hn⟩ := hb'
        obtain ⟨b'', hm, e⟩ := h b' hb'
        rcases List.mem_cons.mp hm with x | x
        · subst x; simp [e] at hn
        · exact ⟨b'', x, e⟩)
      simp only [List.map_cons, rewriteLoop, hs, replace, dif_pos hne]
      rw [replaceAll_doc hc hb hne d hd, ih, docOut_substOne]

/-- The loop stops at a bad name. -/
theorem rewriteLoop_bad (bs : List Block) : ∀ (sql : List Char), (∃ b ∈ bs, splitName b.name = none) →
    (rewriteLoop isS bs sql).2 = none := by
  induction bs with
  | nil => rintro _ ⟨b, hb, _⟩; cases hb
  | cons b bs ih =>
    rintro sql ⟨b', hb', hn⟩
    simp only [rewriteLoop]
    cases hs : splitName b.name with
    | none => rfl
    | some p =>
      simp only
      apply ih
      rcases List.mem_cons.mp hb' with e | e
      · subst e; rw [hs] at hn; cases hn
      · exact ⟨b', e, hn⟩

/-! ### Reading the view back -/

/-- Both ends of a text are no blanks. -/
def Trimmed (isS : Char → Bool) (s : List Char) : Prop :=
  (∀ c, s.head? = some c → isS c = false) ∧ ∀ c, s.getLast? = some c → isS c = false

theorem strip_blanks {w1 w2 s : List Char} (h1 : ∀ c ∈ w1, isS c = true) (h2 : ∀ c ∈ w2, isS c = true) (hs : Trimmed isS s) :
    strip isS (w1 ++ (s ++ w2)) = s := by
  unfold strip
  rw [dropWhile_blanks h1]
  cases s with
  | nil =>
    have : w2.dropWhile isS = [] := by
      have := dropWhile_blanks h2 []
      simpa using this
    simp [this]
  | cons c s =>
    rw [List.cons_append, dropWhile_head (hs.1 c rfl), ← List.cons_append, List.reverse_append,
      dropWhile_blanks (fun c h => h2 c (List.mem_reverse.mp h))]
    cases hr : (c :: s).reverse with
    | nil => simp at hr
    | cons x r =>
      have hx : (c :: s).getLast? = some x := by rw [← List.head?_reverse, hr]; rfl
      rw [dropWhile_head (hs.2 x hx), ← hr, List.reverse_reverse]

theorem strip_trimmed {s : List Char} (hs : Trimmed isS s) : strip isS s = s := by
  have := strip_blanks (w1 := []) (w2 := []) (by simp) (by simp) hs
  simpa using this

end Verif.RawSql
