import Verif.Model.Mapping
import Verif.Proofs.Parser
/-! Helper lemmas for C06 (`parse_mapping` / `to_sql`). -/
namespace Verif.Mapping
open Verif.Parser Verif.Script

/-- Passed-over text in which the marker character `m` does not occur outside literals. -/
inductive PassedNo (quote : Char → Prop) (m : Char) : List Char → Prop
  | nil : PassedNo quote m []
  | char {c : Char} {u : List Char} : ¬ quote c → c ≠ m → PassedNo quote m u → PassedNo quote m (c :: u)
  | lit {q : Char} {b u : List Char} : quote q → LitBody q b → PassedNo quote m u →
      PassedNo quote m (q :: (b ++ q :: u))

theorem readUtil_one_ok {esc : Char → Bool} {quote : Char → Prop} {m : Char} (hs : QuoteSpec esc quote)
    {p q : P} (h : readUtil [m] esc p = .ok q) :
    ∃ u r, PassedNo quote m u ∧ p.rest = u ++ m :: r ∧ q = adv p u (m :: r) := by
  fun_induction readUtil [m] esc p with
  | case1 => simp at h
  | case2 => simp at h
  | case3 p d t hp he q' hsk ih =>
    have hd := (hs.iff d).mp he
    obtain ⟨b, r, hb, e, e'⟩ := skipEscape_ok (hs.ne_bs d hd) hp hsk
    obtain ⟨u, r', hu, e2, e3⟩ := ih h
    subst e'
    refine ⟨d :: (b ++ d :: u), r', .lit hd hb hu, ?_, ?_⟩
    · simp at e2; simp [hp, e, e2]
    · rw [e3, adv_adv]; simp
  | case4 p d t hp he hpre =>
    simp at h; subst h
    obtain ⟨r, hr⟩ := List.isPrefixOf_iff_prefix.mp hpre
    refine ⟨[], r, .nil, by simpa using hr.symm, ?_⟩
    cases p; simp_all [adv]
  | case5 p d t hp he hpre ih =>
    obtain ⟨u, r', hu, e2, e3⟩ := ih h
    rw [next_eq_adv hp] at e2 e3
    have hdm : d ≠ m := by
      intro e; apply hpre; rw [hp, e]; simp [List.isPrefixOf]
    refine ⟨d :: u, r', .char (fun hq => he ((hs.iff d).mpr hq)) hdm hu, ?_, ?_⟩
    · simp at e2; simp [hp, e2]
    · rw [e3, adv_adv]; simp

theorem readUtil_one_of {esc : Char → Bool} {quote : Char → Prop} {m : Char} (hs : QuoteSpec esc quote)
    (hm : ¬ quote m) {u : List Char} (hu : PassedNo quote m u) :
    ∀ (p : P) (r : List Char), p.rest = u ++ m :: r → readUtil [m] esc p = .ok (adv p u (m :: r)) := by
  induction hu with
  | nil =>
    intro p r hp
    have he : esc m = false := by rw [Bool.eq_false_iff]; exact fun h => hm ((hs.iff m).mp h)
    rw [readUtil_cons (d := m) (r := r) (by simpa using hp), he]
    cases p; simp_all [List.isPrefixOf, adv]
  | @char c u hc hcm _ ih =>
    intro p r hp
    have he : esc c = false := by rw [Bool.eq_false_iff]; exact fun h => hc ((hs.iff c).mp h)
    have hp' : p.rest = c :: (u ++ m :: r) := by simpa using hp
    have hpre : [m].isPrefixOf (c :: (u ++ m :: r)) = false := by
      simp [List.isPrefixOf]; exact fun e => hcm e.symm
    rw [readUtil_cons hp', he, next_eq_adv hp', hpre]
    simp only [Bool.false_eq_true, if_false]
    rw [ih _ r rfl, adv_adv]; simp
  | @lit q b u hq hb _ ih =>
    intro p r hp
    have he : esc q = true := (hs.iff q).mpr hq
    rw [readUtil_cons (d := q) (r := b ++ q :: u ++ m :: r) (by simpa using hp), he,
      skipEscape_lit (hs.ne_bs q hq) hb (r := u ++ m :: r) (by simpa using hp)]
    simp only [if_true]
    rw [ih _ r rfl, adv_adv]; simp

/-- Passed-over text without back-quote, in the scanner of `read_segment`. -/
abbrev Plain (u : List Char) : Prop := PassedNo isQuote2 '`' u

/-- The text has a complete back-quoted segment. -/
def HasSeg (s : List Char) : Prop :=
  ∃ u1 u2 r, Plain u1 ∧ Plain u2 ∧ s = u1 ++ '`' :: (u2 ++ '`' :: r)

theorem readSegment_of {p : P} {u1 u2 r : List Char} (h1 : Plain u1) (h2 : Plain u2)
    (hp : p.rest = u1 ++ '`' :: (u2 ++ '`' :: r)) :
    readSegment p = .ok ((p.index + u1.length + 1, p.index + u1.length + 1 + u2.length, u2),
      adv p (u1 ++ '`' :: (u2 ++ ['`'])) r) := by
  unfold readSegment
  have hne : p.rest ≠ [] := by rw [hp]; simp
  have e1 := readUtil_one_of dq_spec (m := '`') (by decide) h1 p _ hp
  have e2 : (adv p u1 ('`' :: (u2 ++ '`' :: r))).next = adv p (u1 ++ ['`']) (u2 ++ '`' :: r) := by
    rw [next_eq_adv (c := '`') (r := u2 ++ '`' :: r) rfl, adv_adv]
  have e3 := readUtil_one_of dq_spec (m := '`') (by decide) h2 (adv p (u1 ++ ['`']) (u2 ++ '`' :: r)) r rfl
  split
  · next h => exact absurd h hne
  · simp only [e1, e2, e3]
    rw [next_eq_adv (c := '`') (r := r) (by simp), adv_adv, adv_adv, adv_index]
    have hsl : (adv p (u1 ++ ['`'] ++ u2) ('`' :: r)).slice (p.index + (u1 ++ ['`']).length)
        (adv p (u1 ++ ['`'] ++ u2) ('`' :: r)).index = u2 := by
      rw [← adv_adv p (u1 ++ ['`']) (u2 ++ '`' :: r) u2 ('`' :: r)]
      rw [slice_adv (by rw [adv_index]; exact Nat.le_refl _), slice_index (by rw [adv_index]; exact Nat.le_refl _)]
      rw [List.drop_eq_nil_iff.mpr]
      · simp
      · simp [adv, P.index]
    rw [hsl, adv_index]
    simp; omega

theorem readSegment_none {sql : List Char} {p : P} (hat : At sql p) (h : ¬ HasSeg p.rest) :
    ∃ q, readSegment p = .error q ∧ q.sql = sql := by
  unfold readSegment
  split
  · exact ⟨p, rfl, hat.1⟩
  · split
    · next q hq => exact ⟨q, rfl, ((readUtil_at hat).2 _ hq).1⟩
    · next q1 hq1 =>
      split
      · next q hq => exact ⟨q, rfl, ((readUtil_at ((readUtil_at hat).1 _ hq1).next).2 _ hq).1⟩
      · next q3 hq3 =>
        exfalso; apply h
        obtain ⟨u1, r1, hu1, e1, rfl⟩ := readUtil_one_ok dq_spec hq1
        rw [next_eq_adv (c := '`') (r := r1) rfl] at hq3
        obtain ⟨u2, r2, hu2, e2, _⟩ := readUtil_one_ok dq_spec hq3
        simp at e2
        exact ⟨u1, u2, r2, hu1, hu2, by rw [e1, e2]⟩

/-- The text with the given segments. -/
def flat : List (List Char × List Char) → List Char → List Char
  | [], tail => tail
  | (u1, u2) :: ds, tail => u1 ++ '`' :: (u2 ++ '`' :: flat ds tail)

/-- Thread a state through the segments. -/
def accum {σ : Type} (sub : σ → List Char → List Char × σ) : σ → List (List Char × List Char) →
    List (List Char × List Char) × σ
  | st, [] => ([], st)
  | st, (u1, u2) :: ds =>
    let r := sub st u2
    let rest := accum sub r.2 ds
    ((u1, r.1) :: rest.1, rest.2)

theorem mapLoop_step {σ : Type} {sub : σ → List Char → List Char × σ} {p q : P} {le start stop : Nat}
    {out seg : List Char} {st : σ} (h : readSegment p = .ok ((start, stop, seg), q)) :
    mapLoop sub p le out st = mapLoop sub q stop (out ++ q.slice le start ++ (sub st seg).1) (sub st seg).2 := by
  conv => lhs; unfold mapLoop
  split
  · simp_all
  · next h' => rw [h] at h'; simp at h'; obtain ⟨⟨rfl, rfl, rfl⟩, rfl⟩ := h'; rfl

theorem mapLoop_done {σ : Type} {sub : σ → List Char → List Char × σ} {p q : P} {le : Nat}
    {out : List Char} {st : σ} (h : readSegment p = .error q) :
    mapLoop sub p le out st = (out ++ q.sql.drop le, st) := by
  unfold mapLoop
  split
  · simp_all
  · simp_all

theorem mapLoop_flat {σ : Type} (sub : σ → List Char → List Char × σ) (sql tail : List Char)
    (ht : ¬ HasSeg tail) (ds : List (List Char × List Char)) (hd : ∀ d ∈ ds, Plain d.1 ∧ Plain d.2) :
    ∀ (p : P) (le : Nat) (out : List Char) (st : σ), At sql p → p.rest = flat ds tail → le ≤ p.index →
      mapLoop sub p le out st =
        (out ++ p.slice le p.index ++ flat (accum sub st ds).1 tail, (accum sub st ds).2) := by
  induction ds with
  | nil =>
    intro p le out st hat hp hle
    have hp : p.rest = tail := hp
    obtain ⟨q, h1, h2⟩ := readSegment_none hat (by rw [hp]; exact ht)
    rw [mapLoop_done h1, h2, slice_index hle, ← hat.1]
    simp only [P.sql, accum, flat, hp]
    rw [List.drop_append_of_le_length (by simpa [P.index] using hle)]
    simp
  | cons d ds ih =>
    obtain ⟨u1, u2⟩ := d
    intro p le out st hat hp hle
    have hu := hd (u1, u2) (by simp)
    have hp' : p.rest = u1 ++ '`' :: (u2 ++ '`' :: flat ds tail) := hp
    rw [mapLoop_step (readSegment_of hu.1 hu.2 hp')]
    rw [ih (fun d h => hd d (by simp [h])) _ _ _ _
      (hat.adv (by rw [hp']; simp)) rfl (by rw [adv_index]; simp; omega)]
    have e1 : (adv p (u1 ++ '`' :: (u2 ++ ['`'])) (flat ds tail)).slice le (p.index + u1.length + 1) =
        p.slice le p.index ++ (u1 ++ ['`']) := by
      have hsame : (adv p (u1 ++ '`' :: (u2 ++ ['`'])) (flat ds tail)).sql =
          (adv p (u1 ++ ['`']) (u2 ++ '`' :: flat ds tail)).sql := by simp [adv, P.sql]
      have := slice_adv (p := p) (s := le) (x := u1 ++ ['`']) (r := u2 ++ '`' :: flat ds tail) hle
      rw [← this]
      simp only [P.slice, hsame, adv_index]
      simp [Nat.add_assoc]
    have e2 : (adv p (u1 ++ '`' :: (u2 ++ ['`'])) (flat ds tail)).slice
        (p.index + u1.length + 1 + u2.length) (adv p (u1 ++ '`' :: (u2 ++ ['`'])) (flat ds tail)).index =
        ['`'] := by
      have : u1 ++ '`' :: (u2 ++ ['`']) = (u1 ++ '`' :: u2) ++ ['`'] := by simp
      rw [this, ← adv_adv p (u1 ++ '`' :: u2) ('`' :: flat ds tail)]
      rw [slice_adv (by rw [adv_index]; simp; omega), slice_index (by rw [adv_index]; simp; omega),
        List.drop_eq_nil_iff.mpr]
      · simp
      · simp [adv, P.index]; omega
    rw [e1, e2]
    simp [accum, flat]

theorem exists_flat : ∀ (n : Nat) (s : List Char), s.length ≤ n →
    ∃ ds tail, s = flat ds tail ∧ (∀ d ∈ ds, Plain d.1 ∧ Plain d.2) ∧ ¬ HasSeg tail := by
  intro n
  induction n with
  | zero =>
    intro s h
    have : s = [] := List.length_eq_zero_iff.mp (by omega)
    refine ⟨[], [], by simpa [flat] using this, by simp, ?_⟩
    rintro ⟨u1, u2, r, _, _, e⟩; simp at e
  | succ n ih =>
    intro s h
    by_cases hs : HasSeg s
    · obtain ⟨u1, u2, r, h1, h2, e⟩ := hs
      obtain ⟨ds, tail, e', hd, ht⟩ := ih r (by rw [e] at h; simp at h; omega)
      refine ⟨(u1, u2) :: ds, tail, by simp [flat, e, e'], ?_, ht⟩
      intro d hd'
      rcases List.mem_cons.mp hd' with h | h
      · subst h; exact ⟨h1, h2⟩
      · exact hd d h
    · exact ⟨[], s, rfl, by simp, hs⟩

/-! ### Generated names -/

/-- The texts generated by `uuid` are new: distinct, made of characters other than `_`, not in the SQL. -/
structure Fresh (isWordChar : Char → Bool) (uuid : Nat → List Char) (sql : List Char) : Prop where
  inj : ∀ i j, uuid i = uuid j → i = j
  word : ∀ i, ∀ c ∈ uuid i, isWordChar c = true ∧ c ≠ '_'
  new : ∀ i, ¬ (uuid i <:+: sql)

theorem last_underscore {a b u v : List Char} (hu : '_' ∉ u) (hv : '_' ∉ v)
    (h : a ++ '_' :: u = b ++ '_' :: v) : u = v := by
  rcases List.append_eq_append_iff.mp h with ⟨x, h1, h2⟩ | ⟨x, h1, h2⟩
  · cases x with
    | nil => simpa using h2
    | cons c x => simp at h2; exact absurd (by rw [h2.2]; simp) hu
  · cases x with
    | nil => simpa using h2.symm
    | cons c x => simp at h2; exact absurd (by rw [h2.2]; simp) hv

variable {isWordChar : Char → Bool} {uuid : Nat → List Char} {sql : List Char}

/-- Every key is a generated one, drawn before `n`. -/
def KeysOK (uuid : Nat → List Char) (st : MapState) : Prop :=
  ∀ k ∈ st.mapping.keys, ∃ x i, i < st.drawn ∧ k = x ++ '_' :: uuid i

theorem mapSeg_keys {st : MapState} (h : KeysOK uuid st) (seg : List Char) :
    KeysOK uuid (mapSeg isWordChar uuid st seg).2 := by
  unfold mapSeg
  simp only
  split
  · intro k hk
    simp only [Dict.keys_set] at hk
    split at hk
    · obtain ⟨x, i, hi, e⟩ := h k hk; exact ⟨x, i, by simp; omega, e⟩
    · rcases List.mem_append.mp hk with hk | hk
      · obtain ⟨x, i, hi, e⟩ := h k hk; exact ⟨x, i, by simp; omega, e⟩
      · simp at hk; exact ⟨_, st.drawn, by simp, by simpa using hk⟩
  · exact h

theorem key_new (hf : Fresh isWordChar uuid sql) {st : MapState} (h : KeysOK uuid st) (x : List Char) :
    (x ++ ['_'] ++ uuid st.drawn) ∉ st.mapping.keys := by
  intro hk
  obtain ⟨y, i, hi, e⟩ := h _ hk
  have hn : ∀ j, '_' ∉ uuid j := fun j hm => (hf.word j '_' hm).2 rfl
  have := last_underscore (hn _) (hn _) (by simpa using e)
  have := hf.inj _ _ this
  omega

theorem mapSeg_mono (hf : Fresh isWordChar uuid sql) {st : MapState} (h : KeysOK uuid st) (seg : List Char) :
    (∀ k ∈ st.mapping.keys, (mapSeg isWordChar uuid st seg).2.mapping.get? k = st.mapping.get? k) ∧
    (∀ k ∈ st.mapping.keys, k ∈ (mapSeg isWordChar uuid st seg).2.mapping.keys) := by
  unfold mapSeg
  simp only
  split
  · refine ⟨?_, ?_⟩
    · intro k hk
      apply Dict.get?_set_ne
      intro e; exact key_new hf h _ (e ▸ hk)
    · intro k hk
      simp only [Dict.keys_set]
      split
      · exact hk
      · simp [hk]
  · exact ⟨fun _ _ => rfl, fun _ h => h⟩

theorem accum_mono (hf : Fresh isWordChar uuid sql) (ds : List (List Char × List Char)) :
    ∀ (st : MapState), KeysOK uuid st →
      KeysOK uuid (accum (mapSeg isWordChar uuid) st ds).2 ∧
      (∀ k ∈ st.mapping.keys, (accum (mapSeg isWordChar uuid) st ds).2.mapping.get? k = st.mapping.get? k) := by
  induction ds with
  | nil => intro st h; exact ⟨h, fun _ _ => rfl⟩
  | cons d ds ih =>
    obtain ⟨u1, u2⟩ := d
    intro st h
    obtain ⟨h1, h2⟩ := ih _ (mapSeg_keys (isWordChar := isWordChar) h u2)
    obtain ⟨m1, m2⟩ := mapSeg_mono (isWordChar := isWordChar) hf h u2
    exact ⟨h1, fun k hk => (h2 k (m2 k hk)).trans (m1 k hk)⟩

theorem accum_unmap (hf : Fresh isWordChar uuid sql) (ds : List (List Char × List Char))
    (hds : ∀ d ∈ ds, d.2 <:+: sql) :
    ∀ (st : MapState), KeysOK uuid st →
      (accum (unmapSeg (accum (mapSeg isWordChar uuid) st ds).2.mapping) ()
        (accum (mapSeg isWordChar uuid) st ds).1).1 = ds := by
  induction ds with
  | nil => intro st _; rfl
  | cons d ds ih =>
    obtain ⟨u1, u2⟩ := d
    intro st h
    have hk := mapSeg_keys (isWordChar := isWordChar) h u2
    have hm := accum_mono hf ds _ hk
    have ih' := ih (fun d hd => hds d (by simp [hd])) _ hk
    simp only [accum, unmapSeg] at ih' ⊢
    rw [List.cons.injEq]
    refine ⟨?_, ih'⟩
    rw [Prod.mk.injEq]
    refine ⟨rfl, ?_⟩
    by_cases hall : allowSegment isWordChar u2 ≠ u2
    · -- replaced: the key is still mapped to the segment at the end
      have e1 : (mapSeg isWordChar uuid st u2) =
          (allowSegment isWordChar u2 ++ ['_'] ++ uuid st.drawn,
            ⟨st.drawn + 1, st.mapping.set (allowSegment isWordChar u2 ++ ['_'] ++ uuid st.drawn) u2⟩) := by
        unfold mapSeg; simp only [if_pos hall]
      have hin : (allowSegment isWordChar u2 ++ ['_'] ++ uuid st.drawn) ∈
          (mapSeg isWordChar uuid st u2).2.mapping.keys := by
        rw [e1, ← Dict.get?_isSome_iff]; simp only [Dict.get?_set_self, Option.isSome_some]
      have := hm.2 _ hin
      rw [e1] at this ⊢
      simp only [Dict.get?_set_self] at this ⊢
      rw [this]; rfl
    · have e1 : (mapSeg isWordChar uuid st u2) = (u2, st) := by
        unfold mapSeg; simp only [if_neg hall]
      rw [e1] at hm ⊢
      have : (accum (mapSeg isWordChar uuid) st ds).2.mapping.get? u2 = none := by
        rw [Dict.get?_eq_none_iff]
        intro hk
        obtain ⟨x, i, _, e⟩ := hm.1 _ hk
        apply hf.new i
        have h1 : uuid i <:+: u2 := ⟨x ++ ['_'], [], by simp [e]⟩
        exact h1.trans (hds (u1, u2) (by simp))
      simp only [this, Option.getD_none]

theorem flat_infix (ds : List (List Char × List Char)) (tail : List Char) :
    ∀ d ∈ ds, d.2 <:+: flat ds tail := by
  induction ds with
  | nil => simp
  | cons d ds ih =>
    intro d' hd
    rcases List.mem_cons.mp hd with h | h
    · subst h; exact ⟨d'.1 ++ ['`'], '`' :: flat ds tail, by simp [flat]⟩
    · obtain ⟨a, b, e⟩ := ih d' h
      exact ⟨d.1 ++ '`' :: (d.2 ++ '`' :: a), b, by simp [flat, ← e]⟩

theorem mem_takeWhile_true {f : Char → Bool} {u : List Char} {c : Char} (h : c ∈ u.takeWhile f) : f c = true := by
  induction u with
  | nil => simp at h
  | cons d u ih =>
    rw [List.takeWhile_cons] at h
    split at h
    · rcases List.mem_cons.mp h with h | h
      · subst h; assumption
      · exact ih h
    · simp at h

theorem plain_word (hw : ∀ c, isWordChar c = true → ¬ isQuote2 c ∧ c ≠ '`') {u : List Char}
    (h : ∀ c ∈ u, isWordChar c = true ∨ c = '_') : Plain u := by
  induction u with
  | nil => exact .nil
  | cons c u ih =>
    have hc : ¬ isQuote2 c ∧ c ≠ '`' := by
      rcases h c (by simp) with h | h
      · exact hw c h
      · subst h; decide
    exact .char hc.1 hc.2 (ih (fun x hx => h x (by simp [hx])))

theorem accum_plain (hw : ∀ c, isWordChar c = true → ¬ isQuote2 c ∧ c ≠ '`')
    (hf : Fresh isWordChar uuid sql) (ds : List (List Char × List Char))
    (hd : ∀ d ∈ ds, Plain d.1 ∧ Plain d.2) :
    ∀ (st : MapState), ∀ d ∈ (accum (mapSeg isWordChar uuid) st ds).1, Plain d.1 ∧ Plain d.2 := by
  induction ds with
  | nil => intro st; simp [accum]
  | cons d ds ih =>
    obtain ⟨u1, u2⟩ := d
    intro st d' hd'
    simp only [accum] at hd'
    rcases List.mem_cons.mp hd' with h | h
    · subst h
      have hu := hd (u1, u2) (by simp)
      refine ⟨hu.1, ?_⟩
      unfold mapSeg
      simp only
      split
      · apply plain_word hw
        intro c hc
        simp only [List.mem_append, List.mem_singleton] at hc
        rcases hc with (hc | hc) | hc
        · exact Or.inl (mem_takeWhile_true hc)
        · exact Or.inr hc
        · exact Or.inl (hf.word _ c hc).1
      · exact hu.2
    · exact ih (fun d hd'' => hd d (by simp [hd''])) _ d' h

end Verif.Mapping
