import Verif.Model.History
import Verif.Spec.History
/-! C79: the history of the prompt survives restarts, trimming and crashes while an entry is written. -/
namespace Verif.Props
open Verif.History
open Verif.Spec.History (StartsWithExit newest Event Run)

namespace Hist

def feed (s : St) (t : Text) : St := (fileLines t).foldl step s

theorem fileLines_line (l b : Text) (h : '\n' ∉ l) : fileLines (l ++ '\n' :: b) = (l ++ ['\n']) :: fileLines b := by
  induction l with
  | nil => simp [fileLines]
  | cons c l ih =>
    have hc : c ≠ '\n' := by intro e; subst e; simp at h
    have hl : '\n' ∉ l := by intro e; exact h (by simp [e])
    simp [fileLines, hc, ih hl]

theorem fileLines_partial (l : Text) (h : '\n' ∉ l) (hne : l ≠ []) : fileLines l = [l] := by
  induction l with
  | nil => simp at hne
  | cons c l ih =>
    have hc : c ≠ '\n' := by intro e; subst e; simp at h
    have hl : '\n' ∉ l := by intro e; exact h (by simp [e])
    by_cases hn : l = []
    · subst hn; simp [fileLines, hc]
    · simp [fileLines, hc, ih hl hn]

theorem fileLines_append (a b : Text) : fileLines (a ++ '\n' :: b) = fileLines (a ++ ['\n']) ++ fileLines b := by
  induction a with
  | nil => simp [fileLines]
  | cons c a ih =>
    by_cases hc : c = '\n'
    · simp [fileLines, hc, ih]
    · have : fileLines (a ++ ['\n']) ≠ [] := by
        cases a with
        | nil => simp [fileLines]
        | cons d a =>
          simp only [List.cons_append, fileLines]
          split
          · simp
          · split <;> simp
      simp only [List.cons_append, fileLines, hc, if_false, ih]
      cases hx : fileLines (a ++ ['\n']) with
      | nil => exact absurd hx this
      | cons l ls => simp

/-- The file is empty or ends in a line feed. -/
def Closed (f : Text) : Prop := f = [] ∨ ∃ a, f = a ++ ['\n']

theorem fileLines_closed {f : Text} (h : Closed f) (b : Text) : fileLines (f ++ b) = fileLines f ++ fileLines b := by
  rcases h with rfl | ⟨a, rfl⟩
  · simp [fileLines]
  · simpa using fileLines_append a b

theorem feed_closed {f : Text} (h : Closed f) (s : St) (b : Text) : feed s (f ++ b) = feed (feed s f) b := by
  simp [feed, fileLines_closed h]

theorem splitNl_ne (t : Text) : splitNl t ≠ [] := by
  cases t with
  | nil => simp [splitNl]
  | cons c t =>
    simp only [splitNl]
    split
    · simp
    · split <;> simp

theorem splitNl_no (t : Text) : ∀ l ∈ splitNl t, '\n' ∉ l := by
  induction t with
  | nil => simp [splitNl]
  | cons c t ih =>
    intro l hl
    simp only [splitNl] at hl
    split at hl
    · rcases List.mem_cons.1 hl with rfl | h
      · simp
      · exact ih l h
    · next hc =>
      split at hl
      · simp at hl; subst hl; simp; exact fun e => hc e.symm
      · next l' ls heq =>
        rcases List.mem_cons.1 hl with rfl | h
        · have := ih l' (by simp [heq])
          simp [this]; exact fun e => hc e.symm
        · exact ih l (by simp [heq, h])

theorem splitNl_join (t : Text) : ((splitNl t).map (· ++ ['\n'])).flatten = t ++ ['\n'] := by
  induction t with
  | nil => simp [splitNl]
  | cons c t ih =>
    simp only [splitNl]
    split
    · next h => subst h; simp [ih]
    · cases hx : splitNl t with
      | nil => exact absurd hx (splitNl_ne t)
      | cons l ls => simp [hx] at ih ⊢; exact ih

def plus (ls : List Text) : Text := ls.flatMap fun l => '+' :: l ++ ['\n']

theorem plusLines_eq (t : Text) : plusLines t = plus (splitNl t) := rfl

theorem feed_plus (ls : List Text) (h : ∀ l ∈ ls, '\n' ∉ l) (s : St) :
    feed s (plus ls) = { s with lines := s.lines ++ ls.map (· ++ ['\n']) } := by
  induction ls generalizing s with
  | nil => simp [plus, feed, fileLines]
  | cons l ls ih =>
    have hl : '\n' ∉ '+' :: l := by have := h l (by simp); simp [this]
    have e : plus (l :: ls) = ('+' :: l) ++ '\n' :: plus ls := by simp [plus]
    rw [e, feed, fileLines_line _ _ hl, List.foldl_cons]
    have ih' := ih (fun x hx => h x (by simp [hx])) (step s ('+' :: l ++ ['\n']))
    simp only [feed] at ih'
    rw [ih']
    simp [step]

theorem plus_closed (ls : List Text) : Closed (plus ls) := by
  rcases List.eq_nil_or_concat ls with rfl | ⟨init, l, rfl⟩
  · left; simp [plus]
  · right; exact ⟨plus init ++ '+' :: l, by simp [plus]⟩

theorem prefix_app {p a b : Text} (h : p <+: a ++ b) : p <+: a ∨ ∃ q, p = a ++ q ∧ q <+: b := by
  obtain ⟨r, hr⟩ := h
  rcases List.append_eq_append_iff.1 hr with ⟨c, h1, h2⟩ | ⟨c, h1, h2⟩
  · exact .inl ⟨c, h1.symm⟩
  · exact .inr ⟨c, h1, ⟨r, h2.symm⟩⟩

/-- A cut in the middle of the lines of an entry: what has been collected is an initial part of the text. -/
theorem feed_plus_prefix (ls : List Text) (h : ∀ l ∈ ls, '\n' ∉ l) (p : Text) (hp : p <+: plus ls) (s : St) :
    ∃ x : List Text, feed s p = { s with lines := s.lines ++ x } ∧ x.flatten <+: (ls.map (· ++ ['\n'])).flatten := by
  induction ls generalizing s p with
  | nil =>
    have : p = [] := by simpa [plus] using hp
    subst this
    exact ⟨[], by simp [feed, fileLines], by simp⟩
  | cons l ls ih =>
    have hl : '\n' ∉ '+' :: l := by have := h l (by simp); simp [this]
    have e : plus (l :: ls) = ('+' :: l) ++ '\n' :: plus ls := by simp [plus]
    rw [e] at hp
    rcases prefix_app hp with hp | ⟨q, rfl, hq⟩
    · by_cases hn : p = []
      · subst hn
        exact ⟨[], by simp [feed, fileLines], by simp⟩
      · have hno : '\n' ∉ p := fun hm => hl (hp.subset hm)
        obtain ⟨c, p, rfl⟩ := List.exists_cons_of_ne_nil hn
        have hc : c = '+' ∧ p <+: l := by simpa using hp
        obtain ⟨rfl, hpl⟩ := hc
        refine ⟨[p], by simp [feed, fileLines_partial _ hno hn, step], ?_⟩
        simpa using (hpl.trans (List.prefix_append _ _))
    · cases q with
      | nil =>
        have hno : '\n' ∉ '+' :: l ++ [] := by simpa using hl
        refine ⟨[l], by simp [feed, fileLines_partial _ hl (by simp), step], by simp⟩
      | cons c q =>
        have hc : c = '\n' ∧ q <+: plus ls := by simpa using hq
        obtain ⟨rfl, hq'⟩ := hc
        obtain ⟨x, hx, hxp⟩ := ih (fun x hx => h x (by simp [hx])) q hq' (step s ('+' :: l ++ ['\n']))
        refine ⟨(l ++ ['\n']) :: x, ?_, by simpa using hxp⟩
        rw [feed, fileLines_line _ _ hl, List.foldl_cons]
        simp only [feed] at hx
        rw [hx]
        simp [step]

/-- The texts found so far, with the one being read. -/
def texts (s : St) : List Text := (flush s).entries.map (·.text)

theorem flush_lines (s : St) : (flush s).lines = [] := by unfold flush; split <;> simp_all

theorem flush_time (s : St) : (flush s).time = s.time := by unfold flush; split <;> rfl

theorem flush_of_nil (s : St) (h : s.lines = []) : flush s = s := by simp [flush, h]

theorem texts_flush (s : St) : texts (flush s) = texts s := by
  simp [texts, flush_of_nil _ (flush_lines s)]

theorem texts_hash (s : St) (l : Text) : texts (step s ('#' :: l)) = texts s := by
  simp only [step, texts_flush]
  simp [texts, flush]
  split <;> simp

theorem texts_add (s : St) (h : s.lines = []) (x : List Text) (hx : x ≠ []) :
    texts { s with lines := s.lines ++ x } = texts s ++ [x.flatten.dropLast] := by
  simp [texts, flush, h, hx]

theorem load_texts (f : Text) : (load f).map (·.text) = texts (feed { entries := [], lines := [], time := [] } f) := rfl

abbrev s0 : St := { entries := [], lines := [], time := [] }

theorem record_eq (now t : Text) : record now t = '\n' :: ('#' :: ' ' :: now ++ '\n' :: plus (splitNl t)) := by
  simp [record, plusLines_eq]

theorem closed_nl (f : Text) : Closed (f ++ ['\n']) := .inr ⟨f, rfl⟩

/-- One record appended to any file whatever: the texts of the file with its last line ended, then this one. -/
theorem load_record (f now t : Text) (hn : '\n' ∉ now) :
    (load (f ++ record now t)).map (·.text) = (load (f ++ ['\n'])).map (·.text) ++ [t] := by
  have e : f ++ record now t = (f ++ ['\n']) ++ ('#' :: ' ' :: now ++ '\n' :: plus (splitNl t)) := by simp [record_eq]
  have hno : '\n' ∉ '#' :: ' ' :: now := by simp [hn]
  rw [load_texts, load_texts, e, feed_closed (closed_nl f)]
  generalize feed s0 (f ++ ['\n']) = s
  rw [feed, fileLines_line _ _ hno, List.foldl_cons]
  have := feed_plus (splitNl t) (splitNl_no t) (step s ('#' :: ' ' :: now ++ ['\n']))
  simp only [feed] at this
  rw [this, texts_add _ (by simp [step, flush_lines]) _ (by simpa using splitNl_ne t), splitNl_join]
  rw [show ('#' :: ' ' :: now ++ ['\n']) = '#' :: (' ' :: now ++ ['\n']) by simp, texts_hash]
  simp

theorem step_nl (s : St) : step s ['\n'] = flush s := rfl

/-- A closed file reads the same with one more empty line. -/
theorem load_nl {f : Text} (h : Closed f) : load (f ++ ['\n']) = load f := by
  have : feed s0 (f ++ ['\n']) = flush (feed s0 f) := by
    rw [feed_closed h]; simp [feed, fileLines, step_nl]
  unfold load
  rw [show (fileLines (f ++ ['\n'])).foldl step s0 = flush (feed s0 f) from this, flush_of_nil _ (flush_lines _)]
  rfl

/-! Trimming. -/

/-- The `#` line of an entry: absent, or a whole line. -/
def GoodTime (t : Text) : Prop := t = [] ∨ ∃ x, t = '#' :: x ++ ['\n'] ∧ '\n' ∉ x

structure Good (s : St) : Prop where
  time : GoodTime s.time
  times : ∀ e ∈ s.entries, GoodTime e.time
  mono : s.entries.Pairwise fun a b => b.time = [] → a.time = []
  last : s.time = [] → ∀ e ∈ s.entries, e.time = []

theorem good_flush {s : St} (h : Good s) : Good (flush s) := by
  unfold flush
  split
  · exact h
  · refine ⟨h.time, ?_, ?_, ?_⟩
    · intro e he
      simp at he
      rcases he with he | rfl
      · exact h.times e he
      · exact h.time
    · simp only [List.pairwise_append]
      refine ⟨h.mono, by simp, ?_⟩
      intro a ha b hb hbt
      simp at hb; subst hb
      exact h.last hbt a ha
    · intro ht e he
      simp at he
      rcases he with he | rfl
      · exact h.last ht e he
      · exact ht

theorem good_step {s : St} (h : Good s) {l : Text} (hl : ∃ x, l = x ++ ['\n'] ∧ '\n' ∉ x) : Good (step s l) := by
  obtain ⟨x, rfl, hx⟩ := hl
  unfold step
  split
  · next y heq =>
    apply good_flush
    refine ⟨.inr ?_, h.times, h.mono, ?_⟩
    · cases x with
      | nil => simp at heq
      | cons c x =>
        simp at heq
        obtain ⟨rfl, -⟩ := heq
        exact ⟨x, by simp, by simp at hx; exact hx⟩
    · intro ht; simp at ht
  · exact ⟨h.time, h.times, h.mono, h.last⟩
  · exact good_flush h

theorem closed_lines {f : Text} (h : Closed f) : ∀ l ∈ fileLines f, ∃ x, l = x ++ ['\n'] ∧ '\n' ∉ x := by
  rcases h with rfl | ⟨a, rfl⟩
  · simp [fileLines]
  · induction a with
    | nil => simp [fileLines]
    | cons c a ih =>
      intro l hl
      simp only [List.cons_append, fileLines] at hl
      split at hl
      · next hc =>
        rcases List.mem_cons.1 hl with rfl | hl
        · exact ⟨[], by simp [hc], by simp⟩
        · exact ih l hl
      · next hc =>
        split at hl
        · next h0 =>
          have : fileLines (a ++ ['\n']) ≠ [] := by
            cases a with
            | nil => simp [fileLines]
            | cons d a =>
              simp only [List.cons_append, fileLines]
              split
              · simp
              · split <;> simp
          exact absurd h0 this
        · next l' ls heq =>
          rcases List.mem_cons.1 hl with rfl | hl
          · obtain ⟨x, rfl, hx⟩ := ih l' (by simp [heq])
            refine ⟨c :: x, by simp, ?_⟩
            simp [hx]; exact fun e => hc e.symm
          · exact ih l (by simp [heq, hl])

theorem good_foldl (ls : List Text) (h : ∀ l ∈ ls, ∃ x, l = x ++ ['\n'] ∧ '\n' ∉ x) {s : St} (hs : Good s) :
    Good (ls.foldl step s) := by
  induction ls generalizing s with
  | nil => exact hs
  | cons l ls ih => exact ih (fun x hx => h x (by simp [hx])) (good_step hs (h l (by simp)))

theorem good_load {f : Text} (h : Closed f) : Good (flush (feed s0 f)) :=
  good_flush (good_foldl _ (closed_lines h) ⟨.inl rfl, by simp, by simp, by simp⟩)

theorem plus_ne (t : Text) : (splitNl t).map (· ++ ['\n']) ≠ [] := by simpa using splitNl_ne t

/-- A rewritten entry, read after anything. -/
theorem feed_entry (s : St) (e : Entry) (ht : GoodTime e.time) :
    feed s (rewriteEntry e) = { entries := (flush s).entries, lines := (splitNl e.text).map (· ++ ['\n']),
                                time := if e.time = [] then s.time else e.time } := by
  have e1 : rewriteEntry e = '\n' :: (e.time ++ plus (splitNl e.text)) := by simp [rewriteEntry, plusLines_eq]
  have e2 : fileLines (rewriteEntry e) = ['\n'] :: fileLines (e.time ++ plus (splitNl e.text)) := by
    rw [e1]; simp [fileLines]
  rw [feed, e2, List.foldl_cons, step_nl]
  rcases ht with ht | ⟨x, ht, hx⟩
  · have := feed_plus (splitNl e.text) (splitNl_no _) (flush s)
    simp only [feed] at this
    rw [ht]
    simp [this, flush_lines, flush_time]
  · have hno : '\n' ∉ '#' :: x := by simp [hx]
    have := feed_plus (splitNl e.text) (splitNl_no _) (step (flush s) ('#' :: x ++ ['\n']))
    simp only [feed] at this
    rw [ht, show '#' :: x ++ ['\n'] ++ plus (splitNl e.text) = '#' :: x ++ '\n' :: plus (splitNl e.text) by simp,
      fileLines_line _ _ hno, List.foldl_cons, this]
    simp [step, flush_of_nil _ (flush_lines s), flush_of_nil, flush_lines]

theorem closed_entry (e : Entry) : Closed (rewriteEntry e) := by
  have : rewriteEntry e = ('\n' :: e.time) ++ plus (splitNl e.text) := by simp [rewriteEntry, plusLines_eq]
  rw [this]
  rcases plus_closed (splitNl e.text) with h | ⟨a, h⟩
  · exfalso
    cases hx : splitNl e.text with
    | nil => exact splitNl_ne _ hx
    | cons l ls => simp [hx, plus] at h
  · right; exact ⟨'\n' :: e.time ++ a, by simp [h]⟩

theorem feed_entries (es : List Entry) (s : St) (hg : ∀ e ∈ es, GoodTime e.time)
    (hm : es.Pairwise fun a b => b.time = [] → a.time = []) (hs : s.time ≠ [] → ∀ e ∈ es, e.time ≠ []) :
    (flush (feed s (es.flatMap rewriteEntry))).entries = (flush s).entries ++ es := by
  induction es generalizing s with
  | nil => simp [feed, fileLines]
  | cons e es ih =>
    rw [List.flatMap_cons, feed_closed (closed_entry e), feed_entry s e (hg e (by simp))]
    rw [List.pairwise_cons] at hm
    rw [ih _ (fun x hx => hg x (by simp [hx])) hm.2]
    · have h1 : (if e.time = [] then s.time else e.time) = e.time := by
        split
        · next h =>
          by_cases hst : s.time = []
          · rw [hst, h]
          · exact absurd h (hs hst e (by simp))
        · rfl
      have h2 := plus_ne e.text
      simp only [flush, h2, if_false, h1, splitNl_join]
      simp
    · intro ht x hx hxt
      have := hm.1 x hx hxt
      simp [this] at ht
      exact hs ht e (by simp) this

theorem load_rewrite {f : Text} (h : Closed f) : load (rewrite (load f)) = (load f).drop ((load f).length - 50) := by
  have g := good_load h
  have e : load f = (flush (feed s0 f)).entries := rfl
  have hsub := List.drop_sublist ((load f).length - 50) (load f)
  have := feed_entries ((load f).drop ((load f).length - 50)) s0
    (fun x hx => g.times x (e ▸ hsub.subset hx)) (List.Pairwise.sublist hsub (e ▸ g.mono)) (by simp)
  rw [show load (rewrite (load f)) = (flush (feed s0 (rewrite (load f)))).entries from rfl, rewrite, this]
  simp [flush]

theorem closed_append {a b : Text} (ha : Closed a) (hb : Closed b) : Closed (a ++ b) := by
  rcases hb with rfl | ⟨b, rfl⟩
  · simpa using ha
  · right; exact ⟨a ++ b, by simp⟩

theorem closed_entries (es : List Entry) : Closed (es.flatMap rewriteEntry) := by
  induction es with
  | nil => left; rfl
  | cons e es ih => rw [List.flatMap_cons]; exact closed_append (closed_entry e) ih

theorem closed_record (now t : Text) : Closed (record now t) := by
  rw [record_eq]
  have h := closed_entry { time := '#' :: ' ' :: now ++ ['\n'], text := t }
  simpa [rewriteEntry, plusLines_eq] using h

theorem closed_store {f : Text} (h : Closed f) (now t : Text) : Closed (store now t f) := by
  unfold store; split
  · exact h
  · exact closed_append h (closed_record now t)

theorem lower_iff (c lo up : Char) (h : lo.toNat = up.toNat + 32) (h1 : 65 ≤ up.toNat) (h2 : up.toNat ≤ 90) :
    c.toLower = lo ↔ c ∈ [lo, up] := by
  have key : ∀ d : Char, c = d ↔ c.toNat = d.toNat := fun d => ⟨fun e => by rw [e], fun e => Char.toNat_inj.1 e⟩
  have e : c.toLower.toNat = if 65 ≤ c.toNat ∧ c.toNat ≤ 90 then c.toNat + 32 else c.toNat := by
    unfold Char.toLower
    by_cases hh : c.val ≥ 'A'.val ∧ c.val ≤ 'Z'.val
    · have h3 : 65 ≤ c.toNat ∧ c.toNat ≤ 90 := hh
      rw [dif_pos hh, if_pos h3]
      show (c.val + ('a'.val - 'A'.val)).toNat = c.toNat + 32
      rw [UInt32.toNat_add]
      have : (('a'.val - 'A'.val) : UInt32).toNat = 32 := by decide
      rw [this]
      have : c.val.toNat = c.toNat := rfl
      omega
    · have h3 : ¬ (65 ≤ c.toNat ∧ c.toNat ≤ 90) := hh
      rw [dif_neg hh, if_neg h3]
  rw [← Char.toNat_inj, e]
  simp only [List.mem_cons, List.not_mem_nil, or_false, key]
  split <;> omega

theorem isExit_iff (t : Text) : isExit t = true ↔ StartsWithExit t := by
  have he := fun c => lower_iff c 'e' 'E' (by decide) (by decide) (by decide)
  have hx := fun c => lower_iff c 'x' 'X' (by decide) (by decide) (by decide)
  have hi := fun c => lower_iff c 'i' 'I' (by decide) (by decide) (by decide)
  have ht := fun c => lower_iff c 't' 'T' (by decide) (by decide) (by decide)
  have e0 : "exit".toList = ['e', 'x', 'i', 't'] := by decide
  unfold isExit StartsWithExit
  rw [e0, decide_eq_true_iff]
  match t with
  | [] => simp
  | [a] => simp
  | [a, b] => simp
  | [a, b, c] => simp
  | a :: b :: c :: d :: rest =>
    simp only [List.map_cons, List.take, List.cons.injEq, and_true, he, hx, hi, ht, List.take_zero]
    constructor
    · rintro ⟨h1, h2, h3, h4⟩
      exact ⟨a, b, c, d, rest, ⟨rfl, rfl, rfl, rfl, rfl⟩, h1, h2, h3, h4⟩
    · rintro ⟨a', b', c', d', r', ⟨rfl, rfl, rfl, rfl, rfl⟩, h1, h2, h3, h4⟩
      exact ⟨h1, h2, h3, h4⟩

theorem newest_eq (l : List Text) : newest 50 l = l.drop (l.length - 50) := by
  simp [newest, List.take_reverse]

def event : Op → Event
  | .enter _ t => .enter t
  | .start => .start

/-- The clock's text is one line. -/
def OpOk : Op → Prop
  | .enter now _ => '\n' ∉ now
  | .start => True

theorem refine (ops : List Op) (h : ∀ o ∈ ops, OpOk o) (f : Text) (hf : Closed f) :
    ∃ t, Run ((load f).map (·.text)) (ops.map event) t (run f ops).2 ∧ t = (load (run f ops).1).map (·.text) := by
  induction ops generalizing f with
  | nil => exact ⟨_, .nil, rfl⟩
  | cons o ops ih =>
    have ih' := ih (fun x hx => h x (by simp [hx]))
    cases o with
    | enter now t =>
      have hnow : '\n' ∉ now := h (.enter now t) (by simp)
      obtain ⟨r, h1, h2⟩ := ih' (store now t f) (closed_store hf now t)
      refine ⟨r, ?_, h2⟩
      simp only [List.map_cons, event, run]
      by_cases hx : isExit t = true
      · refine .exit ((isExit_iff t).1 hx) ?_
        simpa [store, hx] using h1
      · refine .enter (fun e => hx ((isExit_iff t).2 e)) ?_
        have e := load_record f now t hnow
        rw [load_nl hf] at e
        rw [← e]
        simpa [store, hx] using h1
    | start =>
      have hc : Closed (openHistory f).2 := by
        simp only [openHistory]
        split
        · exact hf
        · exact closed_entries _
      obtain ⟨r, h1, h2⟩ := ih' _ hc
      refine ⟨r, ?_, h2⟩
      simp only [List.map_cons, event, run]
      have e : (load (openHistory f).2).map (·.text) = newest 50 ((load f).map (·.text)) := by
        rw [newest_eq]
        simp only [openHistory]
        split
        · next hl =>
          rw [show ((load f).map (·.text)).length - 50 = 0 by simp; omega]; simp
        · rw [load_rewrite hf]; simp
      rw [e] at h1
      exact .start h1

theorem closed_split (f : Text) : ∃ a l, f = a ++ l ∧ Closed a ∧ '\n' ∉ l := by
  induction f with
  | nil => exact ⟨[], [], rfl, .inl rfl, by simp⟩
  | cons c f ih =>
    obtain ⟨a, l, rfl, ha, hl⟩ := ih
    by_cases hc : c = '\n'
    · refine ⟨c :: a, l, by simp, ?_, hl⟩
      rcases ha with rfl | ⟨a, rfl⟩
      · right; exact ⟨[], by simp [hc]⟩
      · right; exact ⟨c :: a, by simp⟩
    · rcases ha with rfl | ⟨a, rfl⟩
      · refine ⟨[], c :: l, by simp, .inl rfl, ?_⟩
        simp [hl]; exact fun e => hc e.symm
      · exact ⟨c :: a ++ ['\n'], l, by simp, .inr ⟨c :: a, by simp⟩, hl⟩

theorem prefix_dropLast {a t : Text} (h : a <+: t ++ ['\n']) : a.dropLast <+: t := by
  rcases prefix_app h with h | ⟨q, rfl, hq⟩
  · exact (List.dropLast_prefix a).trans h
  · cases q with
    | nil => simpa using List.dropLast_prefix t
    | cons c q =>
      have : c = '\n' ∧ q = [] := by simpa using hq
      obtain ⟨rfl, rfl⟩ := this
      simp

theorem plus_prefix (t q : Text) (hq : q <+: plus (splitNl t)) (s : St) (hs : s.lines = []) :
    texts (feed s q) = texts s ∨ ∃ part, part <+: t ∧ texts (feed s q) = texts s ++ [part] := by
  obtain ⟨x, hx, hxp⟩ := feed_plus_prefix _ (splitNl_no t) q hq s
  by_cases hn : x = []
  · left; subst hn; rw [hx]; simp
  · right
    rw [splitNl_join] at hxp
    exact ⟨x.flatten.dropLast, prefix_dropLast hxp, by rw [hx, texts_add _ hs _ hn]⟩

theorem hash_prefix (x t q : Text) (hx : '\n' ∉ x) (hq : q <+: '#' :: x ++ '\n' :: plus (splitNl t)) (s : St) :
    texts (feed s q) = texts s ∨ ∃ part, part <+: t ∧ texts (feed s q) = texts s ++ [part] := by
  have hno : '\n' ∉ '#' :: x := by simp [hx]
  have part : ∀ q : Text, q <+: '#' :: x → texts (feed s q) = texts s := by
    intro q hq
    by_cases hn : q = []
    · subst hn; simp [feed, fileLines]
    · have h1 : '\n' ∉ q := fun hm => hno (hq.subset hm)
      obtain ⟨c, p, rfl⟩ := List.exists_cons_of_ne_nil hn
      have hc : c = '#' ∧ p <+: x := by simpa using hq
      obtain ⟨rfl, -⟩ := hc
      simp [feed, fileLines_partial _ h1 hn, texts_hash]
  rcases prefix_app hq with hq | ⟨q, rfl, hq⟩
  · exact .inl (part q hq)
  · cases q with
    | nil => left; exact part _ (by simp)
    | cons c q =>
      have hc : c = '\n' ∧ q <+: plus (splitNl t) := by simpa using hq
      obtain ⟨rfl, hq'⟩ := hc
      have e : feed s ('#' :: x ++ '\n' :: q) = feed (step s ('#' :: x ++ ['\n'])) q := by
        rw [feed, fileLines_line _ _ hno, List.foldl_cons]; rfl
      rw [e]
      have := plus_prefix t q hq' (step s ('#' :: x ++ ['\n'])) (by simp [step, flush_lines])
      simpa only [List.cons_append, texts_hash] using this

theorem entry_prefix (e : Entry) (ht : GoodTime e.time) (q : Text) (hq : q <+: rewriteEntry e) (s : St) :
    texts (feed s q) = texts s ∨ ∃ part, part <+: e.text ∧ texts (feed s q) = texts s ++ [part] := by
  cases q with
  | nil => left; simp [feed, fileLines]
  | cons c q =>
    have hq' : c = '\n' ∧ q <+: e.time ++ plus (splitNl e.text) := by simpa [rewriteEntry, plusLines_eq] using hq
    obtain ⟨rfl, hq'⟩ := hq'
    have h0 : feed s ('\n' :: q) = feed (flush s) q := by simp [feed, fileLines, step_nl]
    rw [h0, ← texts_flush s]
    rcases ht with ht | ⟨x, ht, hx⟩
    · rw [ht] at hq'
      exact plus_prefix _ _ (by simpa using hq') _ (flush_lines s)
    · rw [ht] at hq'
      exact hash_prefix x _ _ hx (by simpa using hq') _

theorem entries_prefix (es : List Entry) (hg : ∀ e ∈ es, GoodTime e.time) (q : Text) (hq : q <+: es.flatMap rewriteEntry) (s : St) :
    ∃ k, texts (feed s q) = texts s ++ (es.map (·.text)).take k ∨
      ∃ part t, (es.map (·.text))[k]? = some t ∧ part <+: t ∧ texts (feed s q) = texts s ++ (es.map (·.text)).take k ++ [part] := by
  induction es generalizing s q with
  | nil =>
    have : q = [] := by simpa using hq
    subst this
    exact ⟨0, .inl (by simp [feed, fileLines])⟩
  | cons e es ih =>
    rw [List.flatMap_cons] at hq
    rcases prefix_app hq with hq | ⟨q, rfl, hq'⟩
    · refine ⟨0, ?_⟩
      rcases entry_prefix e (hg e (by simp)) q hq s with h | ⟨part, h1, h2⟩
      · left; simpa using h
      · right; exact ⟨part, e.text, by simp, h1, by simpa using h2⟩
    · rw [feed_closed (closed_entry e)]
      obtain ⟨k, h⟩ := ih (fun x hx => hg x (by simp [hx])) q hq' (feed s (rewriteEntry e))
      have ht : texts (feed s (rewriteEntry e)) = texts s ++ [e.text] := by
        rw [feed_entry s e (hg e (by simp))]
        have h2 := plus_ne e.text
        simp only [texts, flush, h2, if_false, splitNl_join]
        simp
      refine ⟨k + 1, ?_⟩
      rw [ht] at h
      rcases h with h | ⟨part, t, h1, h2, h3⟩
      · left; simpa using h
      · right; exact ⟨part, t, by simpa using h1, h2, by simpa using h3⟩

end Hist

open Hist

/-- C79: whatever is entered and however often the prompt is started, from no history file: every start shows what was entered
before, newest first, as a list that keeps the 50 newest at each start does (no text is changed, lost, repeated or reordered). -/
theorem C79_history (ops : List Op) (h : ∀ o ∈ ops, OpOk o) :
    ∃ last, Run [] (ops.map event) last (run [] ops).2 :=
  let ⟨t, h1, _⟩ := refine ops h [] (.inl rfl)
  ⟨t, h1⟩

/-- C79: a text entered is read back whole, whatever the file held before (also the remains of a write that was cut). -/
theorem C79_stored_text (file now text : Text) (hn : '\n' ∉ now) (hx : ¬ StartsWithExit text) :
    ∃ before, (load (store now text file)).map (·.text) = before ++ [text] ∧
      before = (load (file ++ ['\n'])).map (·.text) := by
  have : isExit text = false := by
    cases h : isExit text with
    | false => rfl
    | true => exact absurd ((isExit_iff text).1 h) hx
  exact ⟨_, by simpa [store, this] using load_record file now text hn, rfl⟩

/-- C79: the last line of a file being cut or not makes a difference for the last text only, and there of one character. -/
theorem C79_unfinished_line (file : Text) :
    (load (file ++ ['\n'])).map (·.text) = (load file).map (·.text) ∨
    ∃ before t c, (load file).map (·.text) = before ++ [t] ∧ (load (file ++ ['\n'])).map (·.text) = before ++ [t ++ [c]] := by
  obtain ⟨a, l, rfl, ha, hl⟩ := closed_split file
  by_cases hne : l = []
  · subst hne; left; simp [load_nl ha]
  · rw [load_texts, load_texts, List.append_assoc, feed_closed ha, feed_closed ha]
    generalize feed s0 a = s
    rw [show feed s l = step s l by simp [feed, fileLines_partial l hl hne],
      show feed s (l ++ ['\n']) = step s (l ++ ['\n']) by simp [feed, fileLines_line l [] hl, fileLines]]
    obtain ⟨c, l, rfl⟩ := List.exists_cons_of_ne_nil hne
    by_cases h1 : c = '#'
    · subst h1; left; simp only [List.cons_append, texts_hash]
    · by_cases h2 : c = '+'
      · subst h2
        have e : ∀ x, texts (step s ('+' :: x)) = s.entries.map (·.text) ++ [(s.lines.flatten ++ x).dropLast] := by
          intro x; simp [step, texts, flush]
        simp only [List.cons_append, e]
        rw [← List.append_assoc, List.dropLast_concat]
        rcases List.eq_nil_or_concat (s.lines.flatten ++ l) with h | ⟨t, d, h⟩
        · left; rw [h]; rfl
        · right
          refine ⟨s.entries.map (·.text), t, d, ?_, ?_⟩
          · rw [h]; simp
          · rw [h]; simp
      · left
        have e : ∀ x, step s (c :: x) = flush s := by
          intro x; unfold step; split
          · next h => simp at h; exact absurd h.1 h1
          · next h => simp at h; exact absurd h.1 h2
          · rfl
        simp only [List.cons_append, e]

/-- C79: a crash while a text is being written (the write cut anywhere, the file before being anything): the texts of the file are
all there, and at most an initial part of the new one after them. -/
theorem C79_store_crash (file now text cut : Text) (hn : '\n' ∉ now) (hc : cut <+: record now text) :
    ∃ before, (before = (load file).map (·.text) ∨ before = (load (file ++ ['\n'])).map (·.text)) ∧
      ((load (file ++ cut)).map (·.text) = before ∨
       ∃ part, part <+: text ∧ (load (file ++ cut)).map (·.text) = before ++ [part]) := by
  rw [record_eq] at hc
  cases cut with
  | nil => exact ⟨_, .inl rfl, .inl (by simp)⟩
  | cons c q =>
    have hq : c = '\n' ∧ q <+: '#' :: ' ' :: now ++ '\n' :: plus (splitNl text) := by simpa using hc
    obtain ⟨rfl, hq⟩ := hq
    refine ⟨_, .inr rfl, ?_⟩
    rw [show file ++ '\n' :: q = (file ++ ['\n']) ++ q by simp, load_texts, load_texts, feed_closed (closed_nl file)]
    have := hash_prefix (' ' :: now) text q (by simp [hn]) (by simpa using hq) (feed s0 (file ++ ['\n']))
    rcases this with h | ⟨part, h1, h2⟩
    · exact .inl h
    · exact .inr ⟨part, h1, h2⟩

/-- C79: starting the prompt changes nothing in a file of at most 50 texts, at any moment. -/
theorem C79_start_small (file state : Text) (h : (load file).length ≤ 50) (hs : DuringOpen file state) : state = file := by
  rcases hs with hs | hs
  · exact hs
  · omega

/-- C79: a start that trims keeps the `#` lines with their texts: the 50 newest entries, as they were. -/
theorem C79_trim (file : Text) (hf : file = [] ∨ ∃ a, file = a ++ ['\n']) (h : 50 < (load file).length) :
    load (openHistory file).2 = (load file).drop ((load file).length - 50) := by
  have : ¬ (load file).length ≤ 50 := by omega
  simp [openHistory, this, load_rewrite hf]

/-- C96 (violated for trimming): a start that has to trim can be cut so that no text at all is left. -/
theorem C96_trim_crash_violated (file : Text) (h : 50 < (load file).length) : ∃ state, DuringOpen file state ∧ load state = [] :=
  ⟨[], .inr ⟨h, by simp⟩, rfl⟩

/-- C96: wherever a trimming start is cut, what is left are the oldest of the 50, and possibly part of the next: the newest are
those lost.  Missing for the full property: that nothing is lost. -/
theorem C96_trim_crash_partial (file state : Text) (hf : file = [] ∨ ∃ a, file = a ++ ['\n']) (hs : DuringOpen file state) :
    state = file ∨ ∃ k, (load state).map (·.text) = (newest 50 ((load file).map (·.text))).take k ∨
      ∃ part t, (newest 50 ((load file).map (·.text)))[k]? = some t ∧ part <+: t ∧
        (load state).map (·.text) = (newest 50 ((load file).map (·.text))).take k ++ [part] := by
  rcases hs with hs | ⟨_, hp⟩
  · exact .inl hs
  · right
    have g := good_load hf
    have hsub := List.drop_sublist ((load file).length - 50) (load file)
    have e : newest 50 ((load file).map (·.text)) = ((load file).drop ((load file).length - 50)).map (·.text) := by
      rw [newest_eq]; simp
    rw [e, load_texts]
    have := entries_prefix ((load file).drop ((load file).length - 50)) (fun x hx => g.times x (hsub.subset hx)) state hp s0
    simpa [texts, flush] using this

/-! Concrete cases. -/

def histOps : List Op :=
  [.enter "t1".toList "select 1\nfrom a".toList, .start, .enter "t2".toList "Exit now".toList, .enter "t3".toList [], .start]

example : (run [] histOps).2 = [["select 1\nfrom a".toList], [[], "select 1\nfrom a".toList]] := by decide +kernel
example : ∀ o ∈ histOps, OpOk o := by
  have h : ∀ o ∈ histOps, match o with | .enter now _ => '\n' ∉ now | .start => True := by
    simp [histOps]
  intro o ho
  have := h o ho
  cases o <;> exact this

/-- A write cut after `+se`: the next start shows `s`, and `se` once something was entered after it. -/
example : (load "\n# t\n+a\n\n# u\n+se".toList).map (·.text) = ["a".toList, "s".toList] := by decide +kernel
example : (load ("\n# t\n+a\n\n# u\n+se".toList ++ record "v".toList "b".toList)).map (·.text) = ["a".toList, "se".toList, "b".toList] := by
  decide +kernel

def many (n : Nat) : Text := (List.range n).flatMap fun _ => record "t".toList "x".toList

example : 50 < (load (many 51)).length := by decide +kernel

end Verif.Props
