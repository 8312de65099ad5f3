import Verif.Basic
import Verif.Proofs.Parser
/-!
Property theorems C01–C05 and C49: splitting scripts into statements.
-/
namespace Verif.Props
open Verif.Parser Verif.Script

/-! ## C01 -/

/-- A statement of a script: starts with a letter and has no `;` outside literals and comments. -/
def IsStmt (isAlpha : Char → Bool) (s : List Tok) : Prop :=
  (∃ c s', s = .plain c :: s' ∧ isAlpha c = true) ∧ Tok.plain ';' ∉ s

/-- Filler between statements: no letter outside literals and comments. -/
def IsGap (isAlpha : Char → Bool) (g : List Tok) : Prop := ∀ c, Tok.plain c ∈ g → isAlpha c = false

/-- The lexical elements of a script made of statements, each preceded by a gap and followed by `;`. -/
def script : List (List Tok × List Tok) → List Tok → List Tok
  | [], g => g
  | (g, s) :: rest, last => g ++ (s ++ (.plain ';' :: script rest last))

/-- **C01** (general form): on every well-formed script, `split` succeeds and returns exactly the
statements read off the lexical structure, in order. -/
theorem C01_split_statements (isAlpha : Char → Bool) (ha : isAlpha '/' = false) (ts : List Tok) (hw : WF ts) :
    ∃ segs, split isAlpha (text ts) = .ok segs ∧ segs.map Segment.sql = statements isAlpha ts := by
  obtain ⟨segs, h1, h2⟩ := (splitLoop_script ha ts hw).1 (P.init (text ts)) [] rfl
  exact ⟨segs, by simpa [split] using h1, h2⟩

theorem trimHead_gap {isAlpha : Char → Bool} {g : List Tok} (hg : IsGap isAlpha g) (r : List Tok) :
    trimHead isAlpha (g ++ r) = trimHead isAlpha r := by
  induction g with
  | nil => rfl
  | cons t g ih =>
    have ih := ih (fun c hc => hg c (by simp [hc]))
    cases t with
    | plain c => simp [trimHead, hg c (by simp), ih]
    | _ => simpa [trimHead] using ih

theorem pieces_noSemi {s : List Tok} (hs : Tok.plain ';' ∉ s) (r : List Tok) :
    ∃ p ps, pieces r = p :: ps ∧ pieces (s ++ r) = (s ++ p) :: ps := by
  induction s with
  | nil =>
    cases h : pieces r with
    | nil => exact absurd h (pieces_ne_nil r)
    | cons p ps => exact ⟨p, ps, rfl, by simpa using h⟩
  | cons t s ih =>
    obtain ⟨p, ps, h1, h2⟩ := ih (fun h => hs (by simp [h]))
    have : t ≠ .plain ';' := fun e => hs (by simp [e])
    exact ⟨p, ps, h1, by simp [pieces, this, h2]⟩

theorem statements_gap {isAlpha : Char → Bool} {g : List Tok} (hg : IsGap isAlpha g) (r : List Tok) :
    statements isAlpha (g ++ r) = statements isAlpha r := by
  induction g with
  | nil => rfl
  | cons t g ih =>
    have hg' : IsGap isAlpha g := fun c hc => hg c (by simp [hc])
    rw [← ih hg']
    by_cases hs : t = .plain ';'
    · simp [hs, statements, pieces, trimHead, text]
    · obtain ⟨p, ps, h⟩ : ∃ p ps, pieces (g ++ r) = p :: ps := by
        cases h : pieces (g ++ r) with
        | nil => exact absurd h (pieces_ne_nil _)
        | cons p ps => exact ⟨p, ps, rfl⟩
      have : trimHead isAlpha (t :: p) = trimHead isAlpha p :=
        trimHead_gap (g := [t]) (by intro c hc; apply hg c; simp at hc; simp [hc]) p
      simp [statements, pieces, hs, h, this]

theorem statements_stmt {isAlpha : Char → Bool} {s : List Tok} (hs : IsStmt isAlpha s) (r : List Tok) :
    statements isAlpha (s ++ (.plain ';' :: r)) = text s :: statements isAlpha r := by
  obtain ⟨⟨c, s', e, hc⟩, hn⟩ := hs
  obtain ⟨p, ps, h1, h2⟩ := pieces_noSemi hn (.plain ';' :: r)
  have h1' : p = [] ∧ ps = pieces r := by simpa [pieces, eq_comm] using h1
  obtain ⟨rfl, rfl⟩ := h1'
  have ht : trimHead isAlpha s = s := by subst e; simp [trimHead, hc]
  have hne : text s ≠ [] := by subst e; simp [text, Tok.text]
  simp [statements, h2, ht, hne]

/-- **C01**: a script made of statements separated by `;` and by arbitrary filler splits into exactly
those statements. -/
theorem C01_split_join (isAlpha : Char → Bool) (ha : isAlpha '/' = false)
    (items : List (List Tok × List Tok)) (last : List Tok)
    (hi : ∀ gs ∈ items, IsGap isAlpha gs.1 ∧ IsStmt isAlpha gs.2) (hl : IsGap isAlpha last)
    (hw : WF (script items last)) :
    ∃ segs, split isAlpha (text (script items last)) = .ok segs ∧
      segs.map Segment.sql = items.map (fun gs => text gs.2) := by
  obtain ⟨segs, h1, h2⟩ := C01_split_statements isAlpha ha _ hw
  refine ⟨segs, h1, h2.trans ?_⟩
  clear h1 h2 hw
  induction items with
  | nil =>
    have := statements_gap hl []
    simpa [script, statements, pieces, trimHead, text] using this
  | cons gs items ih =>
    have h := hi gs (by simp)
    rw [script, statements_gap h.1, statements_stmt h.2, ih (fun x hx => hi x (by simp [hx]))]
    simp

/-- Non-vacuity: `/* c */ select ';' ; ;-- x⏎ update "a\";" ;` is a well-formed script with two statements. -/
example :
    let items : List (List Tok × List Tok) :=
      [([.block " c ".toList, .plain ' '],
        "select ".toList.map .plain ++ [.lit '\'' ";".toList, .plain ' ']),
       ([.plain ' ', .plain ';', .line true " x".toList, .plain ' '],
        "update ".toList.map .plain ++ [.lit '"' "a\\\";".toList, .plain ' '])]
    (∀ gs ∈ items, IsGap Char.isAlpha gs.1 ∧ IsStmt Char.isAlpha gs.2) ∧
      split Char.isAlpha (text (script items [])) =
        .ok [⟨"select ';' ".toList, 1⟩, ⟨"update \"a\\\";\" ".toList, 2⟩] := by
  refine ⟨?_, by decide +kernel⟩
  intro gs hgs
  simp only [List.mem_cons, List.not_mem_nil, or_false] at hgs
  rcases hgs with h | h <;> subst h
  · refine ⟨?_, ⟨⟨'s', _, rfl, by decide⟩, by decide⟩⟩
    intro c hc; simp at hc; subst hc; decide
  · refine ⟨?_, ⟨⟨'u', _, rfl, by decide⟩, by decide⟩⟩
    intro c hc; simp at hc; rcases hc with h | h | h <;> subst h <;> decide

/-- Non-vacuity of `WF`: literals, comments and plain text together. -/
example : WF [.plain 's', .plain '-', .lit '\'' ['a', '\\', '\''], .line false [' ', 'x'], .block ['*'], .plain '1'] := by
  refine ⟨?_, ?_, ?_, ?_, ?_, ?_, ?_, ?_, ?_, ?_, ?_⟩
  · exact ⟨by decide, by decide⟩
  · exact ⟨by decide, by simp⟩
  · exact ⟨by decide, by decide⟩
  · exact ⟨by simp [Tok.text], by simp⟩
  · exact ⟨by decide, .char (by decide) (by decide) (.esc .nil)⟩
  · exact ⟨by simp, by simp⟩
  · exact ⟨by intro c hc; simp at hc; rcases hc with h | h <;> subst h <;> decide, by decide⟩
  · exact ⟨by simp, by simp⟩
  · exact ⟨by intro c hc; simp at hc; subst hc; decide, by decide⟩
  · exact ⟨by simp, by intro _; simp [Tok.text]⟩
  · exact ⟨by decide, by decide⟩

/-! ## C02 -/

/-- **C02**: whenever `split` succeeds, its results are the stretches `[i, j)` of the script, in order and
separated (each ends before the next begins), non-empty, starting with a letter, ending at the end of the
script or at a `;`, and each line number is one more than the number of newlines before the stretch. -/
theorem C02_segments_located (isAlpha : Char → Bool) (sql : List Char) (segs : List Segment)
    (h : split isAlpha sql = .ok segs) :
    ∃ spans : List (Nat × Nat),
      segs = spans.map (fun ij =>
        ⟨(sql.drop ij.1).take (ij.2 - ij.1), 1 + (sql.take ij.1).count '\n'⟩) ∧
      (∀ ij ∈ spans, ij.1 < ij.2 ∧ ij.2 ≤ sql.length ∧ (∃ c, sql[ij.1]? = some c ∧ isAlpha c = true) ∧
        (ij.2 < sql.length → sql[ij.2]? = some ';')) ∧
      spans.Pairwise (fun a b => a.2 < b.1) :=
  splitLoop_located sql _ (P.init sql) none [] segs (Nat.le_refl _) (At.init sql)
    ⟨by simp, by simp, by simp, by simp⟩ (by simpa [split] using h)

/-! ## C03 -/

/-- Two scripts are the same but for the contents of their comments. -/
inductive SameButComments : List Tok → List Tok → Prop
  | nil : SameButComments [] []
  | keep (t : Tok) {ts us : List Tok} : SameButComments ts us → SameButComments (t :: ts) (t :: us)
  | line (d d' : Bool) (b b' : List Char) {ts us : List Tok} : SameButComments ts us →
      SameButComments (.line d b :: ts) (.line d' b' :: us)
  | block (b b' : List Char) {ts us : List Tok} : SameButComments ts us →
      SameButComments (.block b :: ts) (.block b' :: us)

/-- The text of a statement without its comments. -/
def stripComments : List Tok → List Tok
  | [] => []
  | .line _ _ :: ts => stripComments ts
  | .block _ :: ts => stripComments ts
  | t :: ts => t :: stripComments ts

/-- The statements of a script as lists of lexical elements. -/
def stmtToks (isAlpha : Char → Bool) (ts : List Tok) : List (List Tok) :=
  ((pieces ts).map (trimHead isAlpha)).filter (· ≠ [])

theorem text_eq_nil {ts : List Tok} : text ts = [] ↔ ts = [] := by
  cases ts with
  | nil => simp [text]
  | cons t ts => simp [text, Tok.text_ne_nil]

theorem statements_eq (isAlpha : Char → Bool) (ts : List Tok) :
    statements isAlpha ts = (stmtToks isAlpha ts).map text := by
  unfold statements stmtToks
  rw [List.filter_map, List.filter_map, List.map_map]
  congr 1
  apply List.filter_congr
  intro x _
  simp [text_eq_nil]

/-- Two lists of the same length with related elements. -/
inductive AllRel {α β : Type} (R : α → β → Prop) : List α → List β → Prop
  | nil : AllRel R [] []
  | cons {a : α} {b : β} {as : List α} {bs : List β} : R a b → AllRel R as bs → AllRel R (a :: as) (b :: bs)

theorem pieces_same {ts us : List Tok} (h : SameButComments ts us) :
    AllRel SameButComments (pieces ts) (pieces us) := by
  have aux : ∀ {t u : Tok} {ts us : List Tok}, t ≠ .plain ';' → u ≠ .plain ';' →
      (∀ {a b}, SameButComments a b → SameButComments (t :: a) (u :: b)) →
      AllRel SameButComments (pieces ts) (pieces us) →
      AllRel SameButComments (pieces (t :: ts)) (pieces (u :: us)) := by
    intro t u ts us ht hu hc ih
    simp only [pieces, ht, hu, if_false]
    generalize pieces ts = A at ih
    generalize pieces us = B at ih
    cases ih with
    | nil => exact .cons (hc .nil) .nil
    | cons h1 h2 => exact .cons (hc h1) h2
  induction h with
  | nil => exact .cons .nil .nil
  | keep t _ ih =>
    by_cases ht : t = .plain ';'
    · simp only [pieces, ht, if_true]; exact .cons .nil ih
    · exact aux ht ht (fun h => .keep t h) ih
  | line d d' b b' _ ih => exact aux (by simp) (by simp) (fun h => .line d d' b b' h) ih
  | block b b' _ ih => exact aux (by simp) (by simp) (fun h => .block b b' h) ih

theorem trimHead_same {isAlpha : Char → Bool} {ts us : List Tok} (h : SameButComments ts us) :
    SameButComments (trimHead isAlpha ts) (trimHead isAlpha us) := by
  induction h with
  | nil => exact .nil
  | keep t hh ih =>
    cases t with
    | plain c => simp only [trimHead]; split
                 · exact .keep _ hh
                 · exact ih
    | _ => exact ih
  | line _ _ _ _ _ ih => exact ih
  | block _ _ _ ih => exact ih

theorem stripComments_same {ts us : List Tok} (h : SameButComments ts us) :
    stripComments ts = stripComments us := by
  induction h with
  | nil => rfl
  | keep t _ ih => cases t <;> simp [stripComments, ih]
  | line _ _ _ _ _ ih => simpa [stripComments] using ih
  | block _ _ _ ih => simpa [stripComments] using ih

theorem stmtToks_same {isAlpha : Char → Bool} {ts us : List Tok} (h : SameButComments ts us) :
    (stmtToks isAlpha ts).map stripComments = (stmtToks isAlpha us).map stripComments := by
  have h := pieces_same h
  unfold stmtToks
  generalize pieces ts = A at h
  generalize pieces us = B at h
  induction h with
  | nil => rfl
  | @cons a b as bs hab _ ih =>
    have ht := trimHead_same (isAlpha := isAlpha) hab
    have : trimHead isAlpha a = [] ↔ trimHead isAlpha b = [] := by
      have ht' := ht
      generalize trimHead isAlpha a = x at ht'
      generalize trimHead isAlpha b = y at ht'
      cases ht' <;> simp
    by_cases hn : trimHead isAlpha a = []
    · have hn' := this.mp hn
      simpa [hn, hn'] using ih
    · have hn' : trimHead isAlpha b ≠ [] := fun e => hn (this.mpr e)
      simp only [List.map_cons, List.filter_cons, hn, hn', ne_eq, not_false_eq_true, decide_true, if_true,
        stripComments_same ht]
      congr 1

/-- **C03, the part that holds**: for comments without `"` and `'` (and no `*` right after a block comment;
both are in `WF`), changing the contents of comments changes neither the number of statements nor, apart
from the comments inside them, their texts.
Missing for the full property: comments containing quote characters — see the negations below. -/
theorem C03_comments_inert_partial (isAlpha : Char → Bool) (ha : isAlpha '/' = false) (ts us : List Tok)
    (hs : SameButComments ts us) (ht : WF ts) (hu : WF us) :
    ∃ A B : List (List Tok), A.map stripComments = B.map stripComments ∧
      (∃ segs, split isAlpha (text ts) = .ok segs ∧ segs.map Segment.sql = A.map text) ∧
      (∃ segs, split isAlpha (text us) = .ok segs ∧ segs.map Segment.sql = B.map text) := by
  refine ⟨stmtToks isAlpha ts, stmtToks isAlpha us, stmtToks_same hs, ?_, ?_⟩
  · obtain ⟨segs, h1, h2⟩ := C01_split_statements isAlpha ha ts ht
    exact ⟨segs, h1, by rw [h2, statements_eq]⟩
  · obtain ⟨segs, h1, h2⟩ := C01_split_statements isAlpha ha us hu
    exact ⟨segs, h1, by rw [h2, statements_eq]⟩

/-- **C03 is violated**: a script consisting of a line comment and one statement; with one content of the
comment the statement is found, with another (`it's`) it is silently swallowed. -/
theorem C03_line_comment_quote_violation :
    ∃ b b' rest : List Char, '\n' ∉ b ∧ '\n' ∉ b' ∧
      (∃ segs, split Char.isAlpha ('-' :: '-' :: (b ++ '\n' :: rest)) = .ok segs ∧ segs.length = 1) ∧
      split Char.isAlpha ('-' :: '-' :: (b' ++ '\n' :: rest)) = .ok [] := by
  refine ⟨" its".toList, " it's".toList, "select 1;".toList, by decide +kernel, by decide +kernel,
    ⟨[⟨"select 1".toList, 2⟩], by decide +kernel, rfl⟩, by decide +kernel⟩

/-- **C03 is violated**: an apostrophe in a block comment makes the whole script fail. -/
theorem C03_block_comment_quote_violation :
    ∃ b b' rest : List Char, ¬ (['*', '/'] <:+: b) ∧ ¬ (['*', '/'] <:+: b') ∧
      (∃ segs, split Char.isAlpha ('/' :: '*' :: (b ++ '*' :: '/' :: rest)) = .ok segs ∧ segs.length = 1) ∧
      ∃ p, split Char.isAlpha ('/' :: '*' :: (b' ++ '*' :: '/' :: rest)) = .error p := by
  refine ⟨" do not ".toList, " don't ".toList, "select 1;".toList, by decide +kernel, by decide +kernel,
    ⟨[⟨"select 1".toList, 1⟩], by decide +kernel, rfl⟩,
    ⟨⟨"/* don't */select 1;".toList.reverse, [], 1⟩, by decide +kernel⟩⟩

/-! ## C04 -/

/-- **C04**: `split` (which terminates on every text: it is a total function here) can only fail when the text
from some position on is a literal that is never closed or a block comment that is never closed. -/
theorem C04_split_fails_only_unterminated (isAlpha : Char → Bool) (sql : List Char) (p : P)
    (h : split isAlpha sql = .error p) :
    ∃ a b, sql = a ++ b ∧ (OpenLiteral b ∨ OpenBlockComment b) :=
  splitLoop_error sql _ _ _ _ _ (Nat.le_refl _) (At.init sql) h

/-- **C04**, second clause: without quote characters and without `/*` splitting always succeeds. -/
theorem C04_split_total (isAlpha : Char → Bool) (sql : List Char) (hq : ∀ c ∈ sql, ¬ isQuote c)
    (hc : ¬ (['/', '*'] <:+: sql)) : ∃ segs, split isAlpha sql = .ok segs := by
  cases h : split isAlpha sql with
  | ok segs => exact ⟨segs, rfl⟩
  | error p =>
    obtain ⟨a, b, e, h⟩ := C04_split_fails_only_unterminated isAlpha sql p h
    rcases h with ⟨q, t, hq', e', _⟩ | ⟨⟨t, e'⟩, _⟩
    · exact absurd hq' (hq q (by simp [e, e']))
    · exact absurd ⟨a, t, by simp [e, e']⟩ hc

/-! ## C05 -/

/-- **C05**: scanning a literal that starts with the quote `q` succeeds iff the text is a literal body followed
by `q`, and then consumes exactly the quotes and the body; the body is unique. -/
theorem C05_literal_extent (q : Char) (hq : q ≠ '\\') (p : P) (t : List Char) (hp : p.rest = q :: t) :
    ((∃ p', skipEscape q p = .ok p') ↔ ∃ b r, LitBody q b ∧ t = b ++ q :: r) ∧
    (∀ b r, LitBody q b → t = b ++ q :: r →
      ∃ p', skipEscape q p = .ok p' ∧ p'.rest = r ∧ p'.pre.reverse = p.pre.reverse ++ q :: (b ++ [q])) ∧
    (∀ b r b' r', LitBody q b → LitBody q b' → b ++ q :: r = b' ++ q :: r' → b = b' ∧ r = r') := by
  have key : ∀ b r, LitBody q b → t = b ++ q :: r →
      ∃ p', skipEscape q p = .ok p' ∧ p'.rest = r ∧ p'.pre.reverse = p.pre.reverse ++ q :: (b ++ [q]) := by
    intro b r hb e
    exact ⟨_, skipEscape_lit hq hb (r := r) (by simp [hp, e]), rfl, by simp [adv]⟩
  refine ⟨⟨?_, ?_⟩, key, fun b r b' r' h h' e => litBody_unique hq h h' e⟩
  · rintro ⟨p', h⟩
    obtain ⟨b, r, hb, e, _⟩ := skipEscape_ok hq hp h
    exact ⟨b, r, hb, e⟩
  · rintro ⟨b, r, hb, e⟩
    obtain ⟨p', h, _⟩ := key b r hb e
    exact ⟨p', h⟩

/-! ## C49 -/

/-- **C49**: a text that (after trimming) is not empty, not an exit command, not a `!` or `%` command is
submitted by the prompt iff it contains a `;` outside quoted literals. -/
theorem C49_prompt_submits_iff (isSpace : Char → Bool) (content : List Char)
    (h0 : strip isSpace content ≠ []) (h1 : (strip isSpace content).take 4 ≠ "exit".toList)
    (h2 : (strip isSpace content).head? ≠ some '!') (h3 : (strip isSpace content).head? ≠ some '%') :
    needsMoreInput isSpace content = false ↔
      OccursOutside isQuote [';'] (strip isSpace content) := by
  have h1' : (strip isSpace content).take 4 ≠ ['e', 'x', 'i', 't'] := h1
  unfold needsMoreInput
  generalize strip isSpace content = s at *
  match s, h0 with
  | c :: r, _ =>
    have hc1 : c ≠ '!' := by simpa using h2
    have hc2 : c ≠ '%' := by simpa using h3
    simp only [h1', hc1, hc2, decide_false, Bool.or_self, Bool.false_eq_true, if_false]
    simp only [readUtilComplete, P.init]
    cases h : readUtil [';'] tq ⟨[], c :: r, 1⟩ with
    | ok q =>
      simp only [Except.map, true_iff]
      obtain ⟨u, r', hu, e, _⟩ := readUtil_ok tq_spec h
      exact ⟨u, r', hu, e⟩
    | error q =>
      simp only [Except.map, Bool.true_eq_false, false_iff]
      exact readUtil_error tq_spec rfl (m := ';') (by decide) h

/-- **C49**, the exceptional texts are always submitted. -/
theorem C49_prompt_submits_commands (isSpace : Char → Bool) (content : List Char)
    (h : strip isSpace content = [] ∨ (strip isSpace content).take 4 = "exit".toList ∨
      (strip isSpace content).head? = some '!' ∨ (strip isSpace content).head? = some '%') :
    needsMoreInput isSpace content = false := by
  unfold needsMoreInput
  generalize strip isSpace content = s at *
  match s with
  | [] => rfl
  | c :: r =>
    have : (decide ((c :: r).take 4 = ['e', 'x', 'i', 't']) || decide (c = '!') || decide (c = '%')) = true := by
      rcases h with h | h | h | h
      · simp at h
      · have h' : (c :: r).take 4 = ['e', 'x', 'i', 't'] := h
        simp only [h', decide_true, Bool.true_or]
      · have : c = '!' := by simpa using h
        simp [this]
      · have : c = '%' := by simpa using h
        simp [this]
    simp only [this, if_true]

end Verif.Props
