import Verif.Proofs.RawSql
/-!
C150: raw SQL blocks.
-/
namespace Verif.Props.RawSql
open Verif.RawSql

variable {isW isS : Char → Bool}

/-- The configuration key of a view. -/
def viewKey (db view : List Char) : List Char := "databases.".toList ++ db ++ ".virtual_views.".toList ++ view

/-- A word of a name. -/
def Word (isW : Char → Bool) (s : List Char) : Prop := ∀ c ∈ s, isW c = true

theorem trimmed_name (hc : Classes isW isS) {a view : List Char} {c : Char} (hcb : isS c = false) (ha : a.getLast? = some '.')
    (hv : Word isW view) : Trimmed isS (c :: (a ++ view)) := by
  refine ⟨fun x h => ?_, fun x h => ?_⟩
  · injection h with h; rw [← h]; exact hcb
  · cases hvw : view with
    | nil =>
      rw [hvw, List.append_nil] at h
      have : (c :: a).getLast? = some '.' := by
        cases a with
        | nil => cases ha
        | cons y a => simpa using ha
      rw [this] at h
      injection h with h; rw [← h]; exact hc.blank '.' (by decide)
    | cons y v =>
      rw [← List.cons_append, List.getLast?_append, hvw] at h
      cases hl : (y :: v).getLast? with
      | none => simp at hl
      | some z =>
        rw [hl] at h
        injection h with h
        rw [← h]
        exact hc.apart z (hv z (by rw [hvw]; exact List.mem_of_getLast? hl))

theorem quotedValue_quotes (hc : Classes isW isS) {body : List Char} (hb : Trimmed isS body) :
    quotedValue isS ('\'' :: '\'' :: '\'' :: '\n' :: (body ++ ['\n', '\'', '\'', '\''])) = some body := by
  have h3 : "'''".toList = ['\'', '\'', '\''] := by decide +kernel
  unfold quotedValue
  simp only
  rw [if_pos (by right; trivial), if_pos (by left; rw [h3]; rfl)]
  have h1 : ('\'' :: '\'' :: '\'' :: '\n' :: (body ++ ['\n', '\'', '\'', '\''])).drop 3 =
      (['\n'] ++ (body ++ ['\n'])) ++ ['\'', '\'', '\''] := by simp
  have h2 : ('\'' :: '\'' :: '\'' :: '\n' :: (body ++ ['\n', '\'', '\'', '\''])).length - 6 =
      (['\n'] ++ (body ++ ['\n'])).length := by simp
  rw [h1, h2, List.take_left' rfl, strip_blanks (by simp [hc.newline]) (by simp [hc.newline]) hb]

theorem setting_aux (hc : Classes isW isS) {D V db view body : List Char} (hD : '=' ∉ D) (hV : '=' ∉ V)
    (hVl : V.getLast? = some '.') (hdb : Word isW db) (hv : Word isW view) (hb : Trimmed isS body)
    (hDd : ∃ D', D = 'd' :: D') :
    setting isS ('s' :: 'e' :: 't' :: ' ' :: '@' :: 'c' :: 'o' :: 'n' :: 'f' :: 'i' :: 'g' :: '.' ::
      (D ++ db ++ V ++ view ++ '=' :: '\'' :: '\'' :: '\'' :: '\n' :: (body ++ ['\n', '\'', '\'', '\'']))) =
      (D ++ db ++ V ++ view, some body) := by
  have hne : ∀ {s : List Char}, Word isW s → '=' ∉ s := fun h hm => by
    have := h _ hm
    rw [hc.word '=' (by decide)] at this; cases this
  let key : List Char := '@' :: 'c' :: 'o' :: 'n' :: 'f' :: 'i' :: 'g' :: '.' :: (D ++ db ++ V ++ view)
  have hkey : ∀ c ∈ key, (fun c => decide (c ≠ '=')) c = true := by
    intro c hm
    simp only [decide_eq_true_eq]
    rintro rfl
    simp only [key, List.mem_cons, List.mem_append, hD, hV, hne hdb, hne hv, or_false] at hm
    revert hm; decide
  have hlast : ∀ x : List Char, (x ++ V).getLast? = some '.' := fun x => by rw [List.getLast?_append, hVl]; rfl
  obtain ⟨t1, t2⟩ := takeWhile_pre (y := '\'' :: '\'' :: '\'' :: '\n' :: (body ++ ['\n', '\'', '\'', '\''])) hkey
    (by decide : (fun c : Char => decide (c ≠ '=')) '=' = false)
  have hval : Trimmed isS ('\'' :: '\'' :: '\'' :: '\n' :: (body ++ ['\n', '\'', '\'', '\''])) := by
    refine ⟨fun c h => ?_, fun c h => ?_⟩
    · injection h with h; rw [← h]; exact hc.blank '\'' (by decide)
    · have : ('\'' :: '\'' :: '\'' :: '\n' :: (body ++ ['\n', '\'', '\'', '\''])) =
        ('\'' :: '\'' :: '\'' :: '\n' :: (body ++ ['\n', '\'', '\''])) ++ ['\''] := by simp
      rw [this, List.getLast?_append] at h
      injection h with h; rw [← h]; exact hc.blank '\'' (by decide)
  have hk1 : Trimmed isS key := by
    have := trimmed_name (c := '@') (a := 'c' :: 'o' :: 'n' :: 'f' :: 'i' :: 'g' :: '.' :: (D ++ db ++ V)) hc
      (hc.blank '@' (by decide)) (hlast ('c' :: 'o' :: 'n' :: 'f' :: 'i' :: 'g' :: '.' :: (D ++ db))) hv
    simpa [key] using this
  have hk2 : Trimmed isS (D ++ db ++ V ++ view) := by
    obtain ⟨D', rfl⟩ := hDd
    exact trimmed_name (c := 'd') (a := D' ++ db ++ V) hc (hc.blank 'd' (by decide)) (hlast (D' ++ db)) hv
  have hkv : keyValue isS (key ++ '=' :: '\'' :: '\'' :: '\'' :: '\n' :: (body ++ ['\n', '\'', '\'', '\''])) =
      (key, '\'' :: '\'' :: '\'' :: '\n' :: (body ++ ['\n', '\'', '\'', '\''])) := by
    unfold keyValue
    rw [t1, t2, strip_trimmed hk1, List.drop_succ_cons, List.drop_zero, strip_trimmed hval]
  unfold setting
  have e : ('s' :: 'e' :: 't' :: ' ' :: '@' :: 'c' :: 'o' :: 'n' :: 'f' :: 'i' :: 'g' :: '.' ::
      (D ++ db ++ V ++ view ++ '=' :: '\'' :: '\'' :: '\'' :: '\n' :: (body ++ ['\n', '\'', '\'', '\'']))).drop 4 =
      key ++ '=' :: '\'' :: '\'' :: '\'' :: '\n' :: (body ++ ['\n', '\'', '\'', '\'']) := rfl
  rw [e, hkv]
  simp only
  rw [quotedValue_quotes hc hb, show key.drop 8 = D ++ db ++ V ++ view from rfl, strip_trimmed hk2]

/-- The statement made for a block defines the view with the text of the block. -/
theorem setting_setText (hc : Classes isW isS) {db view body : List Char} (hdb : Word isW db) (hv : Word isW view)
    (hb : Trimmed isS body) : setting isS (setText isS db view body) = (viewKey db view, some body) := by
  have h1 : "set @config.databases.".toList = 's' :: 'e' :: 't' :: ' ' :: '@' :: 'c' :: 'o' :: 'n' :: 'f' :: 'i' :: 'g' :: '.' ::
      "databases.".toList := by decide +kernel
  have h2 : "='''\n".toList = ['=', '\'', '\'', '\'', '\n'] := by decide +kernel
  have h3 : "\n'''".toList = ['\n', '\'', '\'', '\''] := by decide +kernel
  have h4 : '=' ∉ "databases.".toList := by decide +kernel
  have h5 : '=' ∉ ".virtual_views.".toList := by decide +kernel
  have h6 : ".virtual_views.".toList.getLast? = some '.' := by decide +kernel
  have h7 : ∃ D', "databases.".toList = 'd' :: D' := ⟨"atabases.".toList, by decide +kernel⟩
  unfold setText viewKey
  rw [h1, h2, h3, strip_trimmed hb]
  generalize "databases.".toList = D at h4 h7 ⊢
  generalize ".virtual_views.".toList = V at h5 h6 ⊢
  have := setting_aux hc h4 h5 h6 hdb hv hb h7
  simpa only [List.cons_append, List.append_assoc, List.nil_append] using this

theorem splitName_parts {n db view : List Char} (h : n = db ++ '.' :: view) (hdb : '.' ∉ db) (hv : '.' ∉ view) :
    splitName n = some (db, view) := by
  subst h
  obtain ⟨t1, t2⟩ := takeWhile_pre (f := fun c => decide (c ≠ '.')) (a := db) (c := '.') (y := view)
    (fun c hm => by simp only [decide_eq_true_eq]; rintro rfl; exact hdb hm) (by decide)
  unfold splitName
  rw [t1, t2]
  simp [hv]

theorem word_no_dot {n db view : List Char} (hn : ∀ c ∈ n, (isW c || c = '.') = true) (h : n = db ++ '.' :: view)
    (hdb : '.' ∉ db) (hv : '.' ∉ view) : Word isW db ∧ Word isW view := by
  subst h
  constructor
  · intro c hm
    have := hn c (by simp [hm])
    by_cases e : c = '.'
    · subst e; exact absurd hm hdb
    · simpa [e] using this
  · intro c hm
    have := hn c (by simp [hm])
    by_cases e : c = '.'
    · subst e; exact absurd hm hv
    · simpa [e] using this

/-- **C150**: in a statement with any number of raw SQL blocks `/* raw(db.view) */ ( … ) /* endraw */` or
`/* raw(db.view) … endraw */`, each block defines the view of its name with exactly the text between, in their order, before the
statement itself is compiled, in which every block is replaced by its name and all other text is kept. -/
theorem C150_raw_blocks (hc : Classes isW isS) (doc : List Item) (hd : WF isW isS doc) (hw : Written doc)
    (db view : Blk → List Char)
    (hn : ∀ b ∈ blocks doc, b.name = db b ++ '.' :: view b ∧ '.' ∉ db b ∧ '.' ∉ view b) :
    (rewrite isW isS (docText doc)).1.map (setting isS) =
      (blocks doc).map (fun b => ("databases.".toList ++ db b ++ ".virtual_views.".toList ++ view b, some b.body)) ∧
    (rewrite isW isS (docText doc)).2 = some (docOut doc) := by
  have h := rewriteLoop_doc hc (fun b => (db b, view b)) (blocks doc) doc hd
    (fun b hb => ⟨hd.good b hb, splitName_parts (hn b hb).1 (hn b hb).2.1 (hn b hb).2.2⟩) (fun b hb => ⟨b, hb, rfl⟩)
  unfold rewrite
  rw [findAll_doc hc doc hd hw _ (Nat.le_refl _), h]
  refine ⟨?_, rfl⟩
  rw [List.map_map]
  apply List.map_congr_left
  intro b hb
  obtain ⟨h1, h2⟩ := word_no_dot (hd.good b hb).name (hn b hb).1 (hn b hb).2.1 (hn b hb).2.2
  exact setting_setText hc h1 h2 ⟨(hd.good b hb).body_head, (hd.good b hb).body_last⟩

/-- **C150**: a block whose name is not of the form `db.view` (no point, or several) makes the whole statement fail. -/
theorem C150_bad_name (hc : Classes isW isS) (doc : List Item) (hd : WF isW isS doc) (hw : Written doc)
    (h : ∃ b ∈ blocks doc, ¬ ∃ db view, b.name = db ++ '.' :: view ∧ '.' ∉ db ∧ '.' ∉ view) :
    (rewrite isW isS (docText doc)).2 = none := by
  obtain ⟨b, hb, hn⟩ := h
  unfold rewrite
  rw [findAll_doc hc doc hd hw _ (Nat.le_refl _)]
  refine rewriteLoop_bad _ _ ⟨_, List.mem_map.mpr ⟨b, hb, rfl⟩, ?_⟩
  cases hs : splitName b.name with
  | none => rfl
  | some p =>
    exfalso
    apply hn
    unfold splitName at hs
    split at hs
    · next r e =>
      split at hs
      · cases hs
      · next hr =>
        refine ⟨b.name.takeWhile (· ≠ '.'), r, ?_, ?_, hr⟩
        · rw [← e]; exact List.takeWhile_append_dropWhile.symm
        · intro hm
          have := List.all_takeWhile (p := fun c => decide (c ≠ '.')) (l := b.name)
          rw [List.all_eq_true] at this
          exact absurd (this _ hm) (by decide)
    · cases hs

/-- **C150**: a statement in which no `/* raw(` occurs is compiled as it is, and no view is defined. -/
theorem C150_plain_text_untouched (sql : List Char) (h : ∀ u, u <:+ sql → startsRaw isS u = false) :
    rewrite isW isS sql = ([], some sql) := by
  have : ∀ fuel s, (∀ u, u <:+ s → startsRaw isS u = false) → findAll isW isS fuel s = [] := by
    intro fuel
    induction fuel with
    | zero => intros; rfl
    | succ fuel ih =>
      intro s hs
      cases s with
      | nil => rfl
      | cons c cs =>
        have hm : matchRaw isW isS (c :: cs) = none := by
          cases hx : matchRaw isW isS (c :: cs) with
          | none => rfl
          | some p => have := matchRaw_starts hx; rw [hs _ (List.suffix_refl _)] at this; cases this
        simp only [findAll, hm]
        exact ih cs fun u hu => hs u (hu.trans (List.suffix_cons _ _))
  unfold rewrite
  rw [this _ _ h]
  rfl

/-! ### Examples -/

/-- ASCII letters, digits and the underscore. -/
def word (c : Char) : Bool := c.isAlphanum || c = '_'

/-- Blanks. -/
def blank (c : Char) : Bool := c = ' ' || c = '\n' || c = '\t' || c = '\r'

theorem classes_ok : Classes word blank := by
  refine ⟨by decide, fun c h => ?_, by decide, by decide⟩
  rw [Bool.eq_false_iff]
  intro hb
  simp only [blank, Bool.or_eq_true, decide_eq_true_eq] at hb
  rcases hb with ((e | e) | e) | e <;> subst e <;> revert h <;> decide

/-- `/* raw(m.t) */ ( select (1) ) /* endraw */` -/
def blk1 : Blk := ⟨[' '], "m.t".toList, [' '], some ([' '], [' ']), "select (1)".toList, [' '], some ([' '], [' ']), [' ']⟩

/-- `/*raw(g.c) [] endraw*/` -/
def blk2 : Blk := ⟨[], "g.c".toList, [' '], none, "[]".toList, [' '], none, []⟩

/-- All the endings of a text. -/
def endings : List Char → List (List Char)
  | [] => [[]]
  | c :: s => (c :: s) :: endings s

theorem mem_endings {u s : List Char} (h : u <:+ s) : u ∈ endings s := by
  induction s with
  | nil => simp [List.suffix_nil.mp h, endings]
  | cons c s ih =>
    rcases List.suffix_cons_iff.mp h with e | h
    · simp [e, endings]
    · exact List.mem_cons_of_mem _ (ih h)

theorem good_of (b : Blk) (h1 : ∀ c ∈ b.w1 ++ b.w2 ++ b.w3 ++ b.w4, blank c = true)
    (h2 : ∀ p ∈ b.opn, ∀ c ∈ p.1 ++ p.2, blank c = true) (h3 : ∀ p ∈ b.cls, ∀ c ∈ p.1 ++ p.2, blank c = true)
    (hn : b.name ≠ []) (hn' : ∀ c ∈ b.name, (word c || c = '.') = true) (h4 : ∀ c ∈ b.body.head?, blank c = false)
    (h5 : ∀ c ∈ b.body.getLast?, blank c = false) (h6 : ∀ u ∈ endings b.body, endrawL.isPrefixOf u = false ∧ startsRaw blank u = false)
    (h7 : b.body.head? ≠ some '*') (h8 : b.body.getLast? ≠ some '*') : b.Good word blank where
  w1 c h := h1 c (by simp [h])
  w2 c h := h1 c (by simp [h])
  w3 c h := h1 c (by simp [h])
  w4 c h := h1 c (by simp [h])
  opn u v e := ⟨fun c h => h2 (u, v) e c (by simp [h]), fun c h => h2 (u, v) e c (by simp [h])⟩
  cls u v e := ⟨fun c h => h3 (u, v) e c (by simp [h]), fun c h => h3 (u, v) e c (by simp [h])⟩
  name_ne := hn
  name := hn'
  body_head c h := h4 c h
  body_last c h := h5 c h
  no_end h := by
    obtain ⟨u, hp, hs⟩ := List.infix_iff_prefix_suffix.mp h
    have := (h6 u (mem_endings hs)).1
    rw [List.isPrefixOf_iff_prefix.mpr hp] at this
    cases this
  no_raw u h := (h6 u (mem_endings h)).2
  head_opn _ := h7
  last_cls _ := h8

theorem blk1_good : blk1.Good word blank := by
  apply good_of <;> decide +kernel

theorem blk2_good : blk2.Good word blank := by
  apply good_of <;> decide +kernel

/-- `select /* all */ x from <blk1> a, <blk2> b, <blk1> c` -/
def doc : List Item :=
  "select /* all */ x from ".toList.map .ch ++ [.blk blk1] ++ " a, ".toList.map .ch ++ [.blk blk2] ++ " b, ".toList.map .ch ++
    [.blk blk1] ++ " c".toList.map .ch

/-- What `WF` asks of the plain text, as a test. -/
def plainOk : List Item → Bool
  | [] => true
  | .ch c :: d => !startsRaw blank (c :: run d) && plainOk d
  | .blk _ :: d => !startsRaw blank ('/' :: run d) && plainOk d
  | .done _ :: _ => false

theorem WF_of (d : List Item) (h : ∀ b ∈ blocks d, b.Good word blank) (hp : plainOk d = true) : WF word blank d ∧ Written d := by
  induction d with
  | nil => exact ⟨trivial, trivial⟩
  | cons i d ih =>
    cases i with
    | ch c =>
      simp only [plainOk, Bool.and_eq_true, Bool.not_eq_true'] at hp
      obtain ⟨h1, h2⟩ := ih h hp.2
      exact ⟨⟨hp.1, h1⟩, h2⟩
    | done n => cases hp
    | blk b =>
      simp only [plainOk, Bool.and_eq_true, Bool.not_eq_true'] at hp
      obtain ⟨h1, h2⟩ := ih (fun b hb => h b (List.mem_cons_of_mem _ hb)) hp.2
      exact ⟨⟨h b (List.mem_cons_self ..), hp.1, h1⟩, h2⟩

theorem doc_blocks : blocks doc = [blk1, blk2, blk1] := rfl

theorem doc_ok : WF word blank doc ∧ Written doc := by
  apply WF_of
  · rw [doc_blocks]
    intro b hb
    simp only [List.mem_cons, List.not_mem_nil, or_false] at hb
    rcases hb with e | e | e <;> subst e
    · exact blk1_good
    · exact blk2_good
    · exact blk1_good
  · decide +kernel

/-- A statement with a comment and three blocks, two of them the same, meets the hypotheses of `C150_raw_blocks`. -/
example : WF word blank doc ∧ Written doc ∧ (∀ b ∈ blocks doc, ∃ db view : List Char, b.name = db ++ '.' :: view ∧ '.' ∉ db ∧ '.' ∉ view) ∧
    docText doc = "select /* all */ x from /* raw(m.t) */ ( select (1) ) /* endraw */ a, /*raw(g.c) [] endraw*/ b, /* raw(m.t) */ ( select (1) ) /* endraw */ c".toList ∧
    docOut doc = "select /* all */ x from m.t a, g.c b, m.t c".toList := by
  refine ⟨doc_ok.1, doc_ok.2, ?_, by decide +kernel, by decide +kernel⟩
  rw [doc_blocks]
  intro b hb
  simp only [List.mem_cons, List.not_mem_nil, or_false] at hb
  rcases hb with e | e | e <;> subst e
  · exact ⟨"m".toList, "t".toList, by decide, by decide, by decide⟩
  · exact ⟨"g".toList, "c".toList, by decide, by decide, by decide⟩
  · exact ⟨"m".toList, "t".toList, by decide, by decide, by decide⟩

/-- A block named `t` meets the hypothesis of `C150_bad_name`. -/
example : ¬ ∃ db view : List Char, ['t'] = db ++ '.' :: view ∧ '.' ∉ db ∧ '.' ∉ view := by
  rintro ⟨db, view, h, _⟩
  have : '.' ∈ ['t'] := by rw [h]; simp
  revert this; decide

/-- Blocks are replaced in string literals as well: `select '/*raw(g.c) [] endraw*/'` becomes `select 'g.c'`. -/
theorem C150_literal_violated :
    (rewrite word blank "select '/*raw(g.c) [] endraw*/'".toList).2 = some "select 'g.c'".toList := by
  decide +kernel

end Verif.Props.RawSql
