import Verif.Spec.Table
/-! C70: table names. -/
namespace Verif.Props
open Verif.Val (Str)
open Verif.Table Verif.TableSpec

theorem mem_takeWhile {α : Type} {p : α → Bool} {l : List α} {a : α} (h : a ∈ l.takeWhile p) : p a = true := by
  induction l with
  | nil => simp at h
  | cons b l ih =>
    by_cases hb : p b = true
    · rw [List.takeWhile_cons_of_pos hb] at h
      rcases List.mem_cons.mp h with rfl | h
      · exact hb
      · exact ih h
    · rw [List.takeWhile_cons_of_neg hb] at h; simp at h

theorem pathSplit_base (base : Str) (h : '/' ∉ base) : pathSplit base = ([], base) := by
  have h1 : ∀ c ∈ base.reverse, decide (c ≠ '/') = true := by
    intro c hc
    simp only [ne_eq, decide_not, Bool.not_eq_eq_eq_not, Bool.not_true, decide_eq_false_iff_not]
    rintro rfl
    exact h (List.mem_reverse.mp hc)
  have h2 := List.takeWhile_append_of_pos (p := fun c : Char => decide (c ≠ '/')) (l₂ := []) h1
  have h3 := List.dropWhile_append_of_pos (p := fun c : Char => decide (c ≠ '/')) (l₂ := []) h1
  simp only [List.append_nil, List.takeWhile_nil, List.dropWhile_nil] at h2 h3
  rw [pathSplit]
  simp only [h2, h3]
  simp

theorem pathSplit_dir (d slashes base : Str) (hb : '/' ∉ base) (hs : slashes ≠ []) (hall : ∀ c ∈ slashes, c = '/') :
    (d = [] → pathSplit (d ++ slashes ++ base) = (slashes, base)) ∧
    (∀ d' c, d = d' ++ [c] → c ≠ '/' → pathSplit (d ++ slashes ++ base) = (d, base)) := by
  have h1 : ∀ c ∈ base.reverse, decide (c ≠ '/') = true := by
    intro c hc
    simp only [ne_eq, decide_not, Bool.not_eq_eq_eq_not, Bool.not_true, decide_eq_false_iff_not]
    rintro rfl
    exact hb (List.mem_reverse.mp hc)
  have hrev : (d ++ slashes ++ base).reverse = base.reverse ++ (slashes.reverse ++ d.reverse) := by simp
  obtain ⟨s0, rs, hrs⟩ : ∃ s0 rs, slashes.reverse = s0 :: rs := by
    cases h : slashes.reverse with
    | nil => simp at h; exact absurd h hs
    | cons a b => exact ⟨a, b, rfl⟩
  have hs0 : s0 = '/' := hall s0 (List.mem_reverse.mp (by rw [hrs]; simp))
  have hstop : ∀ l : Str, (slashes.reverse ++ l).takeWhile (fun c => decide (c ≠ '/')) = [] ∧
      (slashes.reverse ++ l).dropWhile (fun c => decide (c ≠ '/')) = slashes.reverse ++ l := by
    intro l; rw [hrs]; subst hs0; simp
  have ht : ((d ++ slashes ++ base).reverse.takeWhile (fun c => decide (c ≠ '/'))).reverse = base := by
    rw [hrev, List.takeWhile_append_of_pos h1, (hstop _).1]; simp
  have hd : ((d ++ slashes ++ base).reverse.dropWhile (fun c => decide (c ≠ '/'))).reverse = d ++ slashes := by
    rw [hrev, List.dropWhile_append_of_pos h1, (hstop _).2]; simp
  constructor
  · rintro rfl
    rw [pathSplit]
    simp only [ht, hd]
    rw [if_pos]
    · simp
    · simpa using hall
  · rintro d' c rfl hc
    rw [pathSplit]
    simp only [ht, hd]
    rw [if_neg]
    · have h4 : ∀ c ∈ slashes.reverse, decide (c = '/') = true := by
        intro c hc; simpa using hall c (List.mem_reverse.mp hc)
      rw [show (d' ++ [c] ++ slashes).reverse = slashes.reverse ++ (c :: d'.reverse) by simp,
        List.dropWhile_append_of_pos h4, List.dropWhile_cons_of_neg (by simpa using hc)]
      simp
    · simp [hc]

theorem extension_eq (stem word : Str) (hs : ∃ c ∈ stem, c ≠ '.') (hw : '.' ∉ word) :
    extension (stem ++ '.' :: word) = '.' :: word := by
  have h1 : ∀ c ∈ word.reverse, decide (c ≠ '.') = true := by
    intro c hc
    simp only [ne_eq, decide_not, Bool.not_eq_eq_eq_not, Bool.not_true, decide_eq_false_iff_not]
    rintro rfl
    exact hw (List.mem_reverse.mp hc)
  have hrev : (stem ++ '.' :: word).reverse = word.reverse ++ '.' :: stem.reverse := by simp
  have ht : (stem ++ '.' :: word).reverse.takeWhile (fun c => decide (c ≠ '.')) = word.reverse := by
    rw [hrev, List.takeWhile_append_of_pos h1]; simp
  have hd : (stem ++ '.' :: word).reverse.dropWhile (fun c => decide (c ≠ '.')) = '.' :: stem.reverse := by
    rw [hrev, List.dropWhile_append_of_pos h1]; simp
  rw [extension]
  simp only [ht, hd]
  rw [if_neg]
  · simp
  · intro h
    obtain ⟨c, hc, hne⟩ := hs
    have := List.all_eq_true.mp h c (List.mem_reverse.mpr hc)
    exact hne (by simpa using this)

theorem driverOf_reader (stem ext driver : Str) (hs : ∃ c ∈ stem, c ≠ '.') (h : (ext, driver) ∈ reader) :
    driverOf (extension (stem ++ ext)) = some driver := by
  have key : ∀ w : Str, '.' ∉ w → driverOf (extension (stem ++ '.' :: w)) = driverOf ('.' :: w) := by
    intro w hw; rw [extension_eq stem w hs hw]
  simp only [reader, List.mem_cons, Prod.mk.injEq, List.not_mem_nil, or_false] at h
  rcases h with ⟨rfl, rfl⟩ | ⟨rfl, rfl⟩ | ⟨rfl, rfl⟩ | ⟨rfl, rfl⟩ | ⟨rfl, rfl⟩
  · exact (key "txt".toList (by decide)).trans (by decide)
  · exact (key "json".toList (by decide)).trans (by decide)
  · exact (key "csv".toList (by decide)).trans (by decide)
  · exact (key "xls".toList (by decide)).trans (by decide)
  · exact (key "xlsx".toList (by decide)).trans (by decide)

/-- What `locate` finds out about a file name. -/
theorem isFile_split {os : Os} {path dir base driver : Str} (h : IsFile os path dir base driver) :
    (pathSplit path).2 = base ∧ driverOf (extension base) = some driver ∧
    (if (pathSplit path).1 = [] then os.cwd else os.abspath (pathSplit path).1) = dir := by
  obtain ⟨hb, ⟨stem, ext, rfl, hs, hr⟩, h⟩ := h
  have hd := driverOf_reader stem ext driver hs hr
  rcases h with ⟨rfl, rfl⟩ | ⟨d, sl, rfl, hne, hall, ⟨rfl, rfl⟩ | ⟨d', c, rfl, hc, rfl⟩⟩
  · rw [pathSplit_base _ hb]; exact ⟨rfl, hd, by simp⟩
  · rw [(pathSplit_dir [] sl _ hb hne hall).1 rfl]; exact ⟨rfl, hd, by simp [hne]⟩
  · rw [(pathSplit_dir _ sl _ hb hne hall).2 d' c rfl hc]; exact ⟨rfl, hd, by simp⟩

/-- And the other way round: a name with a driver is a file name. -/
theorem isFile_of_driver (os : Os) (path driver : Str) (h : driverOf (extension (pathSplit path).2) = some driver) :
    ∃ dir base, IsFile os path dir base driver := by
  have hb : '/' ∉ (pathSplit path).2 := by
    simp only [pathSplit, List.mem_reverse]
    intro hm
    have := mem_takeWhile hm
    simp at this
  have hext : ∃ stem ext, (pathSplit path).2 = stem ++ ext ∧ (∃ c ∈ stem, c ≠ '.') ∧ (ext, driver) ∈ reader := by
    generalize (pathSplit path).2 = base at h hb
    have hne : extension base ≠ [] := by
      intro h0; rw [h0] at h; rw [show driverOf [] = none by decide] at h; cases h
    have hr : (extension base, driver) ∈ reader := by
      revert h
      generalize extension base = e
      intro h
      unfold driverOf at h
      simp only [reader, List.mem_cons, Prod.mk.injEq]
      (repeat' split at h) <;> simp_all
    have hsplit : ∃ stem, base = stem ++ extension base ∧ ∃ c ∈ stem, c ≠ '.' := by
      have htd := List.takeWhile_append_dropWhile (p := fun c : Char => decide (c ≠ '.')) (l := base.reverse)
      unfold extension at hne ⊢
      cases hdw : base.reverse.dropWhile (fun c => decide (c ≠ '.')) with
      | nil => simp only [hdw] at hne; exact absurd rfl hne
      | cons dot before =>
        simp only [hdw] at hne ⊢
        split at hne
        · exact absurd rfl hne
        · rename_i hall
          rw [if_neg hall]
          refine ⟨before.reverse, ?_, ?_⟩
          · rw [hdw] at htd
            have := congrArg List.reverse htd
            rw [List.reverse_reverse] at this
            exact this.symm.trans (by simp)
          · rw [List.all_eq_true] at hall
            apply Classical.byContradiction
            intro hno
            apply hall
            intro c hc
            apply Classical.byContradiction
            intro hcc
            exact hno ⟨c, List.mem_reverse.mpr hc, by simpa using hcc⟩
    obtain ⟨stem, h1, h2⟩ := hsplit
    exact ⟨stem, extension base, h1, h2, hr⟩
  have hpath : path = ((path.reverse.dropWhile (fun c => decide (c ≠ '/'))).reverse) ++ (pathSplit path).2 := by
    have htd := List.takeWhile_append_dropWhile (p := fun c : Char => decide (c ≠ '/')) (l := path.reverse)
    have := congrArg List.reverse htd
    rw [List.reverse_reverse, List.reverse_append] at this
    exact this.symm
  generalize hH : (path.reverse.dropWhile (fun c => decide (c ≠ '/'))).reverse = head at hpath
  generalize (pathSplit path).2 = base at hb hext hpath
  by_cases hh : head = []
  · exact ⟨os.cwd, base, hb, hext, Or.inl ⟨by rw [hpath, hh]; rfl, rfl⟩⟩
  · -- the head ends with a slash
    have hlast : ∃ h0, head = h0 ++ ['/'] := by
      cases hdw : path.reverse.dropWhile (fun c => decide (c ≠ '/')) with
      | nil => rw [hdw] at hH; exact absurd hH.symm hh
      | cons a l =>
        have ha := List.head_dropWhile_not (fun c : Char => decide (c ≠ '/')) (l := path.reverse) (by rw [hdw]; simp)
        simp only [hdw, List.head_cons] at ha
        rw [hdw] at hH
        simp only [ne_eq, decide_not, Bool.not_eq_eq_eq_not, Bool.not_false, decide_eq_true_eq] at ha
        exact ⟨l.reverse, by rw [← hH, ha]; simp⟩
    -- the slashes at its end
    have hsl := List.takeWhile_append_dropWhile (p := fun c : Char => decide (c = '/')) (l := head.reverse)
    have hsl' := congrArg List.reverse hsl
    rw [List.reverse_reverse, List.reverse_append] at hsl'
    have hne : (head.reverse.takeWhile (fun c => decide (c = '/'))).reverse ≠ [] := by
      obtain ⟨h0, rfl⟩ := hlast
      simp
    have hall : ∀ c ∈ (head.reverse.takeWhile (fun c => decide (c = '/'))).reverse, c = '/' := by
      intro c hc
      have := mem_takeWhile (List.mem_reverse.mp hc)
      simpa using this
    by_cases hd : head.reverse.dropWhile (fun c => decide (c = '/')) = []
    · rw [hd, List.reverse_nil] at hsl'
      exact ⟨_, base, hb, hext, Or.inr ⟨[], _, by rw [hsl']; exact hpath, hne, hall, Or.inl ⟨rfl, rfl⟩⟩⟩
    · refine ⟨os.abspath (head.reverse.dropWhile (fun c => decide (c = '/'))).reverse, base, hb, hext,
        Or.inr ⟨_, _, by rw [hsl']; exact hpath, hne, hall, Or.inr ?_⟩⟩
      cases hdw : head.reverse.dropWhile (fun c => decide (c = '/')) with
      | nil => exact absurd hdw hd
      | cons a l =>
        have ha := List.head_dropWhile_not (fun c : Char => decide (c = '/')) (l := head.reverse) (by rw [hdw]; simp)
        simp only [hdw, List.head_cons, decide_eq_false_iff_not] at ha
        exact ⟨l.reverse, a, by simp, ha, rfl⟩

/-! ### Options -/

theorem splitComma_word (w rest : Str) (h : ',' ∉ w) : ∃ a as, splitComma rest = a :: as ∧ splitComma (w ++ rest) = (w ++ a) :: as := by
  induction w with
  | nil =>
    cases hs : splitComma rest with
    | nil =>
      exfalso
      cases rest with
      | nil => simp [splitComma] at hs
      | cons c r =>
        rw [splitComma] at hs
        split at hs
        · cases hs
        · split at hs <;> cases hs
    | cons a as => exact ⟨a, as, rfl, hs⟩
  | cons c w ih =>
    simp only [List.mem_cons, not_or] at h
    obtain ⟨a, as, h1, h2⟩ := ih h.2
    refine ⟨a, as, h1, ?_⟩
    rw [List.cons_append, splitComma, if_neg (fun g => h.1 g.symm), h2]
    rfl

theorem splitComma_intercalate (ws : List Str) (hne : ws ≠ []) (h : ∀ w ∈ ws, ',' ∉ w) :
    splitComma (List.intercalate [','] ws) = ws := by
  induction ws with
  | nil => exact absurd rfl hne
  | cons w ws ih =>
    cases ws with
    | nil =>
      obtain ⟨a, as, h1, h2⟩ := splitComma_word w [] (h w (by simp))
      simp only [splitComma, List.cons.injEq] at h1
      obtain ⟨rfl, rfl⟩ := h1
      simpa [List.intercalate] using h2
    | cons w' ws =>
      have e : List.intercalate [','] (w :: w' :: ws) = w ++ ',' :: List.intercalate [','] (w' :: ws) := by
        simp [List.intercalate]
      obtain ⟨a, as, h1, h2⟩ := splitComma_word w (',' :: List.intercalate [','] (w' :: ws)) (h w (by simp))
      rw [splitComma, if_pos rfl, ih (by simp) (fun x hx => h x (by simp [hx])), List.cons.injEq] at h1
      obtain ⟨rfl, rfl⟩ := h1
      rw [e, h2]; simp

theorem options_written (name n : Str) (opts : List Str) (h : Written name n opts) : options name = (n, opts) := by
  rcases h with ⟨rfl, rfl, h⟩ | ⟨rfl, hn, ho, hc⟩
  · rw [options, if_neg h]
  · rw [options, if_pos (by simp)]
    have h1 : (n ++ '<' :: List.intercalate [','] opts ++ ['>']).idxOf '<' = n.length := by
      rw [List.append_assoc, List.idxOf_append, if_neg hn]; simp
    have h2 : (n ++ '<' :: List.intercalate [','] opts ++ ['>']).length - 1 -
        (n ++ '<' :: List.intercalate [','] opts ++ ['>']).reverse.idxOf '>' = n.length + 1 + (List.intercalate [','] opts).length := by
      rw [List.reverse_append]; simp; omega
    simp only [h1, h2]
    have h3 : (n ++ '<' :: List.intercalate [','] opts ++ ['>']).take (n.length + 1 + (List.intercalate [','] opts).length) =
        n ++ '<' :: List.intercalate [','] opts := by
      rw [List.take_append_of_le_length (by simp; omega), List.take_of_length_le (by simp; omega)]
    rw [h3]
    have h4 : (n ++ '<' :: List.intercalate [','] opts ++ ['>']).take n.length = n := by
      rw [List.append_assoc, List.take_append_of_le_length (Nat.le_refl _), List.take_length]
    have h5 : (n ++ '<' :: List.intercalate [','] opts).drop (n.length + 1) = List.intercalate [','] opts := by
      rw [show n ++ '<' :: List.intercalate [','] opts = (n ++ ['<']) ++ List.intercalate [','] opts by simp]
      exact List.drop_left' (by simp)
    rw [h4, h5, splitComma_intercalate opts ho hc]

theorem formatOf_spec (driver : Str) (opts : List Str) (f : Option Str) (h : Format driver opts f) : formatOf driver opts = f := by
  unfold Format at h
  unfold formatOf
  split at h
  · rename_i hd
    rw [if_pos hd]
    rcases h with ⟨rfl, h1⟩ | ⟨rfl, h1, h2⟩ | ⟨rfl, h1, h2, h3⟩ | ⟨rfl, h1, h2, h3, h4⟩ | ⟨rfl, h1, h2, h3, h4⟩ <;>
      simp only [List.find?, List.contains_iff_mem, List.contains_eq_mem, *, decide_true, decide_false]
  · rename_i hd
    rw [if_neg hd, h]

/-! ### The databases of a query -/

theorem openDir_eq (name driver path : Str) (f : Option Str) (dbs : List Db)
    (h1 : ∀ d ∈ dbs, d.name = name → d = ⟨name, driver, some path, f⟩)
    (h2 : ∀ d ∈ dbs, d.driver = driver ∧ d.path = some path → d.name = name) :
    openDir name driver path f dbs =
      (name, if ⟨name, driver, some path, f⟩ ∈ dbs then dbs else dbs ++ [⟨name, driver, some path, f⟩]) := by
  induction dbs with
  | nil => simp [openDir]
  | cons d ds ih =>
    have ih := ih (fun x hx => h1 x (by simp [hx])) (fun x hx => h2 x (by simp [hx]))
    rw [openDir]
    by_cases hd : d.name = name
    · have := h1 d (by simp) hd
      subst this
      rw [if_pos rfl, if_pos (by simp)]
      cases f <;> rfl
    · rw [if_neg hd, if_neg (fun g => hd (h2 d (by simp) g)), ih]
      have hne : (⟨name, driver, some path, f⟩ : Db) ≠ d := by rintro rfl; exact hd rfl
      simp only [List.mem_cons, hne, false_or]
      split <;> simp

theorem openStdio_eq (f : Str) (dbs : List Db)
    (h : ∀ d ∈ dbs, d.driver = "textline".toList ∧ d.format = some f →
      d = ⟨"stdio-".toList ++ f, "textline".toList, none, some f⟩) :
    openStdio f dbs = ("stdio-".toList ++ f, if ⟨"stdio-".toList ++ f, "textline".toList, none, some f⟩ ∈ dbs then dbs
      else dbs ++ [⟨"stdio-".toList ++ f, "textline".toList, none, some f⟩]) := by
  induction dbs with
  | nil => simp [openStdio]
  | cons d ds ih =>
    have ih := ih (fun x hx => h x (by simp [hx]))
    rw [openStdio]
    by_cases hd : d.driver = "textline".toList ∧ d.format = some f
    · have := h d (by simp) hd
      rw [if_pos hd, this, if_pos (by simp)]
    · rw [if_neg hd, ih]
      have hne : (⟨"stdio-".toList ++ f, "textline".toList, none, some f⟩ : Db) ≠ d := by rintro rfl; exact hd ⟨rfl, rfl⟩
      simp only [List.mem_cons, hne, false_or]
      split <;> simp

/-- The database a source needs. -/
def wantDb (os : Os) : Source → Option Db
  | .file dir _ driver f => some ⟨dirName os dir, driver, some dir, f⟩
  | .stdio f => some ⟨"stdio-".toList ++ f, "textline".toList, none, some f⟩
  | _ => none

theorem dirName_inj {os : Os} {a b : Str} (h : dirName os a = dirName os b) :
    a.map (fun c => if os.alnum c then c else '_') = b.map (fun c => if os.alnum c then c else '_') := by
  simpa [dirName] using h

theorem dirName_stdio (os : Os) (a b : Str) : dirName os a ≠ "stdio-".toList ++ b := by
  intro h
  have := congrArg List.head? h
  simp [dirName] at this

theorem isFile_not_special {os : Os} {n dir base driver : Str} (h : IsFile os n dir base driver) : n ∉ special := by
  obtain ⟨h1, h2, h3⟩ := isFile_split h
  intro hm
  simp only [special, List.mem_cons, List.not_mem_nil, or_false] at hm
  rcases hm with rfl | rfl | rfl | rfl | rfl <;> subst h1 <;>
    (have h' := congrArg Option.isSome h2; rw [Option.isSome_some] at h'; revert h'; decide)

/-- The names `parse_table` returns for a source. -/
def Located (os : Os) (i : Info) : Source → Prop
  | .console => i.db = ['-'] ∧ i.name = ['&', '1']
  | .stdio f => i.db = "stdio-".toList ++ f ∧ i.name = ['&', '1']
  | .file dir base _ _ => i.db = dirName os dir ∧ i.name = base
  | .table db name => i.db = db ∧ i.name = name

/-- One table: what it is found to be, and the databases after it. -/
theorem parseTable_step (os : Os) (S : List Source) (hS : Compatible os S) (dbs : List Db) (hI : ∀ d ∈ dbs, ∃ s ∈ S, wantDb os s = some d)
    (r : Ref) (s : Source) (hs : s ∈ S) (hd : Denotes os r s) :
    (parseTable os dbs r).2 = (match wantDb os s with
      | some d => if d ∈ dbs then dbs else dbs ++ [d]
      | none => dbs) ∧
    Located os (parseTable os dbs r).1 s := by
  have special_neg : ∀ n : Str, n ∉ special → ¬ (n = ['_'] ∨ n = ['.']) ∧ ¬ (n = ".txt".toList ∨ n = ".csv".toList ∨ n = ".json".toList) := by
    intro n hn
    simp only [special, List.mem_cons, List.not_mem_nil, or_false, not_or] at hn ⊢
    exact ⟨⟨hn.1, hn.2.1⟩, hn.2.2⟩
  cases hd with
  | console n opts hw hc hn =>
    simp only [parseTable, options_written _ _ _ hw, withCatalog, hc, locate, if_pos hn, wantDb, Located]
    exact ⟨trivial, trivial, trivial⟩
  | stdio f opts hw hc hf =>
    have h1 : ¬ ('.' :: f = ['_'] ∨ '.' :: f = ['.']) := by
      rcases hf with rfl | rfl | rfl <;> decide
    have h2 : '.' :: f = ".txt".toList ∨ '.' :: f = ".csv".toList ∨ '.' :: f = ".json".toList := by
      rcases hf with rfl | rfl | rfl <;> decide
    simp only [parseTable, options_written _ _ _ hw, withCatalog, hc, locate, if_neg h1, if_pos h2, wantDb, Located]
    rw [show ('.' :: f).drop 1 = f from rfl, openStdio_eq f dbs]
    · exact ⟨rfl, rfl, trivial⟩
    · intro d hd hdf
      obtain ⟨s, hs', hw⟩ := hI d hd
      cases s with
      | console => cases hw
      | table _ _ => cases hw
      | stdio f' =>
        simp only [wantDb, Option.some.injEq] at hw
        subst hw
        simp only [Option.some.injEq] at hdf
        rw [hdf.2]
      | file dir base driver fm =>
        simp only [wantDb, Option.some.injEq] at hw
        subst hw
        obtain ⟨rfl, rfl⟩ := hdf
        exact absurd rfl (hS.2 dir base f f hs' hs)
  | named db n opts hw hc hdb hn =>
    obtain ⟨h1, h2⟩ := special_neg n hn
    simp only [parseTable, options_written _ _ _ hw, withCatalog, hc, locate, if_neg h1, if_neg h2, hdb, wantDb, Located]
    exact ⟨trivial, trivial, trivial⟩
  | catalog c db n opts hw hc hdb hne =>
    have h1 : ¬ (db ++ ['.'] ++ n = ['_'] ∨ db ++ ['.'] ++ n = ['.']) := by
      obtain ⟨x, xs, rfl⟩ : ∃ x xs, db = x :: xs := by cases db with
        | nil => exact absurd rfl hne
        | cons x xs => exact ⟨x, xs, rfl⟩
      rintro (h | h) <;> simp at h
    have h2 : ¬ (db ++ ['.'] ++ n = ".txt".toList ∨ db ++ ['.'] ++ n = ".csv".toList ∨ db ++ ['.'] ++ n = ".json".toList) := by
      have hdot : ∀ w : Str, '.' ∉ w → db ++ ['.'] ++ n ≠ '.' :: w := by
        intro w hw heq
        obtain ⟨x, xs, rfl⟩ : ∃ x xs, db = x :: xs := by cases db with
          | nil => exact absurd rfl hne
          | cons x xs => exact ⟨x, xs, rfl⟩
        simp only [List.cons_append, List.cons.injEq] at heq
        exact hw (by rw [← heq.2]; simp)
      rintro (h | h | h)
      · exact hdot "txt".toList (by decide) h
      · exact hdot "csv".toList (by decide) h
      · exact hdot "json".toList (by decide) h
    simp only [parseTable, options_written _ _ _ hw, withCatalog, hc, hdb, locate, if_neg h1, if_neg h2, wantDb, Located]
    exact ⟨trivial, trivial, by simp⟩
  | file n opts dir base driver f hw hc hdb hfile hfmt =>
    obtain ⟨h1, h2⟩ := special_neg n (isFile_not_special hfile)
    obtain ⟨g1, g2, g3⟩ := isFile_split hfile
    simp only [parseTable, options_written _ _ _ hw, withCatalog, hc, hdb, locate, if_neg h1, if_neg h2, g1, g2, g3, wantDb, Located,
      formatOf_spec _ _ _ hfmt]
    rw [openDir_eq]
    · exact ⟨rfl, rfl, trivial⟩
    · intro d hd hname
      obtain ⟨s, hs', hw⟩ := hI d hd
      cases s with
      | console => cases hw
      | table _ _ => cases hw
      | stdio f' =>
        simp only [wantDb, Option.some.injEq] at hw
        subst hw
        exact absurd hname.symm (dirName_stdio os dir f')
      | file dir' base' driver' f' =>
        simp only [wantDb, Option.some.injEq] at hw
        subst hw
        obtain ⟨rfl, rfl, rfl⟩ := hS.1 _ _ _ _ _ _ _ _ hs' hs (dirName_inj hname)
        rfl
    · intro d hd hdp
      obtain ⟨s, hs', hw⟩ := hI d hd
      cases s with
      | console => cases hw
      | table _ _ => cases hw
      | stdio f' =>
        simp only [wantDb, Option.some.injEq] at hw
        subst hw
        exact absurd hdp.2 (by simp)
      | file dir' base' driver' f' =>
        simp only [wantDb, Option.some.injEq] at hw
        subst hw
        simp only [Option.some.injEq] at hdp
        rw [hdp.2]
  | memory n opts hw hc hdb hn hno =>
    obtain ⟨h1, h2⟩ := special_neg n hn
    have h3 : driverOf (extension (pathSplit n).2) = none := by
      cases hdr : driverOf (extension (pathSplit n).2) with
      | none => rfl
      | some driver =>
        obtain ⟨dir, base, hf⟩ := isFile_of_driver os n driver hdr
        exact absurd hf (hno dir base driver)
    simp only [parseTable, options_written _ _ _ hw, withCatalog, hc, hdb, locate, if_neg h1, if_neg h2, h3, wantDb, Located]
    exact ⟨trivial, trivial, trivial⟩

/-- **C70** The tables of a query are what they denote: each file is found in its directory and read in the way its extension and
options say, and stays so when the other tables of the query have been looked up. -/
theorem C70_tables_partial (os : Os) (rs : List (Ref × Source)) (hd : ∀ p ∈ rs, Denotes os p.1 p.2)
    (hc : Compatible os (rs.map Prod.snd)) :
    ∃ infos dbs, parseTables os [] (rs.map Prod.fst) = (infos, dbs) ∧ infos.length = rs.length ∧
      ∀ (k : Nat) p i, rs[k]? = some p → infos[k]? = some i → Found dbs i p.2 := by
  -- all databases stay, names are distinct
  have uniq : ∀ (s s' : Source) (d d' : Db), s ∈ rs.map Prod.snd → s' ∈ rs.map Prod.snd → wantDb os s = some d → wantDb os s' = some d' →
      d.name = d'.name → d = d' := by
    intro s s' d d' hs hs' hw hw' hn
    cases s <;> cases s' <;> simp only [wantDb, Option.some.injEq] at hw hw' <;> try (cases hw) <;> try (cases hw')
    · simp at hn; subst hn; rfl
    · exact absurd hn.symm (dirName_stdio os _ _)
    · exact absurd hn (dirName_stdio os _ _)
    · obtain ⟨rfl, rfl, rfl⟩ := hc.1 _ _ _ _ _ _ _ _ hs hs' (dirName_inj hn)
      rfl
  have look : ∀ (dbs : List Db), (∀ d ∈ dbs, ∃ s ∈ rs.map Prod.snd, wantDb os s = some d) → ∀ s ∈ rs.map Prod.snd, ∀ d, wantDb os s = some d →
      d ∈ dbs → database dbs d.name = some d := by
    intro dbs hI s hs d hw hd
    rw [database]
    cases hf : dbs.find? (fun x => decide (x.name = d.name)) with
    | none =>
      have := List.find?_eq_none.mp hf d hd
      simp at this
    | some x =>
      have hx := List.mem_of_find?_eq_some hf
      have hxn := List.find?_some hf
      obtain ⟨s', hs', hw'⟩ := hI x hx
      rw [uniq s' s x d hs' hs hw' hw (by simpa using hxn)]
  have main : ∀ (l : List (Ref × Source)), (∀ p ∈ l, p ∈ rs) → ∀ dbs : List Db, (∀ d ∈ dbs, ∃ s ∈ rs.map Prod.snd, wantDb os s = some d) →
      ∃ infos dbs', parseTables os dbs (l.map Prod.fst) = (infos, dbs') ∧ infos.length = l.length ∧
        (∀ d ∈ dbs, d ∈ dbs') ∧ (∀ d ∈ dbs', ∃ s ∈ rs.map Prod.snd, wantDb os s = some d) ∧
        ∀ (k : Nat) p i, l[k]? = some p → infos[k]? = some i → Found dbs' i p.2 := by
    intro l
    induction l with
    | nil => intro _ dbs hI; exact ⟨[], dbs, rfl, rfl, fun _ h => h, hI, by simp⟩
    | cons p l ih =>
      intro hl dbs hI
      have hp := hl p (by simp)
      have hps : p.2 ∈ rs.map Prod.snd := List.mem_map_of_mem hp
      obtain ⟨h1, h2⟩ := parseTable_step os _ hc dbs hI p.1 p.2 hps (hd p hp)
      have hI1 : ∀ d ∈ (parseTable os dbs p.1).2, ∃ s ∈ rs.map Prod.snd, wantDb os s = some d := by
        rw [h1]
        intro d hd
        split at hd
        · rename_i d0 hw
          split at hd
          · exact hI d hd
          · rcases List.mem_append.mp hd with hd | hd
            · exact hI d hd
            · rw [List.mem_singleton.mp hd]; exact ⟨_, hps, hw⟩
        · exact hI d hd
      have hsub : ∀ d ∈ dbs, d ∈ (parseTable os dbs p.1).2 := by
        rw [h1]
        intro d hd
        split
        · split
          · exact hd
          · exact List.mem_append_left _ hd
        · exact hd
      have hmem : ∀ d, wantDb os p.2 = some d → d ∈ (parseTable os dbs p.1).2 := by
        rw [h1]
        intro d hw
        simp only [hw]
        split
        · assumption
        · simp
      obtain ⟨infos, dbs', g1, g2, g3, g4, g5⟩ := ih (fun x hx => hl x (by simp [hx])) _ hI1
      refine ⟨(parseTable os dbs p.1).1 :: infos, dbs', ?_, by simp [g2], fun d hd => g3 d (hsub d hd), g4, ?_⟩
      · simp only [List.map_cons, parseTables, g1]
      · intro k q i hq hi
        cases k with
        | zero =>
          simp only [List.getElem?_cons_zero, Option.some.injEq] at hq hi
          subst hq hi
          have hlook := fun d hw => look dbs' g4 p.2 hps d hw (g3 d (hmem d hw))
          revert h2 hlook
          cases p.2 with
          | console => intro h2 _; exact h2
          | table db name => intro h2 _; exact h2
          | stdio f =>
            intro h2 hlook
            refine ⟨h2.2, ⟨"stdio-".toList ++ f, "textline".toList, none, some f⟩, ?_, rfl, rfl, rfl⟩
            rw [h2.1]
            exact hlook ⟨"stdio-".toList ++ f, "textline".toList, none, some f⟩ rfl
          | file dir base driver f =>
            intro h2 hlook
            refine ⟨h2.2, ⟨dirName os dir, driver, some dir, f⟩, ?_, rfl, rfl, rfl⟩
            rw [h2.1]
            exact hlook ⟨dirName os dir, driver, some dir, f⟩ rfl
        | succ k => exact g5 k q i (by simpa using hq) (by simpa using hi)
  obtain ⟨infos, dbs, h1, h2, _, _, h5⟩ := main rs (fun _ h => h) [] (by simp)
  exact ⟨infos, dbs, h1, h2, h5⟩

/-- A table reference with nothing but a name. -/
def plainRef (name : Str) : Ref := ⟨none, none, name, none⟩

/-- **C70 is violated** by files of one directory that are read in different ways: after the second file has been looked up the
first one is read as the second (or the other way round: there is one database for the directory). -/
theorem C70_mixed_formats_violated (os : Os) (r r' : Ref) (dir base base' driver driver' : Str) (n n' : Str)
    (hn : Written r.name n []) (hn' : Written r'.name n' []) (h : r.catalog = none ∧ r.db = none) (h' : r'.catalog = none ∧ r'.db = none)
    (hf : IsFile os n dir base driver) (hf' : IsFile os n' dir base' driver') :
    ∃ i i' dbs d, parseTables os [] [r, r'] = ([i, i'], dbs) ∧ i.name = base ∧ i'.name = base' ∧
      database dbs i.db = some d ∧ d.driver = driver' := by
  have hempty : ∀ w : Str, Format w [] none := by intro w; unfold Format; split <;> simp
  have hd : Denotes os r (.file dir base driver none) := .file n [] dir base driver none hn h.1 h.2 hf (hempty _)
  obtain ⟨h1, h2⟩ := parseTable_step os [.file dir base driver none] ⟨by
      intro _ _ _ _ _ _ _ _ g g' _
      simp only [List.mem_singleton, Source.file.injEq] at g g'
      obtain ⟨rfl, rfl, rfl, rfl⟩ := g
      obtain ⟨rfl, rfl, rfl, rfl⟩ := g'
      exact ⟨rfl, rfl, rfl⟩, by
      intro _ _ _ _ _ g'
      simp at g'⟩ [] (by simp) r _ (by simp) hd
  simp only [wantDb, List.not_mem_nil, if_false, List.nil_append] at h1
  have e2 : parseTable os [⟨dirName os dir, driver, some dir, none⟩] r' =
      (⟨dirName os dir, base', r'.alias.getD (dirName os dir ++ '.' :: base'), []⟩, [⟨dirName os dir, driver', some dir, none⟩]) := by
    have hns := isFile_not_special hf'
    simp only [special, List.mem_cons, List.not_mem_nil, or_false, not_or] at hns
    obtain ⟨g1, g2, g3⟩ := isFile_split hf'
    simp only [parseTable, options_written _ _ _ hn', withCatalog, h'.1, h'.2, locate,
      if_neg (show ¬ (n' = ['_'] ∨ n' = ['.']) from fun g => g.elim hns.1 hns.2.1),
      if_neg (show ¬ (n' = ".txt".toList ∨ n' = ".csv".toList ∨ n' = ".json".toList) from
        fun g => g.elim hns.2.2.1 fun g => g.elim hns.2.2.2.1 hns.2.2.2.2), g1, g2, g3,
      formatOf_spec _ _ _ (hempty driver'), openDir, if_pos]
    rfl
  refine ⟨(parseTable os [] r).1, (parseTable os [⟨dirName os dir, driver, some dir, none⟩] r').1,
    [⟨dirName os dir, driver', some dir, none⟩], ⟨dirName os dir, driver', some dir, none⟩, ?_, h2.2, ?_, ?_, ?_⟩
  · simp only [parseTables, h1, e2]
  · rw [e2]
  · rw [h2.1, database]
    exact List.find?_cons_of_pos (by simp)
  · rfl

/-- The file system of the examples. -/
def exampleOs : Os := ⟨fun p => "/home/".toList ++ p, "/home".toList, fun c => c.isAlphanum⟩

/-- `SELECT … FROM 'data/a.csv' a JOIN 'data/b.json' b …`: the CSV file is read as JSON. -/
theorem C70_csv_and_json_violated :
    let r := parseTables exampleOs [] [plainRef "data/a.csv".toList, plainRef "data/b.json".toList]
    r.1.map (fun i => (database r.2 i.db).map (·.driver)) = [some "json".toList, some "json".toList] := by decide +kernel

/-- **C70 is violated** by directories whose paths differ in punctuation only: `'a-b/x.csv'` and `'a_b/y.csv'` are both looked for in
`a_b`. -/
theorem C70_similar_directories_violated :
    let r := parseTables exampleOs [] [plainRef "a-b/x.csv".toList, plainRef "a_b/y.csv".toList]
    r.1.map (fun i => ((database r.2 i.db).map (·.path), i.name)) =
      [(some (some "/home/a_b".toList), "x.csv".toList), (some (some "/home/a_b".toList), "y.csv".toList)] := by decide +kernel

/-- **C70 is violated** by text files with and without a format in one directory: the format of one is given to the other. -/
theorem C70_format_violated :
    let r := parseTables exampleOs [] [plainRef "a.txt<csv>".toList, plainRef "b.txt".toList]
    r.1.map (fun i => (database r.2 i.db).map (·.format)) = [some (some "csv".toList), some (some "csv".toList)] := by decide +kernel

/-- **C70 is violated** by the table `.csv` (standard input or output) after a text file with format CSV: it is looked for in the
directory of that file. -/
theorem C70_stdio_violated :
    let r := parseTables exampleOs [] [plainRef "data/a.txt<csv>".toList, plainRef ".csv".toList]
    r.1.map (fun i => ((database r.2 i.db).bind (·.path), i.name)) =
      [(some "/home/data".toList, "a.txt".toList), (some "/home/data".toList, "&1".toList)] := by decide +kernel

/-- **C70 is violated** by extensions in capital letters: `'A.CSV'` is a table in memory. -/
theorem C70_capital_extension_violated :
    (parseTable exampleOs [] (plainRef "A.CSV".toList)).1.db = "--".toList := by decide +kernel

/-- A query with a file with options, a file of another directory, a named table and the console. -/
example : ∃ infos dbs, parseTables exampleOs []
      [plainRef "data/a.csv<UI,x>".toList, plainRef "b.json".toList, ⟨none, some "db1".toList, "t".toList, some "c".toList⟩, plainRef "_".toList] =
        (infos, dbs) ∧
      ∃ i d, infos[0]? = some i ∧ i.name = "a.csv".toList ∧ database dbs i.db = some d ∧ d.driver = "csv".toList ∧
        d.path = some "/home/data".toList := by
  obtain ⟨infos, dbs, h1, h2, h3⟩ := C70_tables_partial exampleOs
    [(plainRef "data/a.csv<UI,x>".toList, .file "/home/data".toList "a.csv".toList "csv".toList none),
     (plainRef "b.json".toList, .file "/home".toList "b.json".toList "json".toList none),
     (⟨none, some "db1".toList, "t".toList, some "c".toList⟩, .table "db1".toList "t".toList),
     (plainRef "_".toList, .console)]
    (by
      intro p hp
      simp only [List.mem_cons, List.not_mem_nil, or_false] at hp
      rcases hp with rfl | rfl | rfl | rfl
      · exact .file "data/a.csv".toList ["UI".toList, "x".toList] _ _ _ _ (Or.inr ⟨by decide, by decide, by simp, by decide⟩) rfl rfl
          ⟨by decide, ⟨"a".toList, ".csv".toList, by decide, ⟨'a', by decide, by decide⟩, by decide⟩,
            Or.inr ⟨"data".toList, "/".toList, by decide, by decide, by decide, Or.inr ⟨"dat".toList, 'a', by decide, by decide, by decide⟩⟩⟩
          (by unfold Format; rw [if_neg (by decide)])
      · exact .file "b.json".toList [] _ _ _ _ (Or.inl ⟨rfl, rfl, by decide⟩) rfl rfl
          ⟨by decide, ⟨"b".toList, ".json".toList, by decide, ⟨'b', by decide, by decide⟩, by decide⟩, Or.inl ⟨rfl, rfl⟩⟩
          (by unfold Format; rw [if_neg (by decide)])
      · exact .named _ _ [] (Or.inl ⟨rfl, rfl, by decide⟩) rfl rfl (by decide)
      · exact .console _ [] (Or.inl ⟨rfl, rfl, by decide⟩) rfl (Or.inl (by decide)))
    (by
      refine ⟨?_, ?_⟩
      · intro dir base driver f dir' base' driver' f' h h' heq
        simp only [List.map_cons, List.map_nil, List.mem_cons, Source.file.injEq, List.not_mem_nil, or_false, reduceCtorEq] at h h'
        rcases h with ⟨rfl, rfl, rfl, rfl⟩ | ⟨rfl, rfl, rfl, rfl⟩ <;> rcases h' with ⟨rfl, rfl, rfl, rfl⟩ | ⟨rfl, rfl, rfl, rfl⟩
        · exact ⟨rfl, rfl, rfl⟩
        · exact absurd heq (by decide)
        · exact absurd heq (by decide)
        · exact ⟨rfl, rfl, rfl⟩
      · intro dir base f f' h h'
        simp at h')
  have hl : infos.length = 4 := h2
  obtain ⟨i, hi⟩ : ∃ i, infos[0]? = some i := ⟨infos[0], List.getElem?_eq_getElem (by omega)⟩
  obtain ⟨g1, d, g2, g3, g4, _⟩ := h3 0 _ i rfl hi
  exact ⟨infos, dbs, h1, i, d, hi, g1, g2, g3, g4⟩

end Verif.Props
