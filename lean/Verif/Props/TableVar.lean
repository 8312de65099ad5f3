import Verif.Spec.TableVar
import Verif.Props.Table
import Verif.Props.Value
/-! Property C162: tables that are named by a variable. -/
namespace Verif.Props
open Verif.Val (Str Val Py)
open Verif.Env (Key getValue)
open Verif.Table (Os Ref Db Info parseTables parseTable options withCatalog locate driverOf extension pathSplit)
open Verif.TableSpec (Denotes Written special)
open Verif.TableVar
namespace TVar

theorem startsWith_mark (v : Str) : mark v = '#' :: '{' :: (markStart.drop 2 ++ v ++ ['}']) := rfl

theorem takeWhile_stop {l r : List Char} {c : Char} (h : c ∉ l) : (l ++ c :: r).takeWhile (· ≠ c) = l := by
  induction l with
  | nil => simp
  | cons a l ih =>
    simp only [List.mem_cons, not_or] at h
    simp only [List.cons_append, List.takeWhile_cons]
    rw [if_pos (by simpa using fun e => h.1 e.symm), ih h.2]

theorem dropWhile_stop {l r : List Char} {c : Char} (h : c ∉ l) : (l ++ c :: r).dropWhile (· ≠ c) = c :: r := by
  induction l with
  | nil => simp
  | cons a l ih =>
    simp only [List.mem_cons, not_or] at h
    simp only [List.cons_append, List.dropWhile_cons]
    rw [if_pos (by simpa using fun e => h.1 e.symm), ih h.2]

theorem takeWhile_all' {l : List Char} {c : Char} (h : c ∉ l) : l.takeWhile (· ≠ c) = l := by
  induction l with
  | nil => rfl
  | cons a l ih =>
    simp only [List.mem_cons, not_or] at h
    simp only [List.takeWhile_cons]
    rw [if_pos (by simpa using fun e => h.1 e.symm), ih h.2]

theorem dropWhile_all' {l : List Char} {c : Char} (h : c ∉ l) : l.dropWhile (· ≠ c) = [] := by
  induction l with
  | nil => rfl
  | cons a l ih =>
    simp only [List.mem_cons, not_or] at h
    simp only [List.dropWhile_cons]
    rw [if_pos (by simpa using fun e => h.1 e.symm), ih h.2]

theorem mem_mark {c : Char} {v : Str} (h : c ∈ mark v) : c ∈ markStart ∨ c ∈ v ∨ c = '}' := by
  simp only [mark, List.mem_append, List.mem_singleton] at h
  tauto

theorem not_mem_mark {c : Char} {v : Str} (h0 : c ∉ markStart) (h : c ∉ v) (h1 : c ≠ '}') : c ∉ mark v := by
  intro hc
  rcases mem_mark hc with h2 | h2 | h2
  · exact h0 h2
  · exact h h2
  · exact h1 h2

theorem lateKey_mark (db v : Str) (hd : '.' ∉ db) (hv : '.' ∉ v) : lateKey (db ++ '.' :: mark v) = some (db, '@' :: v) := by
  have hm : '.' ∉ mark v := not_mem_mark (by decide) hv (by decide)
  simp only [lateKey, takeWhile_stop hd, dropWhile_stop hd, List.drop_succ_cons, List.drop_zero, takeWhile_all' hm]
  have hlast : (mark v).getLast? = some '}' := by simp [mark]
  have hpre : markStart.isPrefixOf (mark v) = true := by
    rw [List.isPrefixOf_iff_prefix]
    exact ⟨v ++ ['}'], by simp [mark]⟩
  rw [if_pos ⟨hpre, hlast⟩]
  have : (mark v).drop 16 = '@' :: (v ++ ['}']) := rfl
  rw [this]
  have h2 : '@' :: (v ++ ['}']) = ('@' :: v) ++ ['}'] := rfl
  rw [h2, List.dropLast_concat]

theorem lateKey_none (n : Str) (h : '#' ∉ n) : lateKey n = none := by
  simp only [lateKey]
  rw [if_neg]
  rintro ⟨hp, -⟩
  rw [List.isPrefixOf_iff_prefix] at hp
  have h1 : '#' ∈ ((n.dropWhile (· ≠ '.')).drop 1).takeWhile (· ≠ '.') := hp.subset (by decide)
  exact h ((List.dropWhile_sublist _).subset ((List.drop_sublist _ _).subset ((List.takeWhile_sublist _).subset h1)))

theorem special_neg (n : Str) (hn : n ∉ special) :
    ¬ (n = ['_'] ∨ n = ['.']) ∧ ¬ (n = ".txt".toList ∨ n = ".csv".toList ∨ n = ".json".toList) := by
  simp only [special, List.mem_cons, List.not_mem_nil, or_false, not_or] at hn ⊢
  exact ⟨⟨hn.1, hn.2.1⟩, hn.2.2⟩

theorem parse_table (os : Os) (r : Ref) (db s : Str) (hs : r.name = s) (hc : r.catalog = none)
    (h : Denotes os r (.table db s)) (dbs : List Db) :
    (parseTable os dbs r).2 = dbs ∧ fullName (parseTable os dbs r).1 = db ++ '.' :: s ∧
      (r.db = some db ∨ (r.db = none ∧ db = ['-', '-'])) := by
  cases h with
  | named _ _ opts hw hc' hdb hn =>
    obtain ⟨h1, h2⟩ := special_neg s hn
    simp only [parseTable, options_written _ _ _ hw, withCatalog, hc, hdb, locate, if_neg h1, if_neg h2, fullName]
    exact ⟨trivial, trivial, Or.inl trivial⟩
  | catalog c _ _ _ hw hc' => rw [hc] at hc'; cases hc'
  | memory _ opts hw hc' hdb hn hno =>
    obtain ⟨h1, h2⟩ := special_neg s hn
    have h3 : driverOf (extension (pathSplit s).2) = none := by
      cases hdr : driverOf (extension (pathSplit s).2) with
      | none => rfl
      | some driver =>
        obtain ⟨dir, base, hf⟩ := isFile_of_driver os s driver hdr
        exact absurd hf (hno dir base driver)
    simp only [parseTable, options_written _ _ _ hw, withCatalog, hc, hdb, locate, if_neg h1, if_neg h2, h3, fullName]
    exact ⟨trivial, trivial, Or.inr ⟨trivial, trivial⟩⟩

theorem parse_mark (os : Os) (r : Ref) (db v : Str) (hc : r.catalog = none) (hv : ∀ c ∈ v, c ≠ '.' ∧ c ≠ '/' ∧ c ≠ '<')
    (hd : r.db = some db ∨ (r.db = none ∧ db = ['-', '-'])) (dbs : List Db) :
    (parseTable os dbs { r with name := mark v }).2 = dbs ∧
      fullName (parseTable os dbs { r with name := mark v }).1 = db ++ '.' :: mark v := by
  have hlt : '<' ∉ mark v := not_mem_mark (by decide) (fun h => (hv _ h).2.2 rfl) (by decide)
  have hdot : '.' ∉ mark v := not_mem_mark (by decide) (fun h => (hv _ h).1 rfl) (by decide)
  have hsl : '/' ∉ mark v := not_mem_mark (by decide) (fun h => (hv _ h).2.1 rfl) (by decide)
  have ho : options (mark v) = (mark v, []) := options_written _ _ _ (Or.inl ⟨rfl, rfl, fun h => hlt h.1⟩)
  have h1 : ¬ (mark v = ['_'] ∨ mark v = ['.']) := by
    rw [startsWith_mark]; simp
  have h2 : ¬ (mark v = ".txt".toList ∨ mark v = ".csv".toList ∨ mark v = ".json".toList) := by
    rw [startsWith_mark]
    rintro (h | h | h) <;> (have h' := congrArg List.head? h; rw [List.head?_cons] at h'; revert h'; decide)
  have h3 : driverOf (extension (pathSplit (mark v)).2) = none := by
    have hp : (pathSplit (mark v)).2 = mark v := by
      simp only [pathSplit]
      rw [takeWhile_all' (by simpa using hsl), List.reverse_reverse]
    have he : extension (mark v) = [] := by
      simp only [extension]
      rw [dropWhile_all' (by simpa using hdot)]
    rw [hp, he]
    decide
  rcases hd with hd | ⟨hd, rfl⟩
  · simp only [parseTable, ho, withCatalog, hc, hd, locate, if_neg h1, if_neg h2, fullName]
    exact ⟨trivial, trivial⟩
  · simp only [parseTable, ho, withCatalog, hc, hd, locate, if_neg h1, if_neg h2, h3, fullName]
    exact ⟨trivial, trivial⟩

/-- What compilation makes of a table: what is meant, or a mark for a variable that has the right value when the query runs. -/
def Rel (os : Os) (run : List (Dict Key Val)) (b m : Ref) : Prop :=
  b = m ∨ ∃ db v s, b = { m with name := mark v } ∧ m.name = s ∧ m.catalog = none ∧ (∀ c ∈ v, c ≠ '.' ∧ c ≠ '/' ∧ c ≠ '<') ∧
    '.' ∉ db ∧ Denotes os m (.table db s) ∧ getValue run ('@' :: v) = some (.str s)

theorem names_rel (os : Os) (py : Py) (cc sc run : List (Dict Key Val)) : ∀ (ts : List TRef) (rs : List Ref) (dbs : List Db),
    ts.mapM (meant sc) = some rs →
    (∀ t ∈ ts, ∀ m, meant sc t = some m → ∃ b, bindName cc t = some b ∧ Rel os run b m) →
    (∀ n ∈ (parseTables os dbs rs).1.map fullName, '#' ∉ n) →
    ∃ bs, ts.mapM (bindName cc) = some bs ∧ (parseTables os dbs bs).2 = (parseTables os dbs rs).2 ∧
      ((parseTables os dbs bs).1.map fullName).mapM (rename py run) = some ((parseTables os dbs rs).1.map fullName) := by
  intro ts
  induction ts with
  | nil =>
    intro rs dbs h _ _
    simp only [List.mapM_nil, pure, Option.some.injEq] at h
    subst h
    exact ⟨[], rfl, rfl, rfl⟩
  | cons t ts ih =>
    intro rs dbs h hrel hclear
    rw [List.mapM_cons] at h
    cases hm : meant sc t with
    | none => rw [hm] at h; cases h
    | some m =>
      cases hms : ts.mapM (meant sc) with
      | none => rw [hm, hms] at h; cases h
      | some ms =>
        rw [hm, hms] at h
        have h' : m :: ms = rs := by simpa using h
        subst h'
        obtain ⟨b, hb, hr⟩ := hrel t (List.mem_cons_self ..) m hm
        simp only [parseTables, List.map_cons, List.mem_cons, forall_eq_or_imp] at hclear
        obtain ⟨hc1, hc2⟩ := hclear
        obtain ⟨bs, e1, e2, e3⟩ := ih ms (parseTable os dbs m).2 hms (fun t' ht' => hrel t' (List.mem_cons_of_mem _ ht')) hc2
        refine ⟨b :: bs, by rw [List.mapM_cons, hb, e1]; rfl, ?_⟩
        have key : (parseTable os dbs b).2 = (parseTable os dbs m).2 ∧
            rename py run (fullName (parseTable os dbs b).1) = some (fullName (parseTable os dbs m).1) := by
          rcases hr with rfl | ⟨db, v, s, rfl, hs, hc, hv, hd, hden, hval⟩
          · exact ⟨rfl, by simp only [rename, lateKey_none _ hc1]⟩
          · obtain ⟨g1, g2, g3⟩ := parse_table os m db s hs hc hden dbs
            obtain ⟨f1, f2⟩ := parse_mark os m db v hc hv g3 dbs
            refine ⟨f1.trans g1.symm, ?_⟩
            rw [f2, g2]
            simp only [rename, lateKey_mark db v hd (fun h => (hv _ h).1 rfl), hval, Option.map_some, Agg.Py.pyStr]
        simp only [parseTables, List.map_cons]
        rw [key.1]
        refine ⟨e2, ?_⟩
        rw [List.mapM_cons, key.2, e3]
        rfl

/-! ### The variables -/

variable {δ : Type}

/-- The variables of the session after the statements were started. -/
def started (own : Dict Key Val) : List (Stmt δ) → Dict Key Val
  | [] => own
  | .set k v :: ss => started (own.set k v) ss
  | .query _ _ :: ss => started own ss
  | .into k _ _ :: ss => started (define own k) ss

theorem started_append (own : Dict Key Val) (a b : List (Stmt δ)) : started own (a ++ b) = started (started own a) b := by
  induction a generalizing own with
  | nil => rfl
  | cons st a ih => cases st <;> exact ih _

theorem inOrder_append (os : Os) (w : World δ) (a b : List (Stmt δ)) :
    inOrder os w (a ++ b) = (inOrder os w a).bind fun w1 => inOrder os w1 b := by
  induction a generalizing w with
  | nil => rfl
  | cons st a ih =>
    cases st with
    | set k v => exact ih _
    | query ts act =>
      simp only [List.cons_append, inOrder]
      cases ts.mapM (meant w.chain) with
      | none => rfl
      | some rs => exact ih _
    | into k ts value =>
      simp only [List.cons_append, inOrder]
      cases ts.mapM (meant w.chain) with
      | none => rfl
      | some rs => exact ih _

theorem intos_append (a b : List (Stmt δ)) : intos (a ++ b) = intos a ++ intos b := by
  induction a with
  | nil => rfl
  | cons st a ih => cases st <;> simp [intos, ih]

theorem sets_append (a b : List (Stmt δ)) : sets (a ++ b) = sets a ++ sets b := by
  induction a with
  | nil => rfl
  | cons st a ih => cases st <;> simp [sets, ih]

theorem get_define_ne (own : Dict Key Val) {k k' : Key} (h : k ≠ k') : (define own k).get? k' = own.get? k' := by
  unfold define
  split
  · rfl
  · exact Dict.get?_set_ne _ _ h

/-- What is not selected INTO is known when the statements are started. -/
theorem started_eq (os : Os) (k : Key) : ∀ (b : List (Stmt δ)) (own : Dict Key Val) (w w1 : World δ), k ∉ intos b →
    own.get? k = w.own.get? k → inOrder os w b = some w1 → (started own b).get? k = w1.own.get? k := by
  intro b
  induction b with
  | nil => intro own w w1 _ h e; simp only [inOrder, Option.some.injEq] at e; subst e; exact h
  | cons st b ih =>
    intro own w w1 hk h e
    cases st with
    | set k' v =>
      refine ih _ _ w1 hk ?_ e
      show (own.set k' v).get? k = (w.own.set k' v).get? k
      rw [Dict.get?_set, Dict.get?_set, h]
    | query ts act =>
      simp only [inOrder] at e
      cases hm : ts.mapM (meant w.chain) with
      | none => rw [hm] at e; cases e
      | some rs =>
        rw [hm] at e
        have h2 := ih own { w with data := act (located os rs).1 (located os rs).2 w.data } w1 hk h e
        exact h2
    | into k' ts value =>
      simp only [intos, List.mem_cons, not_or] at hk
      simp only [inOrder] at e
      cases hm : ts.mapM (meant w.chain) with
      | none => rw [hm] at e; cases e
      | some rs =>
        rw [hm] at e
        refine ih _ _ w1 hk.2 ?_ e
        show (define own k').get? k = (w.own.set k' _).get? k
        rw [get_define_ne _ (fun h => hk.1 h.symm), Dict.get?_set_ne _ _ (fun h => hk.1 h.symm), h]

theorem inOrder_parents (os : Os) : ∀ (b : List (Stmt δ)) (w w1 : World δ), inOrder os w b = some w1 → w1.parents = w.parents := by
  intro b
  induction b with
  | nil => intro w w1 e; simp only [inOrder, Option.some.injEq] at e; rw [e]
  | cons st b ih =>
    intro w w1 e
    cases st with
    | set k' v => exact ih { w with own := w.own.set k' v } w1 e
    | query ts act =>
      simp only [inOrder] at e
      cases hm : ts.mapM (meant w.chain) with
      | none => rw [hm] at e; cases e
      | some rs =>
        rw [hm] at e
        exact ih { w with data := act (located os rs).1 (located os rs).2 w.data } w1 e
    | into k' ts value =>
      simp only [inOrder] at e
      cases hm : ts.mapM (meant w.chain) with
      | none => rw [hm] at e; cases e
      | some rs =>
        rw [hm] at e
        exact ih { w with own := w.own.set k' (value (located os rs).1 (located os rs).2 w.data) } w1 e

theorem getValue_congr (d d' : Dict Key Val) (ps : List (Dict Key Val)) (v : Str) (h1 : d.get? ('@' :: v) = d'.get? ('@' :: v))
    (h2 : d.get? ('@' :: v) = none → d.get? v = d'.get? v) :
    getValue (d :: ps) ('@' :: v) = getValue (d' :: ps) ('@' :: v) := by
  rw [Env.getValue_cons, Env.getValue_cons, ← h1]
  cases hd : d.get? ('@' :: v) with
  | some x => rfl
  | none => simp only [h2 hd]

theorem known_value (os : Os) (w w1 : World δ) (pre : List (Stmt δ)) (v : Str) (hk : Known pre v) (e : inOrder os w pre = some w1) :
    getValue (started w.own pre :: w.parents) ('@' :: v) = getValue w1.chain ('@' :: v) := by
  rw [World.chain, inOrder_parents os _ _ _ e]
  obtain ⟨a, b, rfl, hb, h⟩ := hk
  rw [inOrder_append] at e
  cases ea : inOrder os w a with
  | none => rw [ea] at e; cases e
  | some wa =>
    rw [ea] at e
    have e' : inOrder os wa b = some w1 := e
    rw [started_append]
    rcases h with ⟨rfl, hvb⟩ | ⟨a', x, rfl⟩
    · simp only [inOrder, Option.some.injEq] at ea
      subst ea
      exact getValue_congr _ _ _ _ (started_eq os _ b _ w w1 hb rfl e') (fun _ => started_eq os _ b _ w w1 hvb rfl e')
    · have h1 : (started w.own (a' ++ [.set ('@' :: v) x])).get? ('@' :: v) = some x := by
        rw [started_append]; simp [started]
      have h2 : wa.own.get? ('@' :: v) = some x := by
        rw [inOrder_append] at ea
        cases ea' : inOrder os w a' with
        | none => rw [ea'] at ea; cases ea
        | some wa' =>
          rw [ea'] at ea
          simp only [Option.bind_some, inOrder, Option.some.injEq] at ea
          rw [← ea]; simp
      have h3 : wa.own.get? ('@' :: v) = some x → (started (started w.own (a' ++ [.set ('@' :: v) x])) b).get? ('@' :: v) = w1.own.get? ('@' :: v) :=
        fun h2 => started_eq os _ b _ wa w1 hb (h1.trans h2.symm) e'
      refine getValue_congr _ _ _ _ (h3 h2) (fun hn => ?_)
      -- the variable stays defined
      exfalso
      have : ∀ (b : List (Stmt δ)) (own : Dict Key Val), own.get? ('@' :: v) ≠ none → (started own b).get? ('@' :: v) ≠ none := by
        intro b
        induction b with
        | nil => intro own h; exact h
        | cons st b ih =>
          intro own h
          cases st with
          | set k' y =>
            refine ih _ ?_
            rw [Dict.get?_set]
            split
            · simp
            · exact h
          | query _ _ => exact ih _ h
          | into k' _ _ =>
            refine ih _ ?_
            unfold define
            split
            · exact h
            · rw [Dict.get?_set]
              split
              · simp
              · exact h
      exact this b _ (by rw [h1]; simp) hn

theorem selected_started (k : Key) : ∀ (pre : List (Stmt δ)) (own : Dict Key Val), k ∉ sets pre →
    (own.get? k = none ∨ own.get? k = some .null) →
    ((started own pre).get? k = none ∨ (started own pre).get? k = some .null) ∧
    (k ∈ intos pre ∨ own.get? k = some .null → (started own pre).get? k = some .null) := by
  intro pre
  induction pre with
  | nil => intro own _ h; exact ⟨h, fun h => h.elim (fun h => absurd h (by simp [intos])) id⟩
  | cons st pre ih =>
    intro own hs h
    cases st with
    | set k' v =>
      simp only [sets, List.mem_cons, not_or] at hs
      have hg : (own.set k' v).get? k = own.get? k := Dict.get?_set_ne _ _ (fun h => hs.1 h.symm)
      have := ih (own.set k' v) hs.2 (by rw [hg]; exact h)
      rw [hg] at this
      exact this
    | query _ _ => exact ih own hs h
    | into k' ts value =>
      by_cases hk : k' = k
      · subst hk
        have hg : (define own k').get? k' = some .null := by
          unfold define
          rcases h with h | h <;> simp [h]
        have := ih (define own k') hs (Or.inr hg)
        exact ⟨this.1, fun _ => this.2 (Or.inr hg)⟩
      · have hg : (define own k').get? k = own.get? k := get_define_ne _ hk
        have := ih (define own k') hs (by rw [hg]; exact h)
        rw [hg] at this
        refine ⟨this.1, fun h => this.2 (h.imp_left fun h => ?_)⟩
        simp only [intos, List.mem_cons] at h
        exact h.resolve_left (fun h => hk h.symm)

theorem defined (os : Os) (k : Key) : ∀ (pre : List (Stmt δ)) (w w1 : World δ), inOrder os w pre = some w1 →
    (k ∈ intos pre ∨ w.own.get? k ≠ none) → w1.own.get? k ≠ none := by
  intro pre
  induction pre with
  | nil =>
    intro w w1 e h
    simp only [inOrder, Option.some.injEq] at e
    subst e
    exact h.elim (fun h => absurd h (by simp [intos])) id
  | cons st b ih =>
    intro w w1 e h
    have hset : ∀ k' x, k = k' ∨ w.own.get? k ≠ none → (w.own.set k' x).get? k ≠ none := by
      intro k' x h
      rw [Dict.get?_set]
      split
      · simp
      · next hne => exact h.resolve_left fun h => hne h.symm
    cases st with
    | set k' v =>
      exact ih { w with own := w.own.set k' v } w1 e (h.imp_right fun h => hset k' v (Or.inr h))
    | query ts act =>
      simp only [inOrder] at e
      cases hm : ts.mapM (meant w.chain) with
      | none => rw [hm] at e; cases e
      | some rs =>
        rw [hm] at e
        exact ih { w with data := act (located os rs).1 (located os rs).2 w.data } w1 e h
    | into k' ts value =>
      simp only [inOrder] at e
      cases hm : ts.mapM (meant w.chain) with
      | none => rw [hm] at e; cases e
      | some rs =>
        rw [hm] at e
        refine ih { w with own := w.own.set k' (value (located os rs).1 (located os rs).2 w.data) } w1 e ?_
        simp only [intos, List.mem_cons] at h
        rcases h with (h | h) | h
        · exact Or.inr (hset k' _ (Or.inl h))
        · exact Or.inl h
        · exact Or.inr (hset k' _ (Or.inr h))

/-- While the queue runs, the variables that were selected INTO and not SET have the values they should have. -/
def Inv (pre : List (Stmt δ)) (w1 rw : World δ) : Prop :=
  rw.data = w1.data ∧ ∀ k, k ∈ intos pre → k ∉ sets pre → rw.own.get? k = w1.own.get? k

theorem stmt_names (os : Os) (py : Py) (w w1 rw : World δ) (pre : List (Stmt δ)) (ts : List TRef) (rs : List Ref)
    (e : inOrder os w pre = some w1) (hm : ts.mapM (meant w1.chain) = some rs)
    (hk : ∀ t ∈ ts, t.isVar = true → Known pre t.ref.name ∨ Selected os w pre w1 t)
    (hc : ∀ n ∈ (located os rs).1, '#' ∉ n) (hi : Inv pre w1 rw) :
    ∃ b, bindTables os (started w.own pre :: w.parents) ts = some b ∧ b.2 = (located os rs).2 ∧
      b.1.mapM (rename py rw.chain) = some (located os rs).1 := by
  obtain ⟨bs, e1, e2, e3⟩ := names_rel os py (started w.own pre :: w.parents) w1.chain rw.chain ts rs [] hm (by
    intro t ht m hmt
    by_cases hv : t.isVar = true
    · rcases hk t ht hv with h | ⟨h1, h2, h3, h4, h5, h6⟩
      · refine ⟨m, ?_, Or.inl rfl⟩
        rw [bindName, if_pos hv, known_value os w w1 pre _ h e]
        rw [meant, if_pos hv] at hmt
        cases hg : getValue w1.chain ('@' :: t.ref.name) with
        | none => rw [hg] at hmt; cases hmt
        | some x => rw [hg] at hmt; cases x with
          | str s => exact hmt
          | null => cases hmt
          | bool _ => cases hmt
          | int _ => cases hmt
          | flt _ => cases hmt
      · have hn : (started w.own pre).get? ('@' :: t.ref.name) = some .null := (selected_started _ pre w.own h2 h3).2 (Or.inl h1)
        have hb : bindName (started w.own pre :: w.parents) t = some { t.ref with name := mark t.ref.name } := by
          rw [bindName, if_pos hv, Env.getValue_cons, hn]
        have hr := hi.2 _ h1 h2
        rw [meant, if_pos hv] at hmt
        cases hg : getValue w1.chain ('@' :: t.ref.name) with
        | none => rw [hg] at hmt; cases hmt
        | some x =>
          rw [hg] at hmt
          cases x with
          | null => cases hmt
          | bool _ => cases hmt
          | int _ => cases hmt
          | flt _ => cases hmt
          | str s =>
            have hmt' : { t.ref with name := s } = m := by simpa using hmt
            subst hmt'
            refine ⟨_, hb, Or.inr ?_⟩
            -- the variable is the session's own
            have hd : w1.own.get? ('@' :: t.ref.name) ≠ none := defined os _ pre w w1 e (Or.inl h1)
            have hs : w1.own.get? ('@' :: t.ref.name) = some (.str s) := by
              rw [World.chain, Env.getValue_cons] at hg
              cases ho : w1.own.get? ('@' :: t.ref.name) with
              | none => exact absurd ho hd
              | some y => rw [ho] at hg; exact hg
            obtain ⟨db, g1, g2, g3⟩ := h6 s hs
            refine ⟨db, t.ref.name, s, rfl, rfl, h5, h4, g1, g3, ?_⟩
            rw [World.chain, Env.getValue_cons, hr, hs]
    · refine ⟨m, ?_, Or.inl rfl⟩
      rw [meant, if_neg hv] at hmt
      rw [bindName, if_neg hv]
      exact hmt) hc
  exact ⟨located os bs, by rw [bindTables, e1]; rfl, e2, e3⟩

theorem main (os : Os) (py : Py) (w : World δ) (script : List (Stmt δ)) (hs : Suited os w script) :
    ∀ (rest pre : List (Stmt δ)) (w1 w' : World δ), script = pre ++ rest → inOrder os w pre = some w1 → inOrder os w1 rest = some w' →
      ∃ ts own, (∀ q lg, Exec.run (machine os py) ⟨⟨started w.own pre, w.parents, w.data⟩, q, lg⟩ rest =
          (⟨⟨own, w.parents, w.data⟩, q ++ ts, lg⟩, true)) ∧
        ∀ rw lg, Inv pre w1 rw → ∃ y, Exec.Executes (machine os py) ⟨rw, ts, lg⟩ y .returned ∧ y.world.data = w'.data := by
  intro rest
  induction rest with
  | nil =>
    intro pre w1 w' _ _ e
    simp only [inOrder, Option.some.injEq] at e
    subst e
    refine ⟨[], _, fun q lg => by simp only [Exec.run, List.append_nil]; rfl, fun rw lg hi => ⟨_, .returned rfl, hi.1⟩⟩
  | cons st rest ih =>
    intro pre w1 w' hsp e0 e
    have hsuit := hs pre st rest hsp w1 e0
    have hsp' : script = (pre ++ [st]) ++ rest := by rw [hsp]; simp
    cases st with
    | set k v =>
      have e1 : inOrder os w (pre ++ [.set k v]) = some { w1 with own := w1.own.set k v } := by
        rw [inOrder_append, e0]; rfl
      obtain ⟨ts, own, hrun, hex⟩ := ih _ _ w' hsp' e1 e
      refine ⟨ts, own, fun q lg => ?_, fun rw lg hi => hex rw lg ⟨hi.1, fun k' h1 h2 => ?_⟩⟩
      · have := hrun q lg
        rw [started_append] at this
        simp only [Exec.run, machine, start, List.append_nil]
        exact this
      · rw [intos_append] at h1
        rw [sets_append] at h2
        simp only [intos, List.append_nil] at h1
        simp only [sets, List.mem_append, List.mem_singleton, not_or] at h2
        rw [hi.2 k' h1 h2.1]
        exact (Dict.get?_set_ne _ _ (fun h => h2.2 h.symm)).symm
    | query ts0 act =>
      simp only [inOrder] at e
      cases hm : ts0.mapM (meant w1.chain) with
      | none => rw [hm] at e; cases e
      | some rs =>
        rw [hm] at e
        have e1 : inOrder os w (pre ++ [.query ts0 act]) =
            some { w1 with data := act (located os rs).1 (located os rs).2 w1.data } := by
          rw [inOrder_append, e0]; simp only [Option.bind_some, inOrder, hm]
        obtain ⟨ts, own, hrun, hex⟩ := ih _ _ w' hsp' e1 e
        obtain ⟨b, hb, hb2, -⟩ := stmt_names os py w w1 w1 pre ts0 rs e0 hm hsuit.1 (hsuit.2 rs hm) ⟨rfl, fun _ _ _ => rfl⟩
        refine ⟨.query b.1 b.2 act :: ts, own, fun q lg => ?_, fun rw lg hi => ?_⟩
        · have := hrun (q ++ [.query b.1 b.2 act]) lg
          rw [started_append] at this
          simp only [List.append_assoc, List.singleton_append] at this
          simp only [Exec.run, machine, start, World.chain, hb]
          exact this
        · obtain ⟨b', hb', hb2', hb3'⟩ := stmt_names os py w w1 rw pre ts0 rs e0 hm hsuit.1 (hsuit.2 rs hm) hi
          rw [hb] at hb'
          cases hb'
          obtain ⟨y, hy, hyd⟩ := hex { rw with data := act (located os rs).1 (located os rs).2 rw.data } (lg ++ [(.query b.1 b.2 act, .done)])
            ⟨by simp only [hi.1], fun k' h1 h2 => by
              rw [intos_append] at h1
              rw [sets_append] at h2
              simp only [intos, List.append_nil] at h1
              simp only [sets, List.append_nil] at h2
              exact hi.2 k' h1 h2⟩
          refine ⟨y, .next ?_ hy, hyd⟩
          simp only [Exec.step, machine, runJob, hb3', hb2]
    | into k ts0 value =>
      simp only [inOrder] at e
      cases hm : ts0.mapM (meant w1.chain) with
      | none => rw [hm] at e; cases e
      | some rs =>
        rw [hm] at e
        have e1 : inOrder os w (pre ++ [.into k ts0 value]) =
            some { w1 with own := w1.own.set k (value (located os rs).1 (located os rs).2 w1.data) } := by
          rw [inOrder_append, e0]; simp only [Option.bind_some, inOrder, hm]
        obtain ⟨ts, own, hrun, hex⟩ := ih _ _ w' hsp' e1 e
        obtain ⟨b, hb, hb2, -⟩ := stmt_names os py w w1 w1 pre ts0 rs e0 hm hsuit.1 (hsuit.2 rs hm) ⟨rfl, fun _ _ _ => rfl⟩
        refine ⟨.into k b.1 b.2 value :: ts, own, fun q lg => ?_, fun rw lg hi => ?_⟩
        · have := hrun (q ++ [.into k b.1 b.2 value]) lg
          rw [started_append] at this
          simp only [List.append_assoc, List.singleton_append] at this
          simp only [Exec.run, machine, start, World.chain, hb]
          exact this
        · obtain ⟨b', hb', hb2', hb3'⟩ := stmt_names os py w w1 rw pre ts0 rs e0 hm hsuit.1 (hsuit.2 rs hm) hi
          rw [hb] at hb'
          cases hb'
          obtain ⟨y, hy, hyd⟩ := hex { rw with own := rw.own.set k (value (located os rs).1 (located os rs).2 rw.data) }
              (lg ++ [(.into k b.1 b.2 value, .done)])
            ⟨hi.1, fun k' h1 h2 => by
              rw [intos_append] at h1
              rw [sets_append] at h2
              simp only [intos, List.mem_append, List.mem_singleton] at h1
              simp only [sets, List.append_nil] at h2
              simp only [Dict.get?_set, hi.1]
              by_cases hk : k = k'
              · rw [if_pos hk, if_pos hk]
              · rw [if_neg hk, if_neg hk]
                exact hi.2 k' (h1.resolve_right fun h => hk h.symm) h2⟩
          refine ⟨y, .next ?_ hy, hyd⟩
          simp only [Exec.step, machine, runJob, hb3', hb2]

end TVar

variable {δ : Type}

/-- **C162**: a script whose tables are named by variables acts on the data as its statements do one after the other, each table being
the one whose name the variable has as its value at that time — if the value is known beforehand, or is selected INTO the variable in
the same script and is the name of a table. -/
theorem C162_in_order_partial (os : Os) (py : Py) (w w' : World δ) (script : List (Stmt δ)) (hs : Suited os w script)
    (h : inOrder os w script = some w') :
    ∃ x y, Exec.run (machine os py) ⟨w, [], []⟩ script = (x, true) ∧ Exec.Executes (machine os py) x y .returned ∧
      y.world.data = w'.data := by
  obtain ⟨ts, own, hrun, hex⟩ := TVar.main os py w script hs script [] w w' rfl rfl h
  obtain ⟨y, hy, hd⟩ := hex ⟨own, w.parents, w.data⟩ [] ⟨rfl, fun k h => absurd h (by simp [intos])⟩
  exact ⟨_, y, hrun [] [], hy, hd⟩

/-- **C162**: a query over a table variable that no one has defined is refused when it is compiled; nothing is run. -/
theorem C162_undefined (os : Os) (py : Py) (w : World δ) (x : Exec.State (World δ) (Job δ)) (hx : x.world = w) (t : TRef) (ts : List TRef)
    (act : List Str → List Db → δ → δ) (rest : List (Stmt δ)) (ht : t ∈ ts) (hv : t.isVar = true)
    (hd : ∀ d ∈ w.chain, d.get? ('@' :: t.ref.name) = none ∧ d.get? t.ref.name = none) :
    Exec.run (machine os py) x (.query ts act :: rest) = (x, false) := by
  have hn : ∀ (c : List (Dict Key Val)), (∀ d ∈ c, d.get? ('@' :: t.ref.name) = none ∧ d.get? t.ref.name = none) →
      getValue c ('@' :: t.ref.name) = none := by
    intro c
    induction c with
    | nil => intro _; rfl
    | cons d c ih =>
      intro h
      obtain ⟨h1, h2⟩ := h d (List.mem_cons_self ..)
      rw [Env.getValue_cons, h1]
      simp only [h2]
      exact ih fun d' hd' => h d' (List.mem_cons_of_mem _ hd')
  have hb : bindName w.chain t = none := by rw [bindName, if_pos hv, hn _ hd]
  have hm : ts.mapM (bindName w.chain) = none := by
    clear hd
    induction ts with
    | nil => cases ht
    | cons t' ts ih =>
      rw [List.mapM_cons]
      cases hb' : bindName w.chain t' with
      | none => rfl
      | some b =>
        rcases List.mem_cons.1 ht with rfl | ht
        · rw [hb] at hb'; cases hb'
        · rw [ih ht]; rfl
  simp only [Exec.run, machine, start, bindTables, hx, hm, Option.map_none]
  rw [← hx]

/-! ### Where the code does otherwise -/
namespace TVar

/-- `FROM @v` -/
def tv (v : Str) : TRef := ⟨plainRef v, true⟩

/-- A query that writes down which tables it read. -/
def note (ts : List TRef) : Stmt (List Str) := .query ts fun ns _ d => d ++ ns

/-- `SELECT 'x' INTO @v` -/
def intoText (v x : Str) : Stmt (List Str) := .into ('@' :: v) [] fun _ _ _ => .str x

/-- A new session. -/
def w0 : World (List Str) := ⟨[], [], []⟩

/-- The tables a script reads. -/
def reads (script : List (Stmt (List Str))) : List Str :=
  (Exec.execute (machine exampleOs plainPy) 9 (Exec.run (machine exampleOs plainPy) ⟨w0, [], []⟩ script).1).1.world.data

/-- The tables it should read. -/
def should (script : List (Stmt (List Str))) : Option (List Str) := (inOrder exampleOs w0 script).map (·.data)

end TVar
open TVar

/-- **C162 is violated** when the variable has a value before something is selected INTO it: the old value counts. -/
theorem C162_old_value_violated :
    let script := [.set "@t".toList (.str "old".toList), intoText ['t'] "new".toList, note [tv ['t']]]
    reads script = ["--.old".toList] ∧ should script = some ["--.new".toList] := by decide +kernel

/-- **C162 is violated** by names of files that are selected INTO a variable: they are taken as names of tables in memory. -/
theorem C162_file_violated :
    let script := [intoText ['t'] "a.csv".toList, note [tv ['t']]]
    reads script = ["--.a.csv".toList] ∧ should script ≠ some ["--.a.csv".toList] ∧
    reads [.set "@t".toList (.str "a.csv".toList), note [tv ['t']]] = (should script).getD [] := by decide +kernel

/-- **C162 is violated** by a variable that is NULL: the table named `None` is read. -/
theorem C162_null_violated :
    let script := [.set "@t".toList .null, note [tv ['t']]]
    reads script = ["--.None".toList] ∧ should script = none := by decide +kernel

/-- The hypotheses of `C162_in_order_partial` are met by a script that uses both kinds of variables. -/
example : ∃ w', inOrder exampleOs w0 [intoText ['t'] ['a'], .set ['@', 'u'] (.str ['b']), note [tv ['t'], tv ['u']], .set ['@', 'u'] (.str ['c']),
      note [tv ['u']]] = some w' ∧ w'.data = [['-', '-', '.', 'a'], ['-', '-', '.', 'b'], ['-', '-', '.', 'c']] :=
  ⟨_, rfl, by decide +kernel⟩

example : Suited exampleOs w0 [intoText ['t'] ['a'], .set ['@', 'u'] (.str ['b']), note [tv ['t'], tv ['u']], .set ['@', 'u'] (.str ['c']),
      note [tv ['u']]] := by
  intro pre st post h w hw
  have hden : Denotes exampleOs { plainRef ['t'] with name := ['a'] } (.table ['-', '-'] ['a']) :=
    .memory ['a'] [] (Or.inl ⟨rfl, rfl, by decide⟩) rfl rfl (by decide) (fun dir base driver hf => by
      obtain ⟨h1, h2, -⟩ := isFile_split hf
      subst h1
      have h' := congrArg Option.isSome h2
      rw [Option.isSome_some] at h'
      revert h'
      decide)
  rcases pre with _ | ⟨p1, _ | ⟨p2, _ | ⟨p3, _ | ⟨p4, _ | ⟨p5, pre⟩⟩⟩⟩⟩ <;>
    simp only [List.nil_append, List.cons_append, List.cons.injEq] at h
  · obtain ⟨rfl, rfl⟩ := h
    exact ⟨fun t ht => absurd ht (by simp [Stmt.tables, intoText]), fun rs hrs n hn => by
      simp only [Stmt.tables, intoText, List.mapM_nil, pure, Option.some.injEq] at hrs
      subst hrs; exact absurd hn (by simp [located, parseTables])⟩
  · obtain ⟨rfl, rfl, rfl⟩ := h
    exact ⟨fun t ht => absurd ht (by simp [Stmt.tables]), fun rs hrs n hn => by
      simp only [Stmt.tables, List.mapM_nil, pure, Option.some.injEq] at hrs
      subst hrs; exact absurd hn (by simp [located, parseTables])⟩
  · obtain ⟨rfl, rfl, rfl, rfl⟩ := h
    have hw' := Option.some.inj hw
    subst hw'
    refine ⟨?_, ?_⟩
    · intro t ht _
      simp only [Stmt.tables, note, List.mem_cons, List.not_mem_nil, or_false] at ht
      rcases ht with rfl | rfl
      · right
        refine ⟨by decide +kernel, by decide +kernel, Or.inl rfl, by decide +kernel, rfl, fun s hs => ⟨['-', '-'], by decide, by decide, ?_⟩⟩
        have : s = ['a'] := by
          have h2 : some (Val.str ['a']) = some (Val.str s) := hs
          simpa using h2.symm
        subst this
        exact hden
      · left
        exact ⟨[intoText ['t'] ['a'], .set ['@', 'u'] (.str ['b'])], [], rfl, by decide, Or.inr ⟨[intoText ['t'] ['a']], _, rfl⟩⟩
    · intro rs hrs
      have hrs' := Option.some.inj hrs
      subst hrs'
      decide +kernel
  · obtain ⟨rfl, rfl, rfl, rfl, rfl⟩ := h
    exact ⟨fun t ht => absurd ht (by simp [Stmt.tables]), fun rs hrs n hn => by
      simp only [Stmt.tables, List.mapM_nil, pure, Option.some.injEq] at hrs
      subst hrs; exact absurd hn (by simp [located, parseTables])⟩
  · obtain ⟨rfl, rfl, rfl, rfl, rfl, rfl⟩ := h
    have hw' := Option.some.inj hw
    subst hw'
    refine ⟨?_, ?_⟩
    · intro t ht _
      simp only [Stmt.tables, note, List.mem_cons, List.not_mem_nil, or_false] at ht
      subst ht
      left
      exact ⟨[intoText ['t'] ['a'], .set ['@', 'u'] (.str ['b']), note [tv ['t'], tv ['u']], .set ['@', 'u'] (.str ['c'])], [], rfl, by decide,
        Or.inr ⟨[intoText ['t'] ['a'], .set ['@', 'u'] (.str ['b']), note [tv ['t'], tv ['u']]], _, rfl⟩⟩
    · intro rs hrs
      have hrs' := Option.some.inj hrs
      subst hrs'
      decide +kernel
  · obtain ⟨-, -, -, -, -, h⟩ := h
    cases pre <;> cases h

end Verif.Props
