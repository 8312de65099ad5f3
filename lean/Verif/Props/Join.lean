import Verif.Proofs.Join
/-! C44: the chain of joined tables. -/
namespace Verif.Props
open Verif.Join Verif.SqlJoin Verif.Proofs.Join

section
variable {V : Type}

/-- **C44**: when the chain is found (`C44_terminates`), it lists each of the tables that can be reached from the column's tables
exactly once, and each of them before every table its ON condition refers to; whatever the order in which a level is
enumerated. -/
theorem C44_order (next : Name → List Name) (order : List Name → List Name) (ho : ∀ l, (order l).Perm l) (fuel : Nat)
    (cur l : List Name) (hc : cur.Nodup) (h : chain next order fuel cur [] = some l) :
    l.Nodup ∧ (∀ t, t ∈ l ↔ Reach next cur t) ∧ ∀ t ∈ l, ∀ u ∈ next t, Before t u l := by
  have h1 := chain_order next order ho fuel cur [] l h hc List.nodup_nil (by simp)
  refine ⟨h1.1, fun t => ?_, h1.2⟩
  rw [chain_mem next order ho fuel cur [] l h]
  simp

/-- **C44**, termination: on an acyclic graph (one with a rank that decreases along references) the recursion ends after at most
one step more than the greatest rank. -/
theorem C44_terminates (next : Name → List Name) (order : List Name → List Name) (ho : ∀ l, (order l).Perm l) (rank : Name → Nat)
    (hr : ∀ t, ∀ u ∈ next t, rank u < rank t) (cur : List Name) (n : Nat) (hn : ∀ t ∈ cur, rank t ≤ n) :
    ∃ l, chain next order (n + 2) cur [] = some l :=
  chain_some next order ho rank hr (n + 2) cur [] (by omega) fun t ht => by have := hn t ht; omega

/-- **C44** for a query whose ON conditions refer to tables to their left only: the recursion is no deeper than the number of
joined tables. -/
theorem C44_textual (next : Name → List Name) (order : List Name → List Name) (ho : ∀ l, (order l).Perm l) (joins : List Name)
    (hleft : ∀ t u, u ∈ next t → joins.idxOf u < joins.idxOf t) (cur : List Name)
    (hcur : ∀ t ∈ cur, t ∈ joins) : ∃ l, chain next order (joins.length + 2) cur [] = some l :=
  C44_terminates next order ho joins.idxOf (fun t u h => hleft t u h) cur joins.length fun t ht =>
    Nat.le_of_lt (List.idxOf_lt_length_of_mem (hcur t ht))

/-- **C122 is violated by a cycle** of references (`ON b.x = b.y` is one: a table that refers to itself): the recursion never
ends. -/
theorem C122_cycle_violated (next : Name → List Name) (order : List Name → List Name) (ho : ∀ l, (order l).Perm l) (w : Nat → Name)
    (hw : ∀ n, w (n + 1) ∈ next (w n)) (cur : List Name) (h : w 0 ∈ cur) (fuel : Nat) : chain next order fuel cur [] = none :=
  chain_none next order ho w hw fuel 0 cur [] h

end

/-- C44 on `b` (nothing), `c` (refers to `b`), `d` (refers to `b` and `c`): the chain of `d` and `b` is `d`, `c`, `b`. -/
def exNext : Name → List Name := fun t => if t = "c" then ["b"] else if t = "d" then ["b", "c"] else []

example : chain exNext id 5 ["b", "d"] [] = some ["d", "c", "b"] ∧
    (∀ t, ∀ u ∈ exNext t, ["b", "c", "d"].idxOf u < ["b", "c", "d"].idxOf t) := by
  refine ⟨by decide +kernel, fun t u hu => ?_⟩
  by_cases h1 : t = "c"
  · simp only [exNext, h1, if_true, List.mem_singleton] at hu
    subst h1 hu; decide
  · by_cases h2 : t = "d"
    · simp only [exNext, h2, if_true] at hu
      subst h2
      rw [if_neg (by decide)] at hu
      simp only [List.mem_cons, List.not_mem_nil, or_false] at hu
      rcases hu with rfl | rfl <;> decide
    · simp [exNext, h1, h2] at hu

/-! ## Scopes -/

section
variable {V : Type}

/-- No BETWEEN. -/
def NoBetween : X V → Prop
  | .col _ => True
  | .const _ => True
  | .un _ x => NoBetween x
  | .bin _ x y => NoBetween x ∧ NoBetween y
  | .between _ _ _ _ => False
  | .app _ _ => True

/-- The scopes at a level: the rows of the tables from there on, innermost first, and the row of the primary table. -/
def scopes (primary : Name) (tables : List Name) (e : Env V) (level : Nat) : List (Row V) :=
  (tables.drop level).map e ++ [e primary]

/-- The column can be seen at the level. -/
def Visible (primary : Name) (tables : List Name) (level : Nat) (r : Ref) : Prop :=
  r.table = none ∨ r.table = some primary ∨ ∃ t j, r.table = some t ∧ tables[j]? = some t ∧ level ≤ j

theorem idxOf?_of_nodup {l : List Name} (hl : l.Nodup) {j : Nat} {t : Name} (h : l[j]? = some t) : l.idxOf? t = some j := by
  induction l generalizing j with
  | nil => simp at h
  | cons a l ih =>
    rw [List.nodup_cons] at hl
    rw [List.idxOf?_cons]
    cases j with
    | zero =>
      simp only [List.getElem?_cons_zero, Option.some.injEq] at h
      simp [h]
    | succ j =>
      rw [List.getElem?_cons_succ] at h
      have hm : t ∈ l := List.mem_of_getElem? h
      have hne : a ≠ t := fun e => hl.1 (e ▸ hm)
      simp [hne, ih hl.2 h]

theorem scopes_primary (primary : Name) (tables : List Name) (e : Env V) (level : Nat) (h : level ≤ tables.length) :
    (scopes primary tables e level)[tables.length - level]? = some (e primary) := by
  rw [scopes, List.getElem?_append_right (by simp)]
  simp

theorem scopes_table (primary : Name) (tables : List Name) (e : Env V) (level j : Nat) (t : Name) (h : tables[j]? = some t)
    (hj : level ≤ j) : (scopes primary tables e level)[j - level]? = some (e t) := by
  have hlt : j < tables.length := (List.getElem?_eq_some_iff.1 h).1
  rw [scopes, List.getElem?_append_left (by simp; omega), List.getElem?_map, List.getElem?_drop]
  rw [show level + (j - level) = j by omega, h]
  rfl

/-- Every visible column is compiled to a text that means the row of its own table. -/
theorem depth_visible (null : V) (primary : Name) (tables : List Name) (hn : tables.Nodup) (hp : primary ∉ tables) (level : Nat)
    (hl : level ≤ tables.length) (r : Ref) (hr : Visible primary tables level r) :
    ∃ d, depth primary tables level r = some d ∧
      ∀ e : Env V, evalY null (scopes primary tables e level) (.slot d r.col) = refVal primary e r := by
  obtain ⟨rt, rc⟩ := r
  have hprim : ∀ e : Env V, evalY null (scopes primary tables e level) (.slot (tables.length + 1 - level) rc) = e primary rc := by
    intro e
    rw [show tables.length + 1 - level = (tables.length - level) + 1 by omega]
    simp only [evalY, slotVal, scopes_primary primary tables e level hl]
  rcases hr with h | h | ⟨t, j, h, hj, hlj⟩
  · simp only at h
    subst h
    exact ⟨_, rfl, fun e => by rw [hprim]; rfl⟩
  · simp only at h
    subst h
    exact ⟨tables.length + 1 - level, by simp [depth], fun e => by rw [hprim]; rfl⟩
  · simp only at h
    subst h
    have htp : t ≠ primary := fun e => hp (e ▸ List.mem_of_getElem? hj)
    refine ⟨j + 1 - level, by simp [depth, htp, idxOf?_of_nodup hn hj], fun e => ?_⟩
    rw [show j + 1 - level = (j - level) + 1 by omega]
    simp only [evalY, slotVal, scopes_table primary tables e level j t hj hlj]
    rfl

theorem slots_visible (null : V) (primary : Name) (tables : List Name) (hn : tables.Nodup) (hp : primary ∉ tables) (level : Nat)
    (hl : level ≤ tables.length) (rs : List Ref) (hx : ∀ r ∈ rs, Visible primary tables level r) :
    ∃ ds, mapAll (fun r => (depth primary tables level r).map fun d => (d, r.col)) rs = some ds ∧
      ∀ e : Env V, (ds.map fun d => slotVal null (scopes primary tables e level) d.1 d.2) = rs.map (refVal primary e) := by
  induction rs with
  | nil => exact ⟨[], rfl, fun _ => rfl⟩
  | cons r rs ih =>
    obtain ⟨d, hd, h⟩ := depth_visible null primary tables hn hp level hl r (hx r (by simp))
    obtain ⟨ds, hds, h'⟩ := ih fun r' hr => hx r' (by simp [hr])
    refine ⟨(d, r.col) :: ds, by simp [mapAll, hd, hds], fun e => ?_⟩
    have := h e
    simp only [evalY] at this
    simp only [List.map_cons, this, h' e]

/-- **C44**, scopes: an expression without BETWEEN whose columns can be seen compiles, and its compiled form has its value. -/
theorem C44_scopes (null : V) (primary : Name) (tables : List Name) (hn : tables.Nodup) (hp : primary ∉ tables) (level : Nat)
    (hl : level ≤ tables.length) (x : X V) (hb : NoBetween x) (hx : ∀ r ∈ fields x, Visible primary tables level r) :
    ∃ y, compileX primary tables level x = some y ∧
      ∀ e : Env V, evalY null (scopes primary tables e level) y = evalX (refVal primary e) x := by
  induction x with
  | col r =>
    obtain ⟨d, hd, h⟩ := depth_visible null primary tables hn hp level hl r (hx r (by simp [fields]))
    exact ⟨_, by rw [compileX, hd]; rfl, h⟩
  | const v => exact ⟨_, rfl, fun _ => rfl⟩
  | un f x ih =>
    obtain ⟨y, hy, h⟩ := ih hb hx
    exact ⟨.un f y, by simp [compileX, hy], fun e => by rw [evalY, h, evalX]⟩
  | bin f x x' ih ih' =>
    obtain ⟨y, hy, h⟩ := ih hb.1 fun r hr => hx r (by simp [fields, hr])
    obtain ⟨y', hy', h'⟩ := ih' hb.2 fun r hr => hx r (by simp [fields, hr])
    exact ⟨.bin f y y', by simp [compileX, hy, hy'], fun e => by rw [evalY, h, h', evalX]⟩
  | between => exact absurd hb (by simp [NoBetween])
  | app f rs =>
    obtain ⟨ds, hds, h⟩ := slots_visible null primary tables hn hp level hl rs fun r hr => hx r hr
    exact ⟨.app f ds, by simp [compileX, hds], fun e => by rw [evalY, h, evalX]⟩

/-- A column of the primary table, or a recorded one. -/
def Known (primary : Name) (T : Table V) (r : Ref) : Prop := r.table = none ∨ r.table = some primary ∨ r ∈ T.joinCols

/-- What ON has recorded is complete: keys only use recorded columns, having expressions recorded columns and the table's own;
no BETWEEN in them. -/
def Recorded (primary t : Name) (T : Table V) : Prop :=
  (∀ kx ∈ T.keys, NoBetween kx.2 ∧ ∀ r ∈ fields kx.2, Known primary T r) ∧
  ∀ x ∈ T.having, NoBetween x ∧ ∀ r ∈ fields x, r.table = some t ∨ Known primary T r

theorem mapAll_some {α β : Type} (f : α → Option β) (l : List α) (g : α → β → Prop) (h : ∀ a ∈ l, ∃ b, f a = some b ∧ g a b) :
    ∃ m : List β, mapAll f l = some m ∧ m.length = l.length ∧ ∀ (p : β → Bool) (q : α → Bool),
      (∀ a b, a ∈ l → g a b → p b = q a) → m.all p = l.all q := by
  induction l with
  | nil => exact ⟨[], rfl, rfl, fun _ _ _ => rfl⟩
  | cons a l ih =>
    obtain ⟨b, hb, hg⟩ := h a (by simp)
    obtain ⟨m, hm, hlen, hall⟩ := ih fun a' ha => h a' (by simp [ha])
    refine ⟨b :: m, by simp [mapAll, hb, hm], by simp [hlen], fun p q hpq => ?_⟩
    rw [List.all_cons, List.all_cons, hpq a b (by simp) hg, hall p q fun a' b' ha => hpq a' b' (by simp [ha])]

theorem refs_mem (primary : Name) (T : Table V) (r : Ref) (hr : r ∈ T.joinCols) (t : Name) (ht : r.table = some t) (hp : t ≠ primary) :
    t ∈ refs primary T := by
  rw [refs, List.mem_eraseDups, List.mem_filterMap]
  exact ⟨r, hr, by simp [ht, hp]⟩

theorem before_visible (primary : Name) (tables : List Name) (hn : tables.Nodup) (n : Nat) (t u : Name) (ht : tables[n]? = some t)
    (h : Before t u tables) : ∃ j, tables[j]? = some u ∧ n + 1 ≤ j := by
  obtain ⟨a, b, c, rfl⟩ := h
  have hi : (a ++ t :: (b ++ u :: c))[a.length]? = some t := by simp
  have e : a.length = n := by
    have h1 := idxOf?_of_nodup hn hi
    have h2 := idxOf?_of_nodup hn ht
    rw [h1] at h2
    exact Option.some.inj h2
  refine ⟨a.length + (1 + b.length), ?_, by omega⟩
  rw [List.getElem?_append_right (by omega), show a.length + (1 + b.length) - a.length = b.length + 1 by omega,
    List.getElem?_cons_succ, List.getElem?_append_right (by omega)]
  simp

theorem scopes_succ (primary : Name) (tables : List Name) (e : Env V) (n : Nat) (t : Name) (ht : tables[n]? = some t) :
    scopes primary tables e n = e t :: scopes primary tables e (n + 1) := by
  obtain ⟨hlt, hget⟩ := List.getElem?_eq_some_iff.1 ht
  rw [scopes, scopes, List.drop_eq_getElem_cons hlt, hget]
  rfl

theorem scopes_upd (primary : Name) (tables : List Name) (hn : tables.Nodup) (hp : primary ∉ tables) (e : Env V) (n : Nat) (t : Name)
    (ht : tables[n]? = some t) (row : Row V) :
    scopes primary tables (upd e t row) n = row :: scopes primary tables e (n + 1) := by
  rw [scopes_succ primary tables _ n t ht]
  have htp : primary ≠ t := fun e => hp (e ▸ List.mem_of_getElem? ht)
  congr 1
  · simp [upd]
  · rw [scopes, scopes]
    congr 1
    · refine List.map_congr_left fun u hu => ?_
      have : u ≠ t := by
        rintro rfl
        obtain ⟨i, hi⟩ := List.mem_iff_getElem?.1 hu
        rw [List.getElem?_drop] at hi
        have h1 := idxOf?_of_nodup hn hi
        rw [idxOf?_of_nodup hn ht] at h1
        have := Option.some.inj h1
        omega
      simp [upd, this]
    · simp [upd, htp]

/-- **C122**: a column that uses joined tables has the value it has in SQL, when each of them has at most one row for its ON: in
every assignment of rows to the tables that gives each the row its ON selects, the compiled column evaluates, from the row of the
primary table alone, to the value of the expression. -/
theorem C122_value_partial (null : V) (eqv : V → V → Bool) (truthy : V → Bool) (sel : Name → (Row V → Bool) → Option (Row V))
    (primary : Name) (info : Name → Table V) (order : List Name → List Name) (ho : ∀ l, (order l).Perm l) (fuel : Nat)
    (x : X V) (hx : NoBetween x) (cur tables : List Name) (hc : cur.Nodup)
    (hcur : ∀ r ∈ fields x, ∀ t, r.table = some t → t ≠ primary → t ∈ cur)
    (h : chain (fun t => refs primary (info t)) order fuel cur [] = some tables) (hp : primary ∉ tables)
    (hrec : ∀ t ∈ tables, Recorded primary t (info t)) (e : Env V)
    (he : Consistent null eqv truthy sel primary info tables e) :
    ∃ c, compileColumn primary info tables x = some c ∧ evalC null eqv truthy sel [e primary] c = evalX (refVal primary e) x := by
  obtain ⟨hn, hmem, hord⟩ := C44_order _ order ho fuel cur tables hc h
  have hvis : ∀ r ∈ fields x, Visible primary tables 0 r := by
    intro r hr
    cases ht : r.table with
    | none => exact Or.inl ht
    | some t =>
      by_cases hp' : t = primary
      · exact Or.inr (Or.inl (by rw [ht, hp']))
      · obtain ⟨j, hj⟩ := List.mem_iff_getElem?.1 ((hmem t).2 (.base (hcur r hr t ht hp')))
        exact Or.inr (Or.inr ⟨t, j, ht, hj, by omega⟩)
  obtain ⟨y, hy, hyv⟩ := C44_scopes null primary tables hn hp 0 (by omega) x hx hvis
  have key : ∀ n, n ≤ tables.length → ∃ c, compileJoin primary info tables y n = some c ∧
      evalC null eqv truthy sel (scopes primary tables e n) c = evalX (refVal primary e) x := by
    intro n
    induction n with
    | zero => intro _; exact ⟨.leaf y, rfl, by rw [evalC, hyv]⟩
    | succ n ih =>
      intro hlen
      obtain ⟨c, hcj, hcv⟩ := ih (by omega)
      obtain ⟨t, ht⟩ : ∃ t, tables[n]? = some t := ⟨_, List.getElem?_eq_getElem (by omega)⟩
      have htm : t ∈ tables := List.mem_of_getElem? ht
      have hD : tables.getD n "" = t := by simp [List.getD, ht]
      have hother : ∀ r, Known primary (info t) r → Visible primary tables (n + 1) r := by
        rintro r (hr | hr | hr)
        · exact Or.inl hr
        · exact Or.inr (Or.inl hr)
        cases hrt : r.table with
        | none => exact Or.inl hrt
        | some u =>
          by_cases hp' : u = primary
          · exact Or.inr (Or.inl (by rw [hrt, hp']))
          · obtain ⟨j, hj, hlj⟩ := before_visible primary tables hn n t u ht (hord t htm u (refs_mem primary _ r hr u hrt hp'))
            exact Or.inr (Or.inr ⟨u, j, hrt, hj, hlj⟩)
      obtain ⟨hkeys, hhav⟩ := hrec t htm
      obtain ⟨ks, hks, _, hksall⟩ := mapAll_some
        (fun kx : Name × X V => (compileX primary tables (n + 1) kx.2).map fun y => (kx.1, y)) (info t).keys
        (fun kx ky => ky.1 = kx.1 ∧ evalY null (scopes primary tables e (n + 1)) ky.2 = evalX (refVal primary e) kx.2)
        (fun kx hkx => by
          obtain ⟨y', hy', hv⟩ := C44_scopes null primary tables hn hp (n + 1) hlen kx.2 (hkeys kx hkx).1
            fun r hr => hother r ((hkeys kx hkx).2 r hr)
          exact ⟨(kx.1, y'), by simp [hy'], rfl, hv e⟩)
      obtain ⟨hs, hhs, _, hhsall⟩ := mapAll_some (compileX primary tables n) (info t).having
        (fun x' y' => ∀ e' : Env V, evalY null (scopes primary tables e' n) y' = evalX (refVal primary e') x')
        (fun x' hx' => C44_scopes null primary tables hn hp n (by omega) x' (hhav x' hx').1 fun r hr => by
          rcases (hhav x' hx').2 r hr with h | h
          · exact Or.inr (Or.inr ⟨t, n, h, ht, Nat.le_refl _⟩)
          · rcases hother r h with h | h | ⟨u, j, h1, h2, h3⟩
            · exact Or.inl h
            · exact Or.inr (Or.inl h)
            · exact Or.inr (Or.inr ⟨u, j, h1, h2, by omega⟩))
      refine ⟨.load t ks (info t).querys hs c, by simp only [compileJoin, hcj, hD, hks, hhs, Option.bind_eq_bind, Option.bind_some], ?_⟩
      rw [evalC]
      have hsel : (sel t fun row => ks.all (fun ky => eqv (row ky.1) (evalY null (scopes primary tables e (n + 1)) ky.2)) &&
          (info t).querys.all (fun q => q.2 (row q.1)) &&
          hs.all fun y => truthy (evalY null (row :: scopes primary tables e (n + 1)) y)).getD (fun _ => null) = e t := by
        rw [he t htm]
        congr 2
        funext row
        rw [hksall _ (fun kx => eqv (row kx.1) (evalX (refVal primary e) kx.2)) (fun a b _ hg => by rw [hg.1, hg.2]),
          hhsall _ (fun x' => truthy (evalX (refVal primary (upd e t row)) x')) (fun a b _ hg => by
            rw [← scopes_upd primary tables hn hp e n t ht row, hg])]
      simp only [hsel]
      rw [← scopes_succ primary tables e n t ht]
      exact hcv
  obtain ⟨c, hc', hcv⟩ := key tables.length (Nat.le_refl _)
  refine ⟨c, by simp [compileColumn, hy, hc'], ?_⟩
  simpa [scopes] using hcv

/-- **C44**, without joined tables every expression, BETWEEN included, compiles and has its value. -/
theorem C44_no_joins (null : V) (primary : Name) (e : Env V) (x : X V)
    (hx : ∀ r ∈ fields x, r.table = none ∨ r.table = some primary) :
    ∃ y, compileX primary [] 0 x = some y ∧ evalY null [e primary] y = evalX (refVal primary e) x := by
  induction x with
  | col r =>
    rcases hx r (by simp [fields]) with h | h <;>
      exact ⟨.slot 1 r.col, by simp [compileX, depth, h], by simp [evalY, slotVal, evalX, refVal, h]⟩
  | const v => exact ⟨_, rfl, rfl⟩
  | un f x ih =>
    obtain ⟨y, h1, h2⟩ := ih hx
    exact ⟨_, by simp only [compileX, h1]; rfl, by simp only [evalY, evalX, h2]⟩
  | bin f x y ihx ihy =>
    obtain ⟨a, h1, h2⟩ := ihx fun r hr => hx r (by simp [fields, hr])
    obtain ⟨b, h3, h4⟩ := ihy fun r hr => hx r (by simp [fields, hr])
    exact ⟨_, by simp only [compileX, h1, h3]; rfl, by simp only [evalY, evalX, h2, h4]⟩
  | between f x y z ihx ihy ihz =>
    obtain ⟨a, h1, h2⟩ := ihx fun r hr => hx r (by simp [fields, hr])
    obtain ⟨b, h3, h4⟩ := ihy fun r hr => hx r (by simp [fields, hr])
    obtain ⟨c, h5, h6⟩ := ihz fun r hr => hx r (by simp [fields, hr])
    exact ⟨_, by simp only [compileX, h1, h3, h5]; rfl, by simp only [evalY, evalX, h2, h4, h6]⟩
  | app f rs =>
    obtain ⟨ds, hds, h⟩ := slots_visible null primary [] List.nodup_nil (by simp) 0 (by simp) rs
      fun r hr => (hx r hr).elim Or.inl fun h => Or.inr (Or.inl h)
    exact ⟨.app f ds, by simp [compileX, hds], by rw [evalY, evalX]; exact congrArg f (h e)⟩

/-- **C122 is violated by BETWEEN** on a column of a joined table: it does not compile. -/
theorem C122_between_violated (primary : Name) (tables : List Name) (level : Nat) (f : V → V → V → V) (t c : Name) (ht : t ≠ primary)
    (lo hi : X V) : compileX primary tables level (.between f (.col ⟨some t, c⟩) lo hi) = none := by
  simp [compileX, depth, ht]

end

/-- … and on a column of the primary table beside a joined one it reads the wrong table: `IF(a.x BETWEEN 1 AND 5, b.y, 0)` with
`a.x = 3`, `b.x = 9`, `b.y = 7` gives 0 instead of 7. -/
theorem C122_between_scope_violated :
    let info : Name → Table Nat := fun _ => ⟨[⟨some "a", "id"⟩], [("id", .col ⟨some "a", "id"⟩)], [], []⟩
    let x : X Nat := .bin (fun c v => if c = 1 then v else 0)
      (.between (fun v lo hi => if lo ≤ v ∧ v ≤ hi then 1 else 0) (.col ⟨some "a", "x"⟩) (.const 1) (.const 5)) (.col ⟨some "b", "y"⟩)
    let row (a b c : Nat) : Row Nat := fun n => if n = "id" then a else if n = "x" then b else if n = "y" then c else 0
    let sel : Name → (Row Nat → Bool) → Option (Row Nat) := fun _ p => [row 1 9 7].find? p
    (compileColumn "a" info ["b"] x).map (evalC 0 (· == ·) (· != 0) sel [row 1 3 0]) = some 0 ∧
    evalX (refVal "a" fun t => if t = "a" then row 1 3 0 else row 1 9 7) x = 7 := by
  decide +kernel

/-- C44 on `SELECT d.v + a.id … FROM a LEFT JOIN b ON b.id = a.bid LEFT JOIN d ON d.id = b.did AND d.v > a.id`. -/
def exInfo : Name → Table Nat := fun t =>
  if t = "b" then ⟨[⟨some "a", "bid"⟩], [("id", .col ⟨some "a", "bid"⟩)], [], []⟩
  else if t = "d" then ⟨[⟨some "b", "did"⟩, ⟨some "a", "id"⟩], [("id", .col ⟨some "b", "did"⟩)], [],
    [.bin (fun v w => if v > w then 1 else 0) (.col ⟨some "d", "v"⟩) (.col ⟨some "a", "id"⟩)]⟩
  else ⟨[], [], [], []⟩

def exEnv : Env Nat := fun t c =>
  if t = "a" then (if c = "id" then 1 else if c = "bid" then 2 else 0)
  else if t = "b" then (if c = "id" then 2 else if c = "did" then 3 else 0)
  else if t = "d" then (if c = "id" then 3 else if c = "v" then 40 else 0) else 0

def exSel : Name → (Row Nat → Bool) → Option (Row Nat) := fun t p => [exEnv t].find? p

def exX : X Nat := .bin (· + ·) (.col ⟨some "d", "v"⟩) (.col ⟨some "a", "id"⟩)

example : Consistent 0 (· == ·) (· != 0) exSel "a" exInfo ["d", "b"] exEnv ∧
    chain (fun t => refs "a" (exInfo t)) id 5 ["d"] [] = some ["d", "b"] ∧ NoBetween exX ∧
    Recorded "a" "d" (exInfo "d") ∧ Recorded "a" "b" (exInfo "b") ∧
    (compileColumn "a" exInfo ["d", "b"] exX).map (evalC 0 (· == ·) (· != 0) exSel [exEnv "a"]) = some 41 := by
  refine ⟨?_, by decide +kernel, ⟨trivial, trivial⟩, ?_, ?_, by decide +kernel⟩
  · intro t ht
    simp only [List.mem_cons, List.not_mem_nil, or_false] at ht
    rcases ht with rfl | rfl <;> rfl
  · constructor
    · intro kx hk
      simp [exInfo] at hk
      subst hk
      exact ⟨trivial, by simp [Known, exInfo, fields]⟩
    · intro x hx
      simp [exInfo] at hx
      subst hx
      exact ⟨⟨trivial, trivial⟩, by simp [Known, exInfo, fields]⟩
  · constructor
    · intro kx hk
      simp [exInfo] at hk
      subst hk
      exact ⟨trivial, by simp [Known, exInfo, fields]⟩
    · intro x hx
      simp [exInfo] at hx

end Verif.Props
