import Verif.Spec.JoinSelect
import Verif.Props.SelectGroup
import Verif.Props.JoinOn
namespace Verif.Proofs.JoinSelect
open Verif.Val Verif.Expr Verif.Where Verif.Reduce Verif.Select

variable {S K : Type}

/-! ## The plan of a query with joins, and of the same query on the rows of the joins -/

/-- A column of `Select` with what it computes. -/
def sem0 (ev0 : T → Row → Val) : Select.Col S → JoinSelect.Col (Row → Val) S
  | .calc t => .calc (ev0 t)
  | .agg key args final => .agg (key.map ev0) (args.map fun a => (a.1, ev0 a.2)) final
  | .last key t => .last (key.map ev0) (ev0 t)

def mapS (ev : K → Row → Val) (s : JoinSelect.Schema K S) : JoinSelect.Schema (Row → Val) S := s.map fun c => (c.1, c.2.map ev)
def mapS0 (ev0 : T → Row → Val) (s : Select.Schema S) : JoinSelect.Schema (Row → Val) S := s.map fun c => (c.1, sem0 ev0 c.2)

theorem get_map {α β : Type} (f : α → β) (n : Str) (l : List (Str × α)) : get n (l.map fun c => (c.1, f c.2)) = (get n l).map f := by
  induction l with
  | nil => rfl
  | cons c l ih =>
    obtain ⟨k, v⟩ := c
    simp only [List.map_cons, Select.get]
    split
    · rfl
    · exact ih

theorem put_map {α β : Type} (f : α → β) (n : Str) (v : α) (l : List (Str × α)) :
    put n (f v) (l.map fun c => (c.1, f c.2)) = (put n v l).map fun c => (c.1, f c.2) := by
  induction l with
  | nil => rfl
  | cons c l ih =>
    obtain ⟨k, w⟩ := c
    simp only [List.map_cons, Select.put]
    split
    · rfl
    · simp only [List.map_cons, ih]

variable {cc : E → Option K} {ev : K → Row → Val} {ev0 : T → Row → Val}

theorem get_rel {s : JoinSelect.Schema K S} {s0 : Select.Schema S} (h : mapS ev s = mapS0 ev0 s0) (n : Str) :
    (get n s).map (JoinSelect.Col.map ev) = (get n s0).map (sem0 ev0) := by
  rw [← get_map, ← get_map]
  exact congrArg (get n) h

theorem keyCol_rel (hcc : ∀ e k, cc e = some k → ev k = ev0 (compile e)) {s : JoinSelect.Schema K S} {s0 : Select.Schema S}
    (h : mapS ev s = mapS0 ev0 s0) (g : GKey) (k : K) (hk : JoinSelect.keyCol cc s g = some k) :
    ∃ t, Select.keyCol s0 g = some t ∧ ev k = ev0 t := by
  cases g with
  | expr e => exact ⟨compile e, rfl, hcc e k hk⟩
  | bare c =>
    have hg := get_rel h c
    simp only [JoinSelect.keyCol] at hk
    simp only [Select.keyCol]
    cases hs : get c s with
    | none =>
      rw [hs] at hk hg
      cases hs0 : get c s0 with
      | none => exact ⟨.col c, rfl, hcc (.col c) k hk⟩
      | some x => rw [hs0] at hg; cases hg
    | some col =>
      rw [hs] at hk hg
      cases hs0 : get c s0 with
      | none => rw [hs0] at hg; cases hg
      | some col0 =>
        rw [hs0] at hg
        simp only [Option.map_some, Option.some.injEq] at hg
        cases col with
        | agg => cases hk
        | last => cases hk
        | «calc» t =>
          cases hk
          cases col0 with
          | agg => cases hg
          | last => cases hg
          | «calc» t0 => exact ⟨t0, rfl, by simpa [JoinSelect.Col.map, sem0] using hg⟩

theorem keyCols_rel (hcc : ∀ e k, cc e = some k → ev k = ev0 (compile e)) {s : JoinSelect.Schema K S} {s0 : Select.Schema S}
    (h : mapS ev s = mapS0 ev0 s0) (gs : List GKey) (ks : List K) (hk : JoinSelect.keyCols cc s gs = some ks) :
    ∃ ts, Select.keyCols s0 gs = some ts ∧ ks.map ev = ts.map ev0 := by
  induction gs generalizing ks with
  | nil => cases hk; exact ⟨[], rfl, rfl⟩
  | cons g gs ih =>
    simp only [JoinSelect.keyCols, Option.bind_eq_some_iff, Option.map_eq_some_iff] at hk
    obtain ⟨k, hk1, ks', hk2, rfl⟩ := hk
    obtain ⟨t, ht, he⟩ := keyCol_rel hcc h g k hk1
    obtain ⟨ts, hts, hes⟩ := ih ks' hk2
    exact ⟨t :: ts, by simp [Select.keyCols, ht, hts], by simp [he, hes]⟩

theorem groupKey_rel (hcc : ∀ e k, cc e = some k → ev k = ev0 (compile e)) {s : JoinSelect.Schema K S} {s0 : Select.Schema S}
    (h : mapS ev s = mapS0 ev0 s0) (gs : List GKey) (ks : List K) (hk : JoinSelect.groupKey cc s gs = some ks) :
    ∃ ts, Select.groupKey s0 gs = some ts ∧ ks.map ev = ts.map ev0 := by
  unfold JoinSelect.groupKey at hk
  unfold Select.groupKey
  split at hk
  · next hg =>
    rw [if_pos hg]
    rw [Option.map_eq_some_iff] at hk
    obtain ⟨k, hk, rfl⟩ := hk
    exact ⟨_, rfl, by rw [List.map_singleton, hcc _ _ hk]; rfl⟩
  · next hg =>
    rw [if_neg hg]
    exact keyCols_rel hcc h gs ks hk

theorem argCols_rel (hcc : ∀ e k, cc e = some k → ev k = ev0 (compile e)) (args : List (Aggr S × E)) (as : List (Aggr S × K))
    (h : JoinSelect.argCols cc args = some as) :
    (as.map fun a => (a.1, ev a.2)) = (args.map fun a => (a.1, compile a.2)).map fun a => (a.1, ev0 a.2) := by
  induction args generalizing as with
  | nil => cases h; rfl
  | cons a args ih =>
    simp only [JoinSelect.argCols, Option.bind_eq_some_iff, Option.map_eq_some_iff] at h
    obtain ⟨k, hk, as', ha, rfl⟩ := h
    simp only [List.map_cons, hcc _ _ hk, ih as' ha]

theorem addCol_rel (hcc : ∀ e k, cc e = some k → ev k = ev0 (compile e)) (group : List GKey) {s : JoinSelect.Schema K S}
    {s0 : Select.Schema S} (h : mapS ev s = mapS0 ev0 s0) (col : Str × Item S) (s' : JoinSelect.Schema K S)
    (hs : JoinSelect.addCol cc group s col = some s') :
    ∃ s0', Select.addCol group s0 col = some s0' ∧ mapS ev s' = mapS0 ev0 s0' := by
  obtain ⟨n, it⟩ := col
  cases it with
  | expr e =>
    simp only [JoinSelect.addCol, Option.map_eq_some_iff] at hs
    obtain ⟨k, hk, rfl⟩ := hs
    refine ⟨_, rfl, ?_⟩
    rw [mapS, mapS0, ← put_map, ← put_map, ← mapS, ← mapS0, h]
    simp only [JoinSelect.Col.map, sem0, hcc _ _ hk]
  | agg args final =>
    simp only [JoinSelect.addCol, Option.bind_eq_some_iff, Option.map_eq_some_iff] at hs
    obtain ⟨ks, hk, as, ha, rfl⟩ := hs
    obtain ⟨ts, hts, hes⟩ := groupKey_rel hcc h group ks hk
    refine ⟨put n (.agg ts (args.map fun a => (a.1, compile a.2)) final) s0, by simp only [Select.addCol, hts, Option.map_some], ?_⟩
    rw [mapS, mapS0, ← put_map, ← put_map, ← mapS, ← mapS0, h]
    simp only [JoinSelect.Col.map, sem0, hes, argCols_rel hcc args as ha]

theorem addCols_rel (hcc : ∀ e k, cc e = some k → ev k = ev0 (compile e)) (group : List GKey) (cols : List (Str × Item S))
    {s : JoinSelect.Schema K S} {s0 : Select.Schema S} (h : mapS ev s = mapS0 ev0 s0) (s' : JoinSelect.Schema K S)
    (hs : JoinSelect.addCols cc group s cols = some s') :
    ∃ s0', Select.addCols group s0 cols = some s0' ∧ mapS ev s' = mapS0 ev0 s0' := by
  induction cols generalizing s s0 with
  | nil => cases hs; exact ⟨s0, rfl, h⟩
  | cons c cols ih =>
    simp only [JoinSelect.addCols, Option.bind_eq_some_iff] at hs
    obtain ⟨s1, h1, h2⟩ := hs
    obtain ⟨s01, h3, h4⟩ := addCol_rel hcc group h c s1 h1
    obtain ⟨s0', h5, h6⟩ := ih h4 h2
    exact ⟨s0', by simp only [Select.addCols, h3, Option.bind_some, h5], h6⟩

theorem names_rel {s : JoinSelect.Schema K S} {s0 : Select.Schema S} (h : mapS ev s = mapS0 ev0 s0) : s.map (·.1) = s0.map (·.1) := by
  have := congrArg (List.map (·.1)) h
  simpa [mapS, mapS0, List.map_map, Function.comp_def] using this

theorem cons_rel {c : Str × JoinSelect.Col K S} {s : JoinSelect.Schema K S} {c0 : Str × Select.Col S} {s0 : Select.Schema S}
    (h : mapS ev (c :: s) = mapS0 ev0 (c0 :: s0)) : c.1 = c0.1 ∧ c.2.map ev = sem0 ev0 c0.2 ∧ mapS ev s = mapS0 ev0 s0 := by
  simp only [mapS, mapS0, List.map_cons, List.cons.injEq, Prod.mk.injEq] at h
  exact ⟨h.1.1, h.1.2, h.2⟩

theorem rel_induct {motive : JoinSelect.Schema K S → Select.Schema S → Prop} (nil : motive [] [])
    (cons : ∀ c s c0 s0, c.1 = c0.1 → c.2.map ev = sem0 ev0 c0.2 → mapS ev s = mapS0 ev0 s0 → motive s s0 → motive (c :: s) (c0 :: s0)) :
    ∀ (s : JoinSelect.Schema K S) (s0 : Select.Schema S), mapS ev s = mapS0 ev0 s0 → motive s s0
  | [], [], _ => nil
  | [], _ :: _, h => by simp [mapS, mapS0] at h
  | _ :: _, [], h => by simp [mapS, mapS0] at h
  | c :: s, c0 :: s0, h =>
    let ⟨h1, h2, h3⟩ := cons_rel h
    cons c s c0 s0 h1 h2 h3 (rel_induct nil cons s s0 h3)

theorem aggNames_rel {s : JoinSelect.Schema K S} {s0 : Select.Schema S} (h : mapS ev s = mapS0 ev0 s0) :
    JoinSelect.aggNames s = Select.aggNames s0 := by
  refine rel_induct (motive := fun s s0 => JoinSelect.aggNames s = Select.aggNames s0) rfl ?_ s s0 h
  rintro ⟨n, c⟩ s ⟨n0, c0⟩ s0 h1 h2 _ ih
  simp only at h1 h2
  simp only [JoinSelect.aggNames, Select.aggNames] at ih ⊢
  subst h1
  cases c <;> cases c0 <;> simp_all [JoinSelect.Col.map, sem0]

theorem distinctKey_rel {s : JoinSelect.Schema K S} {s0 : Select.Schema S} (h : mapS ev s = mapS0 ev0 s0) :
    (JoinSelect.distinctKey s).map ev = (Select.distinctKey s0).map ev0 := by
  refine rel_induct (motive := fun s s0 => (JoinSelect.distinctKey s).map ev = (Select.distinctKey s0).map ev0) rfl ?_ s s0 h
  rintro ⟨n, c⟩ s ⟨n0, c0⟩ s0 h1 h2 _ ih
  simp only at h1 h2
  simp only [JoinSelect.distinctKey, Select.distinctKey] at ih ⊢
  cases c <;> cases c0 <;> simp_all [JoinSelect.Col.map, sem0]

theorem aggKey_rel {s : JoinSelect.Schema K S} {s0 : Select.Schema S} (h : mapS ev s = mapS0 ev0 s0) :
    (JoinSelect.aggKey s).map (List.map ev) = (Select.aggKey s0).map (List.map ev0) := by
  refine rel_induct (motive := fun s s0 => (JoinSelect.aggKey s).map (List.map ev) = (Select.aggKey s0).map (List.map ev0)) rfl ?_ s s0 h
  rintro ⟨n, c⟩ s ⟨n0, c0⟩ s0 h1 h2 _ ih
  simp only at h1 h2
  simp only [JoinSelect.aggKey, Select.aggKey]
  cases hk : JoinSelect.aggKey s with
  | some k =>
    rw [hk] at ih
    cases hk0 : Select.aggKey s0 with
    | none => rw [hk0] at ih; cases ih
    | some k0 => rw [hk0] at ih; exact ih
  | none =>
    rw [hk] at ih
    cases hk0 : Select.aggKey s0 with
    | some k0 => rw [hk0] at ih; cases ih
    | none => cases c <;> cases c0 <;> simp_all [JoinSelect.Col.map, sem0]

theorem carryIn_rel {s : JoinSelect.Schema K S} {s0 : Select.Schema S} (h : mapS ev s = mapS0 ev0 s0) {k : List K} {k0 : List T}
    (hk : k.map ev = k0.map ev0) (n : Str) : mapS ev (JoinSelect.carryIn k s n) = mapS0 ev0 (Select.carryIn k0 s0 n) := by
  have hg := get_rel h n
  unfold JoinSelect.carryIn Select.carryIn
  cases hs : get n s with
  | none =>
    rw [hs] at hg
    cases hs0 : get n s0 with
    | none => exact h
    | some c0 => rw [hs0] at hg; cases hg
  | some c =>
    rw [hs] at hg
    cases hs0 : get n s0 with
    | none => rw [hs0] at hg; cases hg
    | some c0 =>
      rw [hs0] at hg
      simp only [Option.map_some, Option.some.injEq] at hg
      cases c <;> cases c0 <;> simp only [JoinSelect.Col.map, sem0, reduceCtorEq, JoinSelect.Col.calc.injEq] at hg <;> first | exact h | skip
      rw [mapS, mapS0, ← put_map, ← put_map, ← mapS, ← mapS0, h]
      simp only [JoinSelect.Col.map, sem0, hg, hk]

theorem carry_rel (outKey : Option Str) {s : JoinSelect.Schema K S} {s0 : Select.Schema S} (h : mapS ev s = mapS0 ev0 s0) {k : List K}
    {k0 : List T} (hk : k.map ev = k0.map ev0) : mapS ev (JoinSelect.carry outKey k s) = mapS0 ev0 (Select.carry outKey k0 s0) := by
  have hhead : mapS ev (match s.head? with | some c => JoinSelect.carryIn k s c.1 | none => s)
      = mapS0 ev0 (match s0.head? with | some c => Select.carryIn k0 s0 c.1 | none => s0) := by
    cases s with
    | nil =>
      cases s0 with
      | nil => rfl
      | cons => simp [mapS, mapS0] at h
    | cons c s =>
      cases s0 with
      | nil => simp [mapS, mapS0] at h
      | cons c0 s0 =>
        simp only [List.head?_cons]
        rw [(cons_rel h).1]
        exact carryIn_rel h hk _
  unfold JoinSelect.carry Select.carry
  cases outKey with
  | none => exact hhead
  | some n =>
    have hg : (get n s).isSome = (get n s0).isSome := by
      have := congrArg Option.isSome (get_rel h n)
      simpa using this
    simp only [hg]
    split
    · exact carryIn_rel h hk n
    · exact hhead

theorem finish_rel (hcc : ∀ e k, cc e = some k → ev k = ev0 (compile e)) (q : Query S) {s : JoinSelect.Schema K S}
    {s0 : Select.Schema S} (h : mapS ev s = mapS0 ev0 s0) (s' : JoinSelect.Schema K S) (hs : JoinSelect.finish cc q s = some s') :
    ∃ s0', Select.finish q s0 = some s0' ∧ mapS ev s' = mapS0 ev0 s0' := by
  unfold JoinSelect.finish at hs
  unfold Select.finish
  rw [← aggNames_rel h]
  split at hs
  · next h1 =>
    rw [if_pos h1]
    split at hs
    · next h2 =>
      rw [if_pos h2]
      rw [Option.map_eq_some_iff] at hs
      obtain ⟨ks, hk, rfl⟩ := hs
      obtain ⟨ts, ht, he⟩ := keyCols_rel hcc h _ ks hk
      exact ⟨_, by rw [ht]; rfl, carry_rel q.outKey h he⟩
    · next h2 =>
      rw [if_neg h2]
      split at hs
      · next h3 =>
        rw [if_pos h3]
        cases hs
        exact ⟨_, rfl, carry_rel q.outKey h (distinctKey_rel h)⟩
      · next h3 =>
        rw [if_neg h3]
        cases hs
        exact ⟨_, rfl, h⟩
  · next h1 =>
    rw [if_neg h1]
    cases hs
    exact ⟨_, rfl, h⟩

/-- The same query on one table that holds the columns of all. -/
def flat (q : Query S) : Query S := { q with prim := JoinSelect.isPrim }

/-- A plan of `Select` with what its columns compute. -/
def semP (ev0 : T → Row → Val) (p : Select.Plan S) : JoinSelect.Plan (Row → Val) S :=
  ⟨p.querys, p.predicate.map ev0, p.orders, p.limit, mapS0 ev0 p.schema, p.intercept, p.sort⟩

theorem whereOf_rel (hcc : ∀ e k, cc e = some k → ev k = ev0 (compile e)) (q : Query S) (w : Querys × Option K)
    (h : JoinSelect.whereOf cc q = some w) :
    (Select.whereOf (flat q)).1 = w.1 ∧ w.2.map ev = (Select.whereOf (flat q)).2.map ev0 := by
  unfold JoinSelect.whereOf at h
  unfold Select.whereOf flat
  simp only
  cases hc : q.cond with
  | none => rw [hc] at h; cases h; exact ⟨rfl, rfl⟩
  | some e =>
    rw [hc] at h
    simp only at h ⊢
    unfold compileWhere
    cases hr : (split JoinSelect.isPrim [] e).res with
    | none => rw [hr] at h; cases h; exact ⟨rfl, by simp only [hr]; rfl⟩
    | some r =>
      rw [hr] at h
      simp only [Option.map_eq_some_iff] at h
      obtain ⟨k, hk, rfl⟩ := h
      exact ⟨rfl, by simp only [hr, Option.map_some, hcc _ _ hk]⟩

theorem compile_rel (hcc : ∀ e k, cc e = some k → ev k = ev0 (compile e)) (q : Query S) (p : JoinSelect.Plan K S)
    (h : JoinSelect.compileSelect cc q = some p) :
    ∃ p0, Select.compileSelect (flat q) = some p0 ∧ p.map ev = semP ev0 p0 := by
  simp only [JoinSelect.compileSelect, Option.bind_eq_some_iff, Option.map_eq_some_iff] at h
  obtain ⟨s, hs, w, hw, i, hi, od, ho, f, hf, rfl⟩ := h
  obtain ⟨s0, hs0, hrel⟩ := addCols_rel (s0 := []) hcc q.group q.cols rfl s hs
  obtain ⟨f0, hf0, hfrel⟩ := finish_rel hcc q hrel f hf
  obtain ⟨hw1, hw2⟩ := whereOf_rel hcc q w hw
  have hn := names_rel hrel
  have ha := aggNames_rel hrel
  have e1 : Select.addCols (flat q).group [] (flat q).cols = some s0 := hs0
  have e2 : compileIntercept (s0.map (·.1)) (flat q).having = some i := by rw [← hn]; exact hi
  have e3 : Order.compile ⟨s0.map (·.1), (flat q).columns, (flat q).table, (flat q).aliased, Select.aggNames s0⟩ (flat q).order = some od := by
    rw [← hn, ← ha]; exact ho
  have e4 : Select.finish (flat q) s0 = some f0 := hf0
  refine ⟨_, by rw [Select.compileSelect, e1, Option.bind_some, e2, Option.bind_some, e3, Option.bind_some, e4, Option.map_some], ?_⟩
  have hsome : w.2.isSome = (Select.whereOf (flat q)).2.isSome := by
    have := congrArg Option.isSome hw2
    simpa using this
  simp only [JoinSelect.Plan.map, semP, hw1, hw2, ha, hsome]
  exact congrArg (fun x => JoinSelect.Plan.mk _ _ _ _ x _ _) hfrel

/-! ## Running the plan -/

section
variable (py : Py) (calls : Str → List Val → Val)

theorem zipWith_map {α β γ δ : Type} (f : β → γ → δ) (g : α → β) (l : List α) (m : List γ) :
    List.zipWith f (l.map g) m = List.zipWith (fun a c => f (g a) c) l m := by
  induction l generalizing m with
  | nil => simp
  | cons a l ih => cases m <;> simp [ih]

theorem rowOf_sem (s : Select.Schema S) (r : Row) :
    JoinSelect.rowOf (mapS0 (fun t r => eval py calls r t) s) r = Select.rowOf py calls s r := by
  rw [JoinSelect.rowOf, mapS0, List.map_map, Select.rowOf]
  refine List.map_congr_left fun c _ => ?_
  obtain ⟨n, c⟩ := c
  cases c <;> rfl

theorem argStep_sem (r : Row) (c : Select.Col S) (ss : List S) :
    JoinSelect.argStep r (sem0 (fun t r => eval py calls r t) c) ss = Select.argStep py calls r c ss := by
  cases c with
  | agg key args final => simp only [JoinSelect.argStep, sem0, Select.argStep, zipWith_map]
  | _ => rfl

theorem argRed_sem (ev0 : T → Row → Val) (c : Select.Col S) (ss ss' : List S) :
    JoinSelect.argRed (sem0 ev0 c) ss ss' = Select.argRed c ss ss' := by
  cases c with
  | agg key args final => simp only [JoinSelect.argRed, sem0, Select.argRed, zipWith_map]
  | _ => rfl

theorem argInit_sem (ev0 : T → Row → Val) (c : Select.Col S) : JoinSelect.argInit (sem0 ev0 c) = Select.argInit c := by
  cases c with
  | agg key args final => simp [JoinSelect.argInit, sem0, Select.argInit, List.map_map, Function.comp_def]
  | _ => rfl

theorem groupFold_sem (s : Select.Schema S) :
    JoinSelect.groupFold (mapS0 (fun t r => eval py calls r t) s) = Select.groupFold py calls s := by
  simp only [JoinSelect.groupFold, Select.groupFold, mapS0, zipWith_map, argStep_sem, argRed_sem, List.map_map, Function.comp_def, argInit_sem]

theorem groupRow_sem (s : Select.Schema S) (g : G S) :
    JoinSelect.groupRow (mapS0 (fun t r => eval py calls r t) s) g = Select.groupRow py calls s g := by
  simp only [JoinSelect.groupRow, Select.groupRow, mapS0, zipWith_map]
  congr 1
  funext c ss
  obtain ⟨n, c⟩ := c
  cases c with
  | agg key args final => simp only [sem0, zipWith_map]
  | _ => rfl

theorem aggKey_sem (ev0 : T → Row → Val) (s : Select.Schema S) : JoinSelect.aggKey (mapS0 ev0 s) = (Select.aggKey s).map (List.map ev0) := by
  induction s with
  | nil => rfl
  | cons c s ih =>
    obtain ⟨n, c⟩ := c
    simp only [mapS0, List.map_cons, JoinSelect.aggKey, Select.aggKey] at ih ⊢
    rw [ih]
    cases Select.aggKey s with
    | some k => rfl
    | none => cases c <;> rfl

theorem run_sem (en : Engine) (p : Select.Plan S) (rows : List Row) :
    JoinSelect.runFun py calls en (semP (fun t r => eval py calls r t) p) rows = Select.run py calls en p rows := by
  obtain ⟨querys, predicate, orders, limit, schema, intercept, sort⟩ := p
  obtain ⟨load, slice⟩ := limit
  have hr : JoinSelect.rowOf (mapS0 (fun t r => eval py calls r t) schema) = Select.rowOf py calls schema :=
    funext fun r => rowOf_sem py calls schema r
  unfold JoinSelect.runFun Select.run semP
  simp only [aggKey_sem]
  cases predicate with
  | none =>
    cases hk : Select.aggKey schema with
    | none => simp only [Option.map_none, hr, passes]; cases slice <;> cases sort <;> rfl
    | some k =>
      simp only [Option.map_none, Option.map_some, JoinSelect.groups, Select.groups, groupFold_sem, groupRow_sem, keyVal, List.map_map,
        Function.comp_def, passes]
      cases slice <;> cases sort <;> rfl
  | some t =>
    cases hk : Select.aggKey schema with
    | none => simp only [Option.map_none, Option.map_some, hr, passes]; cases slice <;> cases sort <;> rfl
    | some k =>
      simp only [Option.map_some, JoinSelect.groups, Select.groups, groupFold_sem, groupRow_sem, keyVal, List.map_map,
        Function.comp_def, passes]
      cases slice <;> cases sort <;> rfl

/-! ### Rows of the primary table and rows of the joins -/

variable (J : Row → Row)

theorem rowOf_map (ev0 : T → Row → Val) (s : Select.Schema S) (r : Row) :
    JoinSelect.rowOf (mapS0 (fun t r => ev0 t (J r)) s) r = JoinSelect.rowOf (mapS0 ev0 s) (J r) := by
  simp only [JoinSelect.rowOf, mapS0, List.map_map]
  refine List.map_congr_left fun c _ => ?_
  obtain ⟨n, c⟩ := c
  cases c <;> rfl

/-- The state of a group of rows of the primary table, as that of the rows of the joins. -/
def hom (g : G S) : G S := (g.1.map J, g.2.1.map J, g.2.2)

theorem argStep_map (ev0 : T → Row → Val) (r : Row) (c : Select.Col S) (ss : List S) :
    JoinSelect.argStep r (sem0 (fun t r => ev0 t (J r)) c) ss = JoinSelect.argStep (J r) (sem0 ev0 c) ss := by
  cases c with
  | agg key args final => simp only [JoinSelect.argStep, sem0, zipWith_map]
  | _ => rfl

/-- A map of states that goes with two folds. -/
structure Hom {α β S' S'' : Type} (A : Fold α S') (B : Fold β S'') (f : α → β) (h : S' → S'') : Prop where
  init : h A.init = B.init
  step : ∀ s a, h (A.step s a) = B.step (h s) (f a)
  red : ∀ s s', h (A.red s s') = B.red (h s) (h s')

theorem groupFold_hom (ev0 : T → Row → Val) (s : Select.Schema S) :
    Hom (JoinSelect.groupFold (mapS0 (fun t r => ev0 t (J r)) s)) (JoinSelect.groupFold (mapS0 ev0 s)) J (hom J) where
  init := by simp only [JoinSelect.groupFold, hom, mapS0, List.map_map, Function.comp_def, argInit_sem, Option.map_none]
  step g r := by
    obtain ⟨a, b, ss⟩ := g
    simp only [JoinSelect.groupFold, hom, mapS0, zipWith_map, argStep_map, Option.map_some]
    cases a <;> rfl
  red g g' := by
    obtain ⟨a, b, ss⟩ := g
    obtain ⟨a', b', ss'⟩ := g'
    simp only [JoinSelect.groupFold, hom, mapS0, zipWith_map, argRed_sem]
    cases a <;> cases b' <;> rfl

section
variable {κ α β S' S'' : Type} [DecidableEq κ] {A : Fold α S'} {B : Fold β S''} {f : α → β} {h : S' → S''}

/-- Keys with states. -/
def lift (h : S' → S'') (l : List (κ × S')) : List (κ × S'') := l.map fun x => (x.1, h x.2)

theorem upsert_lift (i : S') (g : S' → S') (g' : S'' → S'') (hg : ∀ s, h (g s) = g' (h s)) (k : κ) (l : List (κ × S')) :
    lift h (upsert i g k l) = upsert (h i) g' k (lift h l) := by
  induction l with
  | nil => simp [lift, upsert, hg]
  | cons x l ih =>
    obtain ⟨k', s⟩ := x
    simp only [lift, upsert, List.map_cons] at ih ⊢
    split
    · simp [hg]
    · simp [ih]

theorem aggBatch_lift (H : Hom A B f h) (rows : List (κ × α)) :
    lift h (aggBatch A rows) = aggBatch B (rows.map fun r => (r.1, f r.2)) := by
  have key : ∀ (rows : List (κ × α)) (t : List (κ × S')),
      lift h (rows.foldl (fun t r => upsert A.init (A.step · r.2) r.1 t) t)
        = (rows.map fun r => (r.1, f r.2)).foldl (fun t r => upsert B.init (B.step · r.2) r.1 t) (lift h t) := by
    intro rows
    induction rows with
    | nil => intro t; rfl
    | cons r rows ih =>
      intro t
      rw [List.foldl_cons, ih, List.map_cons, List.foldl_cons]
      rw [upsert_lift A.init (A.step · r.2) (B.step · (f r.2)) (fun s => H.step s r.2), H.init]
  exact key rows []

theorem runReduce_lift (H : Hom A B f h) (coll : List (κ × S')) : lift h (runReduce A coll) = runReduce B (lift h coll) := by
  have key : ∀ (coll : List (κ × S')) (t : List (κ × S')),
      lift h (coll.foldl (fun t r => upsert A.init (A.red · r.2) r.1 t) t)
        = (lift h coll).foldl (fun t r => upsert B.init (B.red · r.2) r.1 t) (lift h t) := by
    intro coll
    induction coll with
    | nil => intro t; rfl
    | cons r coll ih =>
      intro t
      rw [List.foldl_cons, ih]
      simp only [lift, List.map_cons, List.foldl_cons]
      have := upsert_lift (h := h) A.init (A.red · r.2) (B.red · (h r.2)) (fun s => H.red s r.2) r.1 t
      simp only [lift] at this
      rw [this, H.init]
  exact key coll []

/-- The state of the hook, for the other states. -/
def liftSt (h : S' → S'') (st : St κ S') : St κ S'' := ⟨st.count, st.batchCount, lift h st.coll⟩

theorem outputed_lift (H : Hom A B f h) (batch : Nat) (st : St κ S') (n : Nat) (b : Bool) :
    liftSt h (outputed A batch st n b) = outputed B batch (liftSt h st) n b := by
  by_cases h1 : n = 0
  · simp only [outputed, h1, if_true]
  · by_cases h2 : batch > 0 ∧ st.count > 0 ∧ st.count + n ≥ batch
    · have h2' : batch > 0 ∧ (liftSt h st).count > 0 ∧ (liftSt h st).count + n ≥ batch := h2
      rw [outputed, outputed, if_neg h1, if_neg h1, if_pos h2, if_pos h2']
      simp only [liftSt, runReduce_lift H]
    · have h2' : ¬ (batch > 0 ∧ (liftSt h st).count > 0 ∧ (liftSt h st).count + n ≥ batch) := h2
      rw [outputed, outputed, if_neg h1, if_neg h1, if_neg h2, if_neg h2']
      cases b
      · rfl
      · simp only [if_true, liftSt, runReduce_lift H]

theorem query_lift (H : Hom A B f h) (batch : Nat) (evs : List (List (κ × α) × Bool)) :
    lift h (query A batch evs) = query B batch (evs.map fun e => (e.1.map fun r => (r.1, f r.2), e.2)) := by
  have key : ∀ (evs : List (List (κ × α) × Bool)) (st : St κ S'),
      liftSt h (evs.foldl (batchStep A batch) st)
        = (evs.map fun e => (e.1.map fun r => (r.1, f r.2), e.2)).foldl (batchStep B batch) (liftSt h st) := by
    intro evs
    induction evs with
    | nil => intro st; rfl
    | cons e evs ih =>
      intro st
      rw [List.foldl_cons, ih, List.map_cons, List.foldl_cons]
      congr 1
      unfold batchStep
      simp only
      rw [outputed_lift H, ← aggBatch_lift H]
      simp [liftSt, lift]
  unfold query
  have := key evs {}
  rw [show liftSt h ({} : St κ S') = {} from rfl] at this
  rw [← this]
  generalize evs.foldl (batchStep A batch) {} = st
  unfold finaled
  by_cases hh : st.batchCount ≤ 1
  · exact (congrArg (lift h) (if_pos hh)).trans (if_pos (show (liftSt h st).batchCount ≤ 1 from hh)).symm
  · refine (congrArg (lift h) (if_neg hh)).trans (Eq.trans ?_ (if_neg (show ¬ (liftSt h st).batchCount ≤ 1 from hh)).symm)
    rw [runReduce_lift H]; rfl
end

theorem groupRow_map (ev0 : T → Row → Val) (s : Select.Schema S) (g : G S) :
    JoinSelect.groupRow (mapS0 (fun t r => ev0 t (J r)) s) g = JoinSelect.groupRow (mapS0 ev0 s) (hom J g) := by
  obtain ⟨a, b, ss⟩ := g
  simp only [JoinSelect.groupRow, mapS0, zipWith_map, hom]
  congr 1
  funext c ss
  obtain ⟨n, c⟩ := c
  cases c with
  | agg key args final => simp only [sem0, zipWith_map]
  | «calc» t => cases a <;> rfl
  | last key t => cases b <;> rfl

theorem groups_map (ev0 : T → Row → Val) (en en' : Engine) (hb : en'.batch = en.batch) (s : Select.Schema S) (k : List T) (kept : List Row)
    (hc : en'.chunk (kept.map J) = (en.chunk kept).map fun b => (b.1.map J, b.2)) :
    lift (hom J) (JoinSelect.groups en (mapS0 (fun t r => ev0 t (J r)) s) (k.map fun t r => ev0 t (J r)) kept)
      = JoinSelect.groups en' (mapS0 ev0 s) (k.map ev0) (kept.map J) := by
  unfold JoinSelect.groups
  rw [query_lift (groupFold_hom J ev0 s), hc, hb]
  simp only [List.map_map, Function.comp_def]

/-- The rows that pass the loads and the filter. -/
def keptRows (en : Engine) (p : Select.Plan S) (ev0 : T → Row → Val) (rows : List Row) : List Row :=
  let read := rows.filter fun r => matchRow py calls en.src r p.querys
  let read := if p.orders = [] then read else Order.isort (Order.leBy en.le (fun n r => r n) p.orders) read
  let read := if p.limit.load = 0 then read else read.take p.limit.load
  read.filter fun r => match p.predicate.map ev0 with | some t => truthy (t r) | none => true

theorem leBy_congr {α : Type} (le : Val → Val → Bool) (g g' : Str → α → Val) (ks : List Order.Key) (a b : α)
    (h : ∀ k ∈ ks, g k.1 = g' k.1) : Order.leBy le g ks a b = Order.leBy le g' ks a b := by
  induction ks with
  | nil => rfl
  | cons k ks ih =>
    obtain ⟨n, d⟩ := k
    simp only [Order.leBy]
    rw [h (n, d) (by simp), ih fun k hk => h k (by simp [hk])]

theorem kept_map (ev0 : T → Row → Val) (en en' : Engine) (hsrc : en'.src = en.src) (hle : en'.le = en.le) (p : Select.Plan S) (rows : List Row)
    (hq : ∀ r, matchRow py calls en.src (J r) p.querys = matchRow py calls en.src r p.querys)
    (ho : ∀ k ∈ p.orders, ∀ r, J r k.1 = r k.1) :
    (keptRows py calls en p (fun t r => ev0 t (J r)) rows).map J = keptRows py calls en' p ev0 (rows.map J) := by
  unfold keptRows
  simp only [hsrc, hle]
  have h1 : ((rows.map J).filter fun r => matchRow py calls en.src r p.querys)
      = (rows.filter fun r => matchRow py calls en.src r p.querys).map J := by
    rw [List.filter_map]
    congr 1
    exact List.filter_congr fun r _ => hq r
  rw [h1]
  generalize rows.filter (fun r => matchRow py calls en.src r p.querys) = l
  have h2 : Order.isort (Order.leBy en.le (fun n r => r n) p.orders) (l.map J)
      = (Order.isort (Order.leBy en.le (fun n r => r n) p.orders) l).map J := by
    rw [← map_isort]
    congr 2
    funext a b
    rw [← congrFun (congrFun (leBy_comp en.le (fun n (r : Row) => r n) J p.orders) a) b]
    exact leBy_congr en.le _ _ p.orders a b fun k hk => funext fun r => ho k hk r
  rw [h2]
  have h3 : (if p.orders = [] then l.map J else (Order.isort (Order.leBy en.le (fun n r => r n) p.orders) l).map J)
      = (if p.orders = [] then l else Order.isort (Order.leBy en.le (fun n r => r n) p.orders) l).map J := by
    split <;> rfl
  rw [h3]
  generalize (if p.orders = [] then l else Order.isort (Order.leBy en.le (fun n r => r n) p.orders) l) = m
  have h4 : (if p.limit.load = 0 then m.map J else (m.map J).take p.limit.load) = (if p.limit.load = 0 then m else m.take p.limit.load).map J := by
    split
    · rfl
    · rw [List.map_take]
  rw [h4, List.filter_map]
  congr 1
  refine List.filter_congr fun r _ => ?_
  cases p.predicate <;> rfl

theorem run_map (ev0 : T → Row → Val) (en en' : Engine) (hsrc : en'.src = en.src) (hle : en'.le = en.le) (hb : en'.batch = en.batch)
    (p : Select.Plan S) (rows : List Row)
    (hq : ∀ r, matchRow py calls en.src (J r) p.querys = matchRow py calls en.src r p.querys)
    (ho : ∀ k ∈ p.orders, ∀ r, J r k.1 = r k.1)
    (hc : en'.chunk ((keptRows py calls en p (fun t r => ev0 t (J r)) rows).map J)
      = (en.chunk (keptRows py calls en p (fun t r => ev0 t (J r)) rows)).map fun b => (b.1.map J, b.2)) :
    JoinSelect.runFun py calls en (semP (fun t r => ev0 t (J r)) p) rows
      = JoinSelect.runFun py calls en' (semP ev0 p) (rows.map J) := by
  have e1 : ∀ (en : Engine) (ev0 : T → Row → Val) (rows : List Row), JoinSelect.runFun py calls en (semP ev0 p) rows =
      (let outs := match JoinSelect.aggKey (mapS0 ev0 p.schema) with
        | none => (keptRows py calls en p ev0 rows).map (JoinSelect.rowOf (mapS0 ev0 p.schema))
        | some k => (JoinSelect.groups en (mapS0 ev0 p.schema) k (keptRows py calls en p ev0 rows)).map
            fun (g : List (Option Agg.Key) × G S) => JoinSelect.groupRow (mapS0 ev0 p.schema) g.2
      let outs := outs.filter fun o => passes py calls p.intercept fun n => field n o
      let outs := match p.sort with
        | some s => Order.isort (Order.leBy en.le field s) outs
        | none => outs
      match p.limit.slice with
      | some (s, e) => Limit.pySlice s e outs
      | none => outs) := fun _ _ _ => rfl
  rw [e1, e1, hle]
  simp only
  have houts : (match JoinSelect.aggKey (mapS0 (fun t r => ev0 t (J r)) p.schema) with
      | none => (keptRows py calls en p (fun t r => ev0 t (J r)) rows).map (JoinSelect.rowOf (mapS0 (fun t r => ev0 t (J r)) p.schema))
      | some k => (JoinSelect.groups en (mapS0 (fun t r => ev0 t (J r)) p.schema) k (keptRows py calls en p (fun t r => ev0 t (J r)) rows)).map
          fun (g : List (Option Agg.Key) × G S) => JoinSelect.groupRow (mapS0 (fun t r => ev0 t (J r)) p.schema) g.2)
      = (match JoinSelect.aggKey (mapS0 ev0 p.schema) with
      | none => (keptRows py calls en' p ev0 (rows.map J)).map (JoinSelect.rowOf (mapS0 ev0 p.schema))
      | some k => (JoinSelect.groups en' (mapS0 ev0 p.schema) k (keptRows py calls en' p ev0 (rows.map J))).map
          fun (g : List (Option Agg.Key) × G S) => JoinSelect.groupRow (mapS0 ev0 p.schema) g.2) := by
    rw [aggKey_sem, aggKey_sem, ← kept_map py calls J ev0 en en' hsrc hle p rows hq ho]
    cases Select.aggKey p.schema with
    | none =>
      simp only [Option.map_none, List.map_map]
      exact List.map_congr_left fun r _ => rowOf_map J ev0 p.schema r
    | some k =>
      simp only [Option.map_some]
      rw [← groups_map J ev0 en en' hb p.schema k _ hc]
      simp only [lift, List.map_map]
      exact List.map_congr_left fun g _ => groupRow_map J ev0 p.schema g.2
  rw [houts]

end
/-- A query that is compiled: its ON are analysed, and its columns compiled. -/
theorem compile_some {S : Type} {py : Py} {calls : Str → List Val → Val} {o : Join.Ops Val} {order : List Join.Name → List Join.Name}
    {fuel : Nat} {joins : List (Join.Join Val)} {q : Query S} {p : JoinSelect.Plan (Join.C Val) S}
    (h : JoinSelect.compile py calls o order fuel joins q = some p) :
    ∃ info, JoinSelect.parseJoins o joins = some info ∧
      JoinSelect.compileSelect (JoinSelect.compileE py calls ⟨String.ofList q.table, joins.map (·.name), info, order, fuel⟩) q = some p := by
  obtain ⟨info, hi, hp⟩ := Option.bind_eq_some_iff.1 h
  split at hp
  · exact ⟨info, hi, hp⟩
  · cases hp

end Verif.Proofs.JoinSelect
