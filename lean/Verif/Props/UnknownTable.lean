import Verif.Props.AcceptedCases
/-! C179: queries that use a table that is not in them are refused. -/
namespace Verif.Props.Unknown
open Verif.Val Verif.Expr Verif.Where Verif.Select Verif.AcceptSpec Verif.Join Verif.Proofs.JoinSelect Verif.Props.Accept

variable {S K : Type} (cc : E → Option K)

theorem argCols_each (as : List (Aggr S × E)) (l : List (Aggr S × K)) (h : JoinSelect.argCols cc as = some l) :
    ∀ a ∈ as, (cc a.2).isSome = true := by
  induction as generalizing l with
  | nil => intro a ha; cases ha
  | cons a as ih =>
    simp only [JoinSelect.argCols] at h
    obtain ⟨k, hk, h⟩ := Option.bind_eq_some_iff.1 h
    obtain ⟨l', hl, _⟩ := Option.map_eq_some_iff.1 h
    intro b hb
    rcases List.mem_cons.1 hb with rfl | hb
    · rw [hk]; rfl
    · exact ih l' hl b hb

theorem keyCols_each (s : JoinSelect.Schema K S) (gs : List GKey) (l : List K) (h : JoinSelect.keyCols cc s gs = some l) :
    ∀ e, GKey.expr e ∈ gs → (cc e).isSome = true := by
  induction gs generalizing l with
  | nil => intro e he; cases he
  | cons g gs ih =>
    simp only [JoinSelect.keyCols] at h
    obtain ⟨k, hk, h⟩ := Option.bind_eq_some_iff.1 h
    obtain ⟨l', hl, _⟩ := Option.map_eq_some_iff.1 h
    intro e he
    rcases List.mem_cons.1 he with rfl | he
    · rw [show cc e = some k from hk]; rfl
    · exact ih l' hl e he

theorem addCols_each (group : List GKey) (cols : List (Str × Item S)) (s s' : JoinSelect.Schema K S)
    (h : JoinSelect.addCols cc group s cols = some s') :
    (∀ n e, (n, Item.expr e) ∈ cols → (cc e).isSome = true) ∧
    ∀ n args final, (n, Item.agg args final) ∈ cols → (∀ a ∈ args, (cc a.2).isSome = true) ∧ ∀ e, GKey.expr e ∈ group → (cc e).isSome = true := by
  induction cols generalizing s with
  | nil => exact ⟨fun n e h => (by cases h), fun n a f h => (by cases h)⟩
  | cons c cols ih =>
    simp only [JoinSelect.addCols] at h
    obtain ⟨s1, h1, h⟩ := Option.bind_eq_some_iff.1 h
    obtain ⟨i1, i2⟩ := ih s1 h
    refine ⟨fun n e hm => ?_, fun n args final hm => ?_⟩
    · rcases List.mem_cons.1 hm with rfl | hm
      · simp only [JoinSelect.addCol] at h1
        obtain ⟨k, hk, _⟩ := Option.map_eq_some_iff.1 h1
        rw [hk]; rfl
      · exact i1 n e hm
    · rcases List.mem_cons.1 hm with rfl | hm
      · simp only [JoinSelect.addCol] at h1
        obtain ⟨k, hk, h1⟩ := Option.bind_eq_some_iff.1 h1
        obtain ⟨l, hl, _⟩ := Option.map_eq_some_iff.1 h1
        refine ⟨argCols_each cc args l hl, fun e he => ?_⟩
        unfold JoinSelect.groupKey at hk
        split at hk
        · next hg => rw [List.isEmpty_iff.1 hg] at he; cases he
        · exact keyCols_each cc s group k hk e he
      · exact i2 n args final hm

theorem aggNames_exprs (group : List GKey) (cols : List (Str × Item S)) (s s' : JoinSelect.Schema K S)
    (h : JoinSelect.addCols cc group s cols = some s') (hs : (JoinSelect.aggNames s') ≠ []) (h0 : JoinSelect.aggNames s = []) :
    ∃ n args final, (n, Item.agg args final) ∈ cols := by
  induction cols generalizing s with
  | nil => cases h; exact absurd h0 hs
  | cons c cols ih =>
    simp only [JoinSelect.addCols] at h
    obtain ⟨s1, h1, h⟩ := Option.bind_eq_some_iff.1 h
    obtain ⟨n, it⟩ := c
    cases it with
    | agg args final => exact ⟨n, args, final, List.mem_cons_self⟩
    | expr e =>
      simp only [JoinSelect.addCol] at h1
      obtain ⟨k, _, rfl⟩ := Option.map_eq_some_iff.1 h1
      obtain ⟨n', a, f, hm⟩ := ih _ h (by
        simp only [JoinSelect.aggNames, List.map_eq_nil_iff, List.filter_eq_nil_iff] at h0 ⊢
        intro x hx
        have : ∀ (d : JoinSelect.Schema K S), (∀ x ∈ d, ¬ (match x.2 with | .agg _ _ _ => true | _ => false) = true) →
            ∀ x ∈ put n (JoinSelect.Col.calc k) d, ¬ (match x.2 with | .agg _ _ _ => true | _ => false) = true := by
          intro d
          induction d with
          | nil =>
            intro _ x hx
            rw [List.mem_singleton.1 hx]
            exact Bool.false_ne_true
          | cons y d ihd =>
            intro hd x hx
            obtain ⟨k', v'⟩ := y
            simp only [put] at hx
            split at hx
            · rcases List.mem_cons.1 hx with rfl | hx
              · exact Bool.false_ne_true
              · exact hd x (List.mem_cons_of_mem _ hx)
            · rcases List.mem_cons.1 hx with rfl | hx
              · exact hd _ List.mem_cons_self
              · exact ihd (fun x hx => hd x (List.mem_cons_of_mem _ hx)) x hx
        exact this s h0 x hx)
      exact ⟨n', a, f, List.mem_cons_of_mem _ hm⟩

/-- Every expression of a compiled query but its WHERE and the names in GROUP BY was compiled. -/
theorem each_compiled (q : Query S) (p : JoinSelect.Plan K S) (h : JoinSelect.compileSelect cc q = some p) :
    (∀ n e, (n, Item.expr e) ∈ q.cols → (cc e).isSome = true) ∧
    (∀ n args final, (n, Item.agg args final) ∈ q.cols → ∀ a ∈ args, (cc a.2).isSome = true) ∧
    ∀ e, GKey.expr e ∈ q.group → (cc e).isSome = true := by
  simp only [JoinSelect.compileSelect, Option.bind_eq_some_iff, Option.map_eq_some_iff] at h
  obtain ⟨s, hs, w, _, i, _, od, _, f, hf, _⟩ := h
  obtain ⟨h1, h2⟩ := addCols_each cc q.group q.cols [] s hs
  refine ⟨h1, fun n args final hm => (h2 n args final hm).1, fun e he => ?_⟩
  by_cases ha : JoinSelect.aggNames s = []
  · unfold JoinSelect.finish at hf
    rw [if_pos (List.isEmpty_iff.2 ha), if_pos (by cases hg : q.group with | nil => rw [hg] at he; cases he | cons _ _ => rfl)] at hf
    obtain ⟨k, hk, _⟩ := Option.map_eq_some_iff.1 hf
    exact keyCols_each cc s q.group k hk e he
  · obtain ⟨n, a, fi, hm⟩ := aggNames_exprs cc q.group q.cols [] s hs ha rfl
    exact (h2 n a fi hm).2 e he

theorem compileE_known (py : Py) (calls : Str → List Val → Val) (cx : JoinSelect.Ctx) (e : E) (h : (JoinSelect.compileE py calls cx e).isSome = true)
    (c : Str) (t : Join.Name) (hc : E.col c ∈ parts e) (ht : OfTable c t) : t ∈ cx.names := by
  unfold JoinSelect.compileE at h
  split at h
  · next hk =>
    have := List.all_eq_true.1 ((Bool.and_eq_true _ _).mp hk).1 t (by
      simp only [JoinSelect.tablesOf, List.mem_eraseDups, List.mem_filterMap]
      exact ⟨c, (cols_parts e c).2 hc, ht⟩)
    exact of_decide_eq_true this
  · cases h

theorem parseOn_grows (o : Ops Val) (own : Join.Name) (cs : List (Cond Val)) (s t : Table Val) (h : parseOn o own s cs = some t) (r : Ref)
    (hr : r ∈ s.joinCols) : r ∈ t.joinCols := by
  have hO : ∀ (s t : Table Val) (c : Cond Val) (l x : X Val) (q : Val → Val → Bool), addOther o own s c l x q = some t → r ∈ s.joinCols → r ∈ t.joinCols := by
    intro s t c l x q h hr
    cases l with
    | col a =>
      simp only [addOther] at h
      split at h
      · cases h
      · split at h
        · cases h; exact hr
        · cases h; exact List.mem_append_left _ hr
    | _ => cases h; exact List.mem_append_left _ hr
  have hE : ∀ (s t : Table Val) (k : Join.Name) (x : X Val), addEq o s k x = some t → r ∈ s.joinCols → r ∈ t.joinCols := by
    intro s t k x h hr
    simp only [addEq] at h
    split at h
    · cases h; exact hr
    · simp only [addKey] at h
      split at h
      · cases h
      · cases h; exact List.mem_append_left _ hr
  induction cs generalizing s with
  | nil => cases h; exact hr
  | cons c cs ih =>
    obtain ⟨s', hs, h⟩ := Option.bind_eq_some_iff.1 h
    refine ih s' h ?_
    cases c with
    | cmp op l x =>
      simp only [parseCond] at hs
      split at hs
      · split at hs
        · exact hE _ _ _ _ hs hr
        · split at hs
          · exact hE _ _ _ _ hs hr
          · exact hO _ _ _ _ _ _ hs hr
      · exact hO _ _ _ _ _ _ hs hr
    | isin l vs =>
      cases l with
      | col a =>
        simp only [parseCond] at hs
        split at hs
        · cases hs
        · cases hs; exact hr
      | _ => cases hs; exact List.mem_append_left _ hr
    | other x => cases hs; exact List.mem_append_left _ hr

/-- What a conjunct adds is there at the end. -/
theorem parseOn_added (o : Ops Val) (own : Join.Name) (r : Ref) (c : Cond Val)
    (hc : ∀ s t, parseCond o own s c = some t → r ∈ t.joinCols) (cs : List (Cond Val)) (s t : Table Val) (hm : c ∈ cs)
    (h : parseOn o own s cs = some t) : r ∈ t.joinCols := by
  induction cs generalizing s with
  | nil => cases hm
  | cons d cs ih =>
    obtain ⟨s', hs, h'⟩ := Option.bind_eq_some_iff.1 h
    rcases List.mem_cons.1 hm with rfl | hm
    · exact parseOn_grows o own cs s' t h' r (hc s s' hs)
    · exact ih s' hm h'

theorem parseJoins_nodup (o : Ops Val) (joins : List (Join.Join Val)) (hn : (joins.map (·.name)).Nodup) (info : Join.Name → Table Val)
    (h : JoinSelect.parseJoins o joins = some info) (j : Join.Join Val) (hj : j ∈ joins) :
    parseOn o j.name ⟨[], [], [], []⟩ j.on = some (info j.name) := by
  induction joins generalizing info with
  | nil => cases hj
  | cons k js ih =>
    obtain ⟨t, ht, h⟩ := Option.bind_eq_some_iff.1 h
    obtain ⟨i', hi, rfl⟩ := Option.map_eq_some_iff.1 h
    obtain ⟨hk, hn⟩ := List.nodup_cons.1 hn
    rcases List.mem_cons.1 hj with rfl | hj
    · simpa using ht
    · have : j.name ≠ k.name := fun e => hk (List.mem_map.2 ⟨j, hj, e⟩)
      simp only [if_neg this]
      exact ih hn i' hi hj

theorem compile_checks {py : Py} {calls : Str → List Val → Val} {o : Ops Val} {order : List Join.Name → List Join.Name}
    {fuel : Nat} {joins : List (Join.Join Val)} {q : Query S} {p : JoinSelect.Plan (Join.C Val) S}
    (h : JoinSelect.compile py calls o order fuel joins q = some p) :
    ∃ info, JoinSelect.parseJoins o joins = some info ∧ (∀ j ∈ joins, ∀ t ∈ refs (String.ofList q.table) (info j.name), t ∈ joins.map (·.name)) ∧
      ∀ e, q.cond = some e → ∀ c t, E.col c ∈ parts e → OfTable c t → t ∈ joins.map (·.name) := by
  obtain ⟨info, hi, hp⟩ := Option.bind_eq_some_iff.1 h
  split at hp
  · next hk =>
    rw [Bool.and_eq_true] at hk
    refine ⟨info, hi, fun j hj t ht => ?_, fun e he c t hc ht => ?_⟩
    · have h1 := List.all_eq_true.1 hk.1 j hj
      rw [Bool.and_eq_true] at h1
      exact of_decide_eq_true (List.all_eq_true.1 h1.2 t ht)
    · have h1 := List.all_eq_true.1 hk.2 e (by rw [he]; exact List.mem_cons_self)
      exact of_decide_eq_true (List.all_eq_true.1 h1 t (by
        simp only [JoinSelect.tablesOf, List.mem_eraseDups, List.mem_filterMap]
        exact ⟨c, (cols_parts e c).2 hc, ht⟩))
  · cases hp

/-- A conjunct of ON whose tables are looked up when the query is compiled: one side is a column and the other has columns, or it is an
equation with a column of the joined table at the right, or it is no comparison. -/
inductive Relating (own : Join.Name) : Cond Val → Prop where
  | column (op : Op) (r : Ref) (x : X Val) (h : r.table ≠ none) (hx : fields x ≠ []) : Relating own (.cmp op (.col r) x)
  | equation (x : X Val) (k : Join.Name) (hx : fields x ≠ []) : Relating own (.cmp .eq x (.col ⟨some own, k⟩))
  | other (x : X Val) : Relating own (.other x)

theorem foreign_mem (own : Join.Name) (rs : List Ref) (r : Ref) (h : r ∈ rs) (ho : r.table ≠ some own) : r ∈ foreign own rs :=
  List.mem_filter.2 ⟨h, decide_eq_true ho⟩

theorem eq_records (o : Ops Val) (k : Join.Name) (x : X Val) (r : Ref) (hr : r ∈ fields x) (s t : Table Val) (h : addEq o s k x = some t) :
    r ∈ t.joinCols := by
  simp only [addEq] at h
  split at h
  · next v hv =>
    have := (closed_iff x).1 (by rw [hv]; rfl)
    rw [this] at hr; cases hr
  · simp only [addKey] at h
    split at h
    · cases h
    · cases h; exact List.mem_append_right _ hr

theorem linked_records (o : Ops Val) (own : Join.Name) (c : Cond Val) (hl : Relating own c) (r : Ref) (hr : r ∈ condFields c) (ho : r.table ≠ some own)
    (s t : Table Val) (h : parseCond o own s c = some t) : r ∈ t.joinCols := by
  have hO : ∀ (op : Op) (a : Ref) (x : X Val), a.table ≠ none → fields x ≠ [] → r ∈ fields (.col a : X Val) ++ fields x →
      addOther o own s (.cmp op (.col a) x) (.col a) x (fun w v => o.truthy (o.cmp op w v)) = some t → r ∈ t.joinCols := by
    intro op a x ha hx hr h
    simp only [addOther, if_neg ha] at h
    split at h
    · next v hv => exact absurd ((closed_iff x).1 (by rw [hv]; rfl)) hx
    · cases h
      refine List.mem_append_right _ (foreign_mem _ _ _ ?_ ho)
      rcases List.mem_append.1 hr with h | h
      · exact List.mem_append_right _ h
      · exact List.mem_append_left _ h
  cases hl with
  | column op a x ha hx =>
    simp only [parseCond] at h
    split at h
    · next e =>
      subst e
      split at h
      · next k hk =>
        have : a.table = some own := by
          simp only [ownCol] at hk
          split at hk
          · assumption
          · cases hk
        rcases List.mem_append.1 hr with hr | hr
        · rw [List.mem_singleton.1 hr] at ho; exact absurd this ho
        · exact eq_records o k x r hr s t h
      · split at h
        · next k hk =>
          cases x with
          | col b =>
            have : b.table = some own := by
              simp only [ownCol] at hk
              split at hk
              · assumption
              · cases hk
            rcases List.mem_append.1 hr with hr | hr
            · exact eq_records o k _ r hr s t h
            · rw [List.mem_singleton.1 hr] at ho; exact absurd this ho
          | _ => cases hk
        · exact hO .eq a x ha hx hr h
    · exact hO op a x ha hx hr h
  | equation x k hx =>
    simp only [parseCond, if_true] at h
    have hr' : r ∈ fields x := by
      rcases List.mem_append.1 hr with hr | hr
      · exact hr
      · rw [List.mem_singleton.1 hr] at ho; exact absurd rfl ho
    split at h
    · next k' hk =>
      cases x with
      | col b =>
        have : b.table = some own := by
          simp only [ownCol] at hk
          split at hk
          · assumption
          · cases hk
        rw [List.mem_singleton.1 hr'] at ho
        exact absurd this ho
      | _ => cases hk
    · simp only [ownCol, if_true] at h
      exact eq_records o k x r hr' s t h
  | other x =>
    cases h
    exact List.mem_append_right _ (foreign_mem _ _ _ hr ho)

end Verif.Props.Unknown

namespace Verif.Props
open Verif.Val Verif.Expr Verif.Where Verif.Select Verif.AcceptSpec Verif.Join Verif.Proofs.JoinSelect Verif.Props.Unknown
variable {S : Type} (py : Py) (calls : Str → List Val → Val)

/-- A column of a table that is not in the query, in the select list, an argument of an aggregate, an expression of GROUP BY, or WHERE: the
query is refused. -/
theorem C179_unknown_refused (o : Ops Val) (order : List Join.Name → List Join.Name) (fuel : Nat) (joins : List (Join.Join Val)) (q : Query S)
    (e : E) (he : (∃ n, (n, Item.expr e) ∈ q.cols) ∨ (∃ n args final, (n, Item.agg args final) ∈ q.cols ∧ ∃ a ∈ args, a.2 = e) ∨
      GKey.expr e ∈ q.group ∨ q.cond = some e)
    (c : Str) (t : Join.Name) (hc : E.col c ∈ parts e) (ht : OfTable c t) (hu : t ∉ joins.map (·.name)) :
    JoinSelect.compile py calls o order fuel joins q = none := by
  cases h : JoinSelect.compile py calls o order fuel joins q with
  | none => rfl
  | some p =>
    exfalso
    obtain ⟨info, _, hp⟩ := compile_some h
    obtain ⟨h1, h2, h3⟩ := each_compiled _ q p hp
    rcases he with ⟨n, he⟩ | ⟨n, args, final, he, a, ha, rfl⟩ | he | he
    · exact hu (compileE_known py calls _ e (h1 n e he) c t hc ht)
    · exact hu (compileE_known py calls _ _ (h2 n args final he a ha) c t hc ht)
    · exact hu (compileE_known py calls _ e (h3 e he) c t hc ht)
    · obtain ⟨_, _, _, h4⟩ := compile_checks h
      exact hu (h4 e he c t hc ht)

/-- A column of a table that is not in the query, in a conjunct of ON that relates columns: the query is refused. -/
theorem C179_on_refused_partial (o : Ops Val) (order : List Join.Name → List Join.Name) (fuel : Nat) (joins : List (Join.Join Val)) (q : Query S)
    (hn : (joins.map (·.name)).Nodup) (j : Join.Join Val) (hj : j ∈ joins) (c : Cond Val) (hc : c ∈ j.on) (hl : Relating j.name c)
    (r : Ref) (hr : r ∈ condFields c) (u : Join.Name) (ht : r.table = some u) (hp : u ≠ String.ofList q.table) (hu : u ∉ joins.map (·.name)) :
    JoinSelect.compile py calls o order fuel joins q = none := by
  cases h : JoinSelect.compile py calls o order fuel joins q with
  | none => rfl
  | some p =>
    exfalso
    obtain ⟨info, hi, h1, _⟩ := compile_checks h
    have hT := parseJoins_nodup o joins hn info hi j hj
    have ho : r.table ≠ some j.name := by
      rw [ht]; rintro ⟨⟩; exact hu (List.mem_map_of_mem hj)
    have := parseOn_added o j.name r c (linked_records o j.name c hl r hr ho) j.on _ _ hc hT
    exact hu (h1 j hj u (refs_mem _ _ r this u ht hp))

namespace Unknown

/-- The conjunct with the constant `v`, of the column `k` of table `t`. -/
theorem parseCond_const (o : Ops Val) (own u : Join.Name) (op : Op) (k : Join.Name) (v : Val) (s : Table Val) (hu : u ≠ own) :
    parseCond o own s (.cmp op (.col ⟨some u, k⟩) (.const v)) = parseCond o own s (.cmp op (.col ⟨some own, k⟩) (.const v)) := by
  have h1 : ownCol (V := Val) own (.col ⟨some u, k⟩) = none := by simp [ownCol, hu]
  have h2 : ownCol (V := Val) own (.col ⟨some own, k⟩) = some k := by simp [ownCol]
  have h3 : ownCol (V := Val) own (.const v) = none := rfl
  cases op <;> simp [parseCond, h1, h2, h3, addEq, addOther, closed]

theorem parseOn_append (o : Ops Val) (own : Join.Name) (l1 l2 : List (Cond Val)) (s : Table Val) :
    parseOn o own s (l1 ++ l2) = (parseOn o own s l1).bind fun t => parseOn o own t l2 := by
  induction l1 generalizing s with
  | nil => rfl
  | cons c l1 ih =>
    show (parseCond o own s c).bind _ = ((parseCond o own s c).bind _).bind _
    cases parseCond o own s c with
    | none => rfl
    | some t => exact ih t

theorem parseJoins_append (o : Ops Val) (j j' : Join.Join Val) (hn : j.name = j'.name)
    (h : parseOn o j.name ⟨[], [], [], []⟩ j.on = parseOn o j'.name ⟨[], [], [], []⟩ j'.on) (l1 l2 : List (Join.Join Val)) :
    JoinSelect.parseJoins o (l1 ++ j :: l2) = JoinSelect.parseJoins o (l1 ++ j' :: l2) := by
  induction l1 with
  | nil => simp only [List.nil_append, JoinSelect.parseJoins]; rw [h, hn]
  | cons k l1 ih => simp only [List.cons_append, JoinSelect.parseJoins]; rw [ih]

end Unknown

/-- C179 is violated by conjuncts of ON that compare a column with a constant: whatever table the column is of, it is taken as a column of
the joined table.  (`… LEFT JOIN b ON b.id = a.id AND zzz.kind = 1` is the query with `b.kind = 1`.) -/
theorem C179_constant_violated (o : Ops Val) (order : List Join.Name → List Join.Name) (fuel : Nat) (l1 l2 : List (Join.Join Val)) (q : Query S)
    (own u : Join.Name) (kind : Kind) (c1 c2 : List (Cond Val)) (op : Op) (k : Join.Name) (v : Val)
    (hu : u ∉ (l1 ++ ⟨own, kind, []⟩ :: l2).map (·.name)) (p : JoinSelect.Plan (Join.C Val) S)
    (h : JoinSelect.compile py calls o order fuel (l1 ++ ⟨own, kind, c1 ++ .cmp op (.col ⟨some u, k⟩) (.const v) :: c2⟩ :: l2) q = some p) :
    JoinSelect.compile py calls o order fuel (l1 ++ ⟨own, kind, c1 ++ .cmp op (.col ⟨some own, k⟩) (.const v) :: c2⟩ :: l2) q = some p := by
  have hown : u ≠ own := by
    rintro rfl; exact hu (List.mem_map.2 ⟨_, List.mem_append_right _ List.mem_cons_self, rfl⟩)
  have hpj := parseJoins_append o ⟨own, kind, c1 ++ .cmp op (.col ⟨some u, k⟩) (.const v) :: c2⟩
    ⟨own, kind, c1 ++ .cmp op (.col ⟨some own, k⟩) (.const v) :: c2⟩ rfl (by
      show parseOn o own _ _ = parseOn o own _ _
      rw [parseOn_append, parseOn_append]
      congr 1
      funext t
      show (parseCond o own t _).bind _ = (parseCond o own t _).bind _
      rw [parseCond_const o own u op k v t hown]) l1 l2
  have hnames : (l1 ++ ⟨own, kind, c1 ++ .cmp op (.col ⟨some u, k⟩) (.const v) :: c2⟩ :: l2 : List (Join.Join Val)).map (·.name)
      = (l1 ++ ⟨own, kind, c1 ++ .cmp op (.col ⟨some own, k⟩) (.const v) :: c2⟩ :: l2 : List (Join.Join Val)).map (·.name) := by
    simp only [List.map_append, List.map_cons]
  have hu' : u ∉ (l1 ++ ⟨own, kind, c1 ++ .cmp op (.col ⟨some own, k⟩) (.const v) :: c2⟩ :: l2 : List (Join.Join Val)).map (·.name) := by
    simpa only [List.map_append, List.map_cons] using hu
  generalize hA : (l1 ++ ⟨own, kind, c1 ++ .cmp op (.col ⟨some u, k⟩) (.const v) :: c2⟩ :: l2 : List (Join.Join Val)) = A at *
  generalize hB : (l1 ++ ⟨own, kind, c1 ++ .cmp op (.col ⟨some own, k⟩) (.const v) :: c2⟩ :: l2 : List (Join.Join Val)) = B at *
  have hment : ∀ t ∈ B.map (·.name), JoinSelect.mentions A q t = true → JoinSelect.mentions B q t = true := by
    intro t ht hm
    rw [Accept.mentions_iff] at hm ⊢
    rcases hm with ⟨j, hj, c, hc, r, hr, hrt⟩ | hm
    · refine .inl ?_
      subst hA hB
      rcases List.mem_append.1 hj with hj | hj
      · exact ⟨j, List.mem_append_left _ hj, c, hc, r, hr, hrt⟩
      · rcases List.mem_cons.1 hj with rfl | hj
        · rcases List.mem_append.1 hc with hc | hc
          · exact ⟨_, List.mem_append_right _ List.mem_cons_self, c, List.mem_append_left _ hc, r, hr, hrt⟩
          · rcases List.mem_cons.1 hc with rfl | hc
            · simp only [condFields, fields, List.append_nil, List.mem_singleton] at hr
              subst hr
              cases hrt
              exact absurd ht hu'
            · exact ⟨_, List.mem_append_right _ List.mem_cons_self, c, List.mem_append_right _ (List.mem_cons_of_mem _ hc), r, hr, hrt⟩
        · exact ⟨j, List.mem_append_right _ (List.mem_cons_of_mem _ hj), c, hc, r, hr, hrt⟩
    · exact .inr hm
  obtain ⟨info, hi, hp⟩ := Option.bind_eq_some_iff.1 h
  refine Option.bind_eq_some_iff.2 ⟨info, hpj ▸ hi, ?_⟩
  split at hp
  · next hk =>
    rw [hnames] at hk hp
    rw [if_pos]
    · exact hp
    · rw [Bool.and_eq_true] at hk ⊢
      refine ⟨List.all_eq_true.2 fun j hj => ?_, hk.2⟩
      obtain ⟨j0, hj0, hn0⟩ := List.mem_map.1 (hnames ▸ List.mem_map.2 ⟨j, hj, rfl⟩ : j.name ∈ A.map (·.name))
      have h1 := List.all_eq_true.1 hk.1 j0 hj0
      simp only [Bool.and_eq_true, JoinSelect.keyFound, JoinSelect.refsKnown, hn0, Bool.or_eq_true] at h1 ⊢
      exact ⟨h1.1.imp id (hment _ (List.mem_map.2 ⟨j, hj, rfl⟩)), h1.2⟩
  · cases hp

/-- C179 is violated by ORDER BY: a table that is neither the primary table nor joined is ignored, the order is by the result column of the
name. -/
theorem C179_order_violated (o : Ops Val) (order : List Join.Name → List Join.Name) (fuel : Nat) (joins : List (Join.Join Val)) (q : Query S)
    (u n : Str) (hp : u ≠ q.table) (hu : String.ofList u ∉ joins.map (·.name)) (l1 l2 : List (Order.Item × Bool)) (d : Bool) :
    JoinSelect.compile py calls o order fuel joins { q with order := l1 ++ (.col (some u) n, d) :: l2 }
      = JoinSelect.compile py calls o order fuel joins { q with order := l1 ++ (.expr (some n), d) :: l2 } := by
  have hment : ∀ j ∈ joins, JoinSelect.mentions joins { q with order := l1 ++ (.col (some u) n, d) :: l2 } j.name
      = JoinSelect.mentions joins { q with order := l1 ++ (.expr (some n), d) :: l2 } j.name := by
    intro j hj
    have : String.ofList u ≠ j.name := fun e => hu (List.mem_map.2 ⟨j, hj, e.symm⟩)
    simp only [JoinSelect.mentions, List.any_append, List.any_cons, decide_eq_false this, Bool.false_or]
    rfl
  have hO : ∀ c : Order.Ctx, c.table = q.table → Order.compile c (l1 ++ (.col (some u) n, d) :: l2) = Order.compile c (l1 ++ (.expr (some n), d) :: l2) := by
    intro c hc
    have hadd : ∀ (l : List (Order.Item × Bool)) acc, Order.addItems c acc (l ++ (.col (some u) n, d) :: l2) = Order.addItems c acc (l ++ (.expr (some n), d) :: l2) := by
      intro l
      induction l with
      | nil =>
        intro acc
        have : Order.isPrimary c (some u) n = false := by simp [Order.isPrimary, hc, hp]
        simp only [List.nil_append, Order.addItems, Order.addItem, this, Bool.false_eq_true, if_false]
      | cons i l ih =>
        intro acc
        simp only [List.cons_append, Order.addItems]
        cases Order.addItem c acc i with
        | none => rfl
        | some a => exact ih a
    simp only [Order.compile, hadd]
  simp only [JoinSelect.compile]
  congr 1
  funext info
  have hk : joins.all (fun j => JoinSelect.keyFound info joins { q with order := l1 ++ (.col (some u) n, d) :: l2 } j && JoinSelect.refsKnown info (String.ofList q.table) (joins.map (·.name)) j)
      = joins.all (fun j => JoinSelect.keyFound info joins { q with order := l1 ++ (.expr (some n), d) :: l2 } j && JoinSelect.refsKnown info (String.ofList q.table) (joins.map (·.name)) j) := by
    rw [Bool.eq_iff_iff, List.all_eq_true, List.all_eq_true]
    constructor
    · intro h j hj
      have := h j hj
      simp only [JoinSelect.keyFound, hment j hj] at this ⊢
      exact this
    · intro h j hj
      have := h j hj
      simp only [JoinSelect.keyFound, hment j hj] at this ⊢
      exact this
  simp only [hk]
  congr 1
  simp only [JoinSelect.compileSelect]
  congr 1
  funext schema
  congr 1
  funext w
  congr 1
  funext ic
  rw [hO _ rfl]
  rfl

/-! ## Cases -/

/-- `SELECT a, B.v FROM t LEFT JOIN B ON B.i = t.a` with a column of `Z` in the select list, in the ON, in a condition of ON with a constant,
and in ORDER BY. -/
def zJoin (c : Cond Val) : Join.Join Val := ⟨"B", .left, [.cmp .eq (.col ⟨some "B", "i"⟩) (.col ⟨some "t", "a"⟩), c]⟩

example : JoinSelect.compile (S := Empty) py calls JoinCases.ops id 5 JoinCases.joins
    { JoinCases.q with cols := [(['z'], .expr (.cmp .eq (.col ['a']) (.col ['Z', '.', 'v'])))] } = none := by
  refine C179_unknown_refused py calls _ _ _ _ _ _ (.inl ⟨_, List.mem_cons_self⟩) ['Z', '.', 'v'] "Z" ?_ (show (JoinSelect.refOf ['Z', '.', 'v']).table = some "Z" by decide +kernel) (by decide)
  exact List.mem_cons_of_mem _ (List.mem_append_right _ List.mem_cons_self)

example : JoinSelect.compile py calls JoinCases.ops id 5 [zJoin (.cmp .lt (.col ⟨some "B", "v"⟩) (.col ⟨some "Z", "v"⟩))] JoinCases.q = none :=
  C179_on_refused_partial py calls _ _ _ _ _ (by decide) _ List.mem_cons_self _ (List.mem_cons_of_mem _ List.mem_cons_self)
    (.column .lt _ _ nofun (nomatch ·)) ⟨some "Z", "v"⟩ (List.mem_append_right _ List.mem_cons_self) "Z" rfl (by decide) (by decide)

/-- These are accepted: the hypothesis of `C179_constant_violated`, and both sides of `C179_order_violated`. -/
example : (JoinSelect.compile py calls JoinCases.ops id 5 [zJoin (.cmp .gt (.col ⟨some "Z", "v"⟩) (.const (.int 1)))] JoinCases.q).isSome = true ∧
    (JoinSelect.compile (S := Empty) py calls JoinCases.ops id 5 JoinCases.joins { JoinCases.q with order := [(.col (some ['Z']) ['v'], false)] }).isSome = true :=
  ⟨rfl, rfl⟩

end Verif.Props
