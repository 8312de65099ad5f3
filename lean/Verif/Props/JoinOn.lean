import Verif.Props.Join
/-! C53: the analysis of ON conditions.  C45: INNER JOIN. -/
namespace Verif.Props
open Verif.Join Verif.SqlJoin Verif.Proofs.Join

section
variable {V : Type}

theorem closed_eval (x : X V) (v : V) (h : closed x = some v) (env : Ref → V) : evalX env x = v := by
  induction x generalizing v with
  | col r => simp [closed] at h
  | const w => simpa [closed, evalX] using h
  | un f x ih =>
    cases hx : closed x with
    | none => simp [closed, hx] at h
    | some w => rw [evalX, ih w hx]; simpa [closed, hx] using h
  | bin f x y ihx ihy =>
    cases hx : closed x with
    | none => simp [closed, hx] at h
    | some w =>
      cases hy : closed y with
      | none => simp [closed, hx, hy] at h
      | some w' => rw [evalX, ihx w hx, ihy w' hy]; simpa [closed, hx, hy] using h
  | between f x y z ihx ihy ihz =>
    cases hx : closed x with
    | none => simp [closed, hx] at h
    | some w =>
      cases hy : closed y with
      | none => simp [closed, hx, hy] at h
      | some w' =>
        cases hz : closed z with
        | none => simp [closed, hx, hy, hz] at h
        | some w'' => rw [evalX, ihx w hx, ihy w' hy, ihz w'' hz]; simpa [closed, hx, hy, hz] using h
  | app f rs =>
    rw [closed] at h
    split at h
    · next e => subst e; cases h; rfl
    · cases h

theorem closed_iff (x : X V) : (closed x).isSome = true ↔ fields x = [] := by
  induction x with
  | col r => simp [closed, fields]
  | const w => simp [closed, fields]
  | un f x ih => rw [closed, Option.isSome_map, ih, fields]
  | bin f x y ihx ihy =>
    rw [fields, List.append_eq_nil_iff, ← ihx, ← ihy, closed]
    cases closed x <;> cases closed y <;> simp
  | between f x y z ihx ihy ihz =>
    rw [fields, List.append_eq_nil_iff, List.append_eq_nil_iff, ← ihx, ← ihy, ← ihz, closed]
    cases closed x <;> cases closed y <;> cases closed z <;> simp
  | app f rs => by_cases h : rs = [] <;> simp [closed, fields, h]

theorem evalX_withRow (env : Ref → V) (own : Name) (row : Row V) (x : X V) (h : ∀ r ∈ fields x, r.table ≠ some own) :
    evalX (withRow env own row) x = evalX env x := by
  induction x with
  | col r => rw [evalX, evalX, withRow, if_neg (h r (by simp [fields]))]
  | const w => rfl
  | un f x ih => rw [evalX, evalX, ih h]
  | bin f x y ihx ihy =>
    rw [evalX, evalX, ihx fun r hr => h r (by simp [fields, hr]), ihy fun r hr => h r (by simp [fields, hr])]
  | between f x y z ihx ihy ihz =>
    rw [evalX, evalX, ihx fun r hr => h r (by simp [fields, hr]), ihy fun r hr => h r (by simp [fields, hr]),
      ihz fun r hr => h r (by simp [fields, hr])]
  | app f rs => exact congrArg f (List.map_congr_left fun r hr => by rw [withRow, if_neg (h r hr)])

/-- No comparison of a column of another table with something that has no columns. -/
def OwnConst (own : Name) (c : Cond V) : Prop :=
  match c with
  | .cmp _ (.col a) r => fields r = [] → a.table = some own
  | .isin (.col a) _ => a.table = some own
  | _ => True

/-- An equation of a column of the joined table does not mention that table on its other side (otherwise the chain of tables
does not end: `C122_cycle_violated`). -/
def NoSelf (own : Name) (c : Cond V) : Prop :=
  match c with
  | .cmp .eq l r => (∀ k, l = .col ⟨some own, k⟩ → ∀ f ∈ fields r, f.table ≠ some own) ∧
    ∀ k, r = .col ⟨some own, k⟩ → ∀ f ∈ fields l, f.table ≠ some own
  | _ => True

theorem match_query (o : Ops V) (own : Name) (s : Table V) (env : Ref → V) (row : Row V) (c : Name) (q : V → Bool) :
    matches_ o own { s with querys := s.querys ++ [(c, q)] } env row = (matches_ o own s env row && q (row c)) := by
  simp only [matches_, List.all_append, List.all_cons, List.all_nil, Bool.and_true]
  ac_rfl

theorem match_having (o : Ops V) (own : Name) (s : Table V) (env : Ref → V) (row : Row V) (rs : List Ref) (x : X V) :
    matches_ o own { s with joinCols := rs, having := s.having ++ [x] } env row =
      (matches_ o own s env row && o.truthy (evalX (withRow env own row) x)) := by
  simp only [matches_, List.all_append, List.all_cons, List.all_nil, Bool.and_true]
  ac_rfl

theorem match_key (o : Ops V) (own : Name) (s s' : Table V) (env : Ref → V) (row : Row V) (k : Name) (x : X V) (rs : List Ref)
    (h : addKey s k x rs = some s') :
    matches_ o own s' env row = (matches_ o own s env row && o.truthy (o.cmp .eq (row k) (evalX env x))) := by
  rw [addKey] at h
  split at h
  · simp at h
  · cases h
    simp only [matches_, List.all_append, List.all_cons, List.all_nil, Bool.and_true]
    ac_rfl

theorem withRow_own (env : Ref → V) (own : Name) (row : Row V) (k : Name) : evalX (withRow env own row) (.col ⟨some own, k⟩) = row k := by
  simp [evalX, withRow]

theorem ownCol_some (own : Name) (x : X V) (k : Name) (h : ownCol own x = some k) : x = .col ⟨some own, k⟩ := by
  cases x with
  | col a =>
    obtain ⟨t, c⟩ := a
    simp only [ownCol] at h
    split at h
    · rename_i ht
      cases h
      rw [ht]
    · simp at h
  | _ => simp [ownCol] at h

theorem parseCond_match (o : Ops V) (hsym : ∀ a b, o.truthy (o.cmp .eq a b) = o.truthy (o.cmp .eq b a)) (own : Name) (s s' : Table V)
    (c : Cond V) (hc : OwnConst own c) (hs : NoSelf own c) (h : parseCond o own s c = some s') (env : Ref → V) (row : Row V) :
    matches_ o own s' env row = (matches_ o own s env row && o.truthy (evalX (withRow env own row) (condX o c))) := by
  have other : ∀ (op : Op) (l r : X V), c = .cmp op l r →
      addOther o own s c l r (fun w v => o.truthy (o.cmp op w v)) = some s' →
      matches_ o own s' env row = (matches_ o own s env row && o.truthy (evalX (withRow env own row) (condX o c))) := by
    intro op l r e h
    subst e
    cases l with
    | col a =>
      simp only [addOther] at h
      split at h
      · simp at h
      · cases hr : closed r with
        | some v =>
          rw [hr] at h
          cases h
          have hown : a.table = some own := hc ((closed_iff r).1 (by rw [hr]; rfl))
          obtain ⟨at', ac⟩ := a
          simp only at hown
          subst hown
          rw [match_query, condX, evalX, withRow_own, closed_eval r v hr]
        | none =>
          rw [hr] at h
          cases h
          rw [match_having]
    | const v => cases h; rw [match_having]
    | un f x => cases h; rw [match_having]
    | bin f x y => cases h; rw [match_having]
    | between f x y z => cases h; rw [match_having]
    | app f rs => cases h; rw [match_having]
  cases c with
  | cmp op l r =>
    rw [parseCond] at h
    split at h
    · rename_i hop
      subst hop
      cases hl : ownCol own l with
      | some k =>
        obtain rfl := ownCol_some own l k hl
        simp only [hl, addEq] at h
        cases hr : closed r with
        | some v =>
          rw [hr] at h
          cases h
          rw [match_query, condX, evalX, withRow_own, closed_eval r v hr]
        | none =>
          rw [hr] at h
          rw [match_key o own s s' env row k r _ h, condX, evalX, withRow_own, evalX_withRow _ _ _ _ (hs.1 k rfl)]
      | none =>
        simp only [hl] at h
        cases hr : ownCol own r with
        | some k =>
          obtain rfl := ownCol_some own r k hr
          simp only [hr, addEq] at h
          cases hcl : closed l with
          | some v =>
            rw [hcl] at h
            cases h
            rw [match_query, condX, evalX, withRow_own, closed_eval l v hcl, hsym]
          | none =>
            rw [hcl] at h
            rw [match_key o own s s' env row k l _ h, condX, evalX, withRow_own, evalX_withRow _ _ _ _ (hs.2 k rfl), hsym]
        | none =>
          simp only [hr] at h
          exact other .eq l r rfl h
    · exact other op l r rfl h
  | isin l vs =>
    cases l with
    | col a =>
      simp only [parseCond] at h
      split at h
      · simp at h
      · cases h
        have hown : a.table = some own := hc
        obtain ⟨at', ac⟩ := a
        simp only at hown
        subst hown
        rw [match_query, condX, evalX, withRow_own]
    | const v => cases h; rw [match_having]
    | un f x => cases h; rw [match_having]
    | bin f x y => cases h; rw [match_having]
    | between f x y z => cases h; rw [match_having]
    | app f rs => cases h; rw [match_having]
  | other x => cases h; rw [match_having]

/-- Nothing recorded yet. -/
def noTable : Table V := ⟨[], [], [], []⟩

/-- **C53**: a row of the joined table matches exactly when every conjunct of ON is true, for ON conditions that compare only the
joined table's own columns with constants. -/
theorem C53_on_partial (o : Ops V) (hsym : ∀ a b, o.truthy (o.cmp .eq a b) = o.truthy (o.cmp .eq b a)) (own : Name) (T : Table V)
    (cs : List (Cond V)) (hc : ∀ c ∈ cs, OwnConst own c ∧ NoSelf own c) (h : parseOn o own noTable cs = some T) (env : Ref → V)
    (row : Row V) :
    matches_ o own T env row = cs.all fun c => o.truthy (evalX (withRow env own row) (condX o c)) := by
  have key : ∀ (cs : List (Cond V)) (s : Table V), (∀ c ∈ cs, OwnConst own c ∧ NoSelf own c) → parseOn o own s cs = some T →
      matches_ o own T env row = (matches_ o own s env row && cs.all fun c => o.truthy (evalX (withRow env own row) (condX o c))) := by
    intro cs
    induction cs with
    | nil => intro s _ h; cases h; simp
    | cons c cs ih =>
      intro s hc h
      rw [parseOn] at h
      cases hp : parseCond o own s c with
      | none => simp [hp] at h
      | some s' =>
        simp only [hp, Option.bind_eq_bind, Option.bind_some] at h
        rw [ih s' (fun c' hc' => hc c' (by simp [hc'])) h,
          parseCond_match o hsym own s s' c (hc c (by simp)).1 (hc c (by simp)).2 hp, List.all_cons, Bool.and_assoc]
  rw [key cs noTable hc h]
  rfl

/-- Specification: the key column an equation of ON uses: `own.k = x` or `x = own.k` with columns in `x`. -/
def keyColumn (own : Name) : Cond V → Option Name
  | .cmp .eq (.col a) r => if a.table = some own then (if fields r = [] then none else some a.col) else
    match r with
    | .col b => if b.table = some own then some b.col else none
    | _ => none
  | .cmp .eq l (.col b) => if b.table = some own ∧ fields l ≠ [] then some b.col else none
  | _ => none

theorem addEq_some (o : Ops V) (s : Table V) (k : Name) (x : X V) (h : fields x ≠ [] → k ∉ s.keys.map (·.1)) :
    ∃ s', addEq o s k x = some s' ∧ s'.keys.map (·.1) = s.keys.map (·.1) ++ if fields x = [] then [] else [k] := by
  unfold addEq
  cases hc : closed x with
  | some v =>
    have : fields x = [] := (closed_iff x).1 (by simp [hc])
    exact ⟨_, rfl, by simp [this]⟩
  | none =>
    have hf : fields x ≠ [] := fun h0 => by
      have := (closed_iff x).2 h0
      simp [hc] at this
    exact ⟨_, by simp only [addKey, if_neg (h hf)]; rfl, by simp [hf]⟩

theorem addOther_some (o : Ops V) (own : Name) (s : Table V) (c : Cond V) (l r : X V) (q : V → V → Bool)
    (h : ∀ a, l = .col a → a.table ≠ none) :
    ∃ s', addOther o own s c l r q = some s' ∧ s'.keys = s.keys := by
  unfold addOther
  cases l with
  | col a =>
    simp only [if_neg (h a rfl)]
    cases closed r with
    | some v => exact ⟨_, rfl, rfl⟩
    | none => exact ⟨_, rfl, rfl⟩
  | const v => exact ⟨_, rfl, rfl⟩
  | un f x => exact ⟨_, rfl, rfl⟩
  | bin f x y => exact ⟨_, rfl, rfl⟩
  | between f x y z => exact ⟨_, rfl, rfl⟩
  | app f rs => exact ⟨_, rfl, rfl⟩

theorem parseCond_some (o : Ops V) (own : Name) (s : Table V) (c : Cond V) (hq : ∀ r ∈ condFields c, r.table ≠ none)
    (hk : ∀ k, keyColumn own c = some k → k ∉ s.keys.map (·.1)) :
    ∃ s', parseCond o own s c = some s' ∧ s'.keys.map (·.1) = s.keys.map (·.1) ++ (keyColumn own c).toList := by
  have other : ∀ op l r (q : V → V → Bool), c = .cmp op l r → keyColumn own c = none →
      ∃ s', addOther o own s c l r q = some s' ∧ s'.keys.map (·.1) = s.keys.map (·.1) ++ (keyColumn own c).toList := by
    intro op l r q hc hn
    obtain ⟨s', h1, h2⟩ := addOther_some o own s c l r q (by
      rintro a rfl
      exact hq a (by simp [hc, condFields, fields]))
    exact ⟨s', h1, by simp [h2, hn]⟩
  cases c with
  | cmp op l r =>
    simp only [parseCond]
    by_cases hop : op = .eq
    · subst hop
      simp only [if_true]
      cases hl : ownCol own l with
      | some k =>
        have e := ownCol_some own l k hl
        subst e
        have hkc : keyColumn own (.cmp .eq (.col ⟨some own, k⟩) r) = if fields r = [] then none else some k := by
          simp [keyColumn]
        obtain ⟨s', h1, h2⟩ := addEq_some o s k r fun hf => hk k (by rw [hkc, if_neg hf])
        refine ⟨s', h1, ?_⟩
        rw [h2, hkc]
        split <;> simp
      | none =>
        cases hr : ownCol own r with
        | some k =>
          have e := ownCol_some own r k hr
          subst e
          have hkc : keyColumn own (.cmp .eq l (.col ⟨some own, k⟩)) = if fields l = [] then none else some k := by
            cases l with
            | col a =>
              have : ¬ a.table = some own := fun h => by simp [ownCol, h] at hl
              simp [keyColumn, this, fields]
            | _ => simp only [keyColumn]; split <;> simp_all
          obtain ⟨s', h1, h2⟩ := addEq_some o s k l fun hf => hk k (by rw [hkc, if_neg hf])
          refine ⟨s', h1, ?_⟩
          rw [h2, hkc]
          split <;> simp
        | none =>
          refine other .eq l r _ rfl ?_
          cases l <;> cases r <;> simp_all [keyColumn, ownCol]
    · simp only [if_neg hop]
      refine other op l r _ rfl ?_
      cases op <;> first | exact absurd rfl hop | rfl
  | isin l vs =>
    simp only [parseCond]
    cases l with
    | col a =>
      have := hq a (by simp [condFields, fields])
      simp only [if_neg this]
      exact ⟨_, rfl, by simp [keyColumn]⟩
    | _ => exact ⟨_, rfl, by simp [keyColumn]⟩
  | other x => exact ⟨_, rfl, by simp [keyColumn]⟩

/-- **C53**, acceptance: an ON whose columns are all qualified, and in which no column of the joined table is equated with
columns twice, is accepted. -/
theorem C53_accepted (o : Ops V) (own : Name) (cs : List (Cond V)) (hq : ∀ c ∈ cs, ∀ r ∈ condFields c, r.table ≠ none)
    (hd : (cs.filterMap (keyColumn own)).Nodup) : (parseOn o own noTable cs).isSome = true := by
  have key : ∀ (cs : List (Cond V)) (s : Table V), (∀ c ∈ cs, ∀ r ∈ condFields c, r.table ≠ none) →
      (s.keys.map (·.1) ++ cs.filterMap (keyColumn own)).Nodup → (parseOn o own s cs).isSome = true := by
    intro cs
    induction cs with
    | nil => intro s _ _; rfl
    | cons c cs ih =>
      intro s hq hd
      have hfm : (c :: cs).filterMap (keyColumn own) = (keyColumn own c).toList ++ cs.filterMap (keyColumn own) := by
        cases h : keyColumn own c <;> simp [h]
      rw [hfm, ← List.append_assoc] at hd
      obtain ⟨s', h1, h2⟩ := parseCond_some o own s c (hq c (by simp)) (by
        intro k hk hm
        rw [hk] at hd
        have := (List.nodup_append.1 (List.nodup_append.1 hd).1).2.2 k hm k (by simp)
        exact this rfl)
      rw [parseOn, h1]
      exact ih s' (fun c hc => hq c (by simp [hc])) (by rw [h2]; exact hd)
  exact key cs noTable hq (by simpa [noTable] using hd)

/-- **C53 is violated by two equations of one column**: `ON b.id = a.x AND b.id = a.y` is refused. -/
theorem C53_two_equations_refused (o : Ops V) (own k : Name) (x y : X V) (hx : fields x ≠ []) (hy : fields y ≠ []) :
    parseOn o own noTable [.cmp .eq (.col ⟨some own, k⟩) x, .cmp .eq (.col ⟨some own, k⟩) y] = none := by
  have hc : ∀ z : X V, fields z ≠ [] → closed z = none := fun z hz => by
    cases h : closed z with
    | none => rfl
    | some v => exact absurd ((closed_iff z).1 (by simp [h])) hz
  simp [parseOn, parseCond, ownCol, addEq, hc x hx, hc y hy, addKey, noTable]

/-- The left side is a column, or the right side has columns of the joined table and of the primary table only. -/
def LeftKnown (primary own : Name) (c : Cond V) : Prop :=
  match c with
  | .cmp _ (.col _) _ => True
  | .cmp _ _ r => ∀ f ∈ fields r, f.table = none ∨ f.table = some primary ∨ f.table = some own
  | _ => True

/-- No BETWEEN in a conjunct. -/
def CondNoBetween : Cond V → Prop
  | .cmp _ l r => NoBetween l ∧ NoBetween r
  | .isin l _ => NoBetween l
  | .other x => NoBetween x

theorem condX_noBetween (o : Ops V) (c : Cond V) (h : CondNoBetween c) : NoBetween (condX o c) := by
  cases c with
  | cmp op l r => exact h
  | isin l vs => exact h
  | other x => exact h

theorem fields_condX (o : Ops V) (c : Cond V) : fields (condX o c) = condFields c := by
  cases c <;> rfl

theorem recorded_having (primary own : Name) (s : Table V) (h : Recorded primary own s) (rs : List Ref) (x : X V) (hx : NoBetween x)
    (hf : ∀ r ∈ fields x, r ∈ rs ∨ r.table = none ∨ r.table = some primary ∨ r.table = some own) :
    Recorded primary own { s with joinCols := s.joinCols ++ foreign own rs, having := s.having ++ [x] } := by
  have mono : ∀ r, Known primary s r →
      Known primary { s with joinCols := s.joinCols ++ foreign own rs, having := s.having ++ [x] } r := by
    rintro r (h | h | h)
    · exact Or.inl h
    · exact Or.inr (Or.inl h)
    · exact Or.inr (Or.inr (List.mem_append_left _ h))
  refine ⟨fun kx hk => ⟨(h.1 kx hk).1, fun r hr => mono r ((h.1 kx hk).2 r hr)⟩, fun y hy => ?_⟩
  rcases List.mem_append.1 hy with hy | hy
  · refine ⟨(h.2 y hy).1, fun r hr => ?_⟩
    rcases (h.2 y hy).2 r hr with h | h
    · exact Or.inl h
    · exact Or.inr (mono r h)
  · have : y = x := by simpa using hy
    subst this
    refine ⟨hx, fun r hr => ?_⟩
    by_cases hown : r.table = some own
    · exact Or.inl hown
    · right
      rcases hf r hr with h | h | h | h
      · refine Or.inr (Or.inr (List.mem_append_right _ ?_))
        rw [foreign, List.mem_filter]
        exact ⟨h, by simpa using hown⟩
      · exact Or.inl h
      · exact Or.inr (Or.inl h)
      · exact absurd h hown

theorem recorded_key (primary own : Name) (s s' : Table V) (h : Recorded primary own s) (k : Name) (x : X V) (hx : NoBetween x)
    (hk : addKey s k x (fields x) = some s') : Recorded primary own s' := by
  rw [addKey] at hk
  split at hk
  · simp at hk
  · cases hk
    have mono : ∀ r, Known primary s r →
        Known primary { s with joinCols := s.joinCols ++ fields x, keys := s.keys ++ [(k, x)] } r := by
      rintro r (h | h | h)
      · exact Or.inl h
      · exact Or.inr (Or.inl h)
      · exact Or.inr (Or.inr (List.mem_append_left _ h))
    refine ⟨fun kx hkx => ?_, fun y hy => ⟨(h.2 y hy).1, fun r hr => ?_⟩⟩
    · rcases List.mem_append.1 hkx with hkx | hkx
      · exact ⟨(h.1 kx hkx).1, fun r hr => mono r ((h.1 kx hkx).2 r hr)⟩
      · have : kx = (k, x) := by simpa using hkx
        subst this
        exact ⟨hx, fun r hr => Or.inr (Or.inr (List.mem_append_right _ hr))⟩
    · rcases (h.2 y hy).2 r hr with h | h
      · exact Or.inl h
      · exact Or.inr (mono r h)

theorem parseCond_recorded (o : Ops V) (primary own : Name) (s s' : Table V) (c : Cond V) (hk : LeftKnown primary own c)
    (hb : CondNoBetween c) (hs : Recorded primary own s) (h : parseCond o own s c = some s') : Recorded primary own s' := by
  have other : ∀ (op : Op) (l r : X V) (q : V → V → Bool), c = .cmp op l r → addOther o own s c l r q = some s' →
      Recorded primary own s' := by
    intro op l r q e h
    subst e
    have ho : ∀ l' : X V, l' = l → (∀ f ∈ fields r, f.table = none ∨ f.table = some primary ∨ f.table = some own) →
        some { s with joinCols := s.joinCols ++ foreign own (fields l), having := s.having ++ [condX o (.cmp op l r)] } = some s' →
        Recorded primary own s' := by
      intro l' _ hr h
      cases h
      refine recorded_having primary own s hs _ _ hb fun f hf => ?_
      rcases List.mem_append.1 hf with hf | hf
      · exact Or.inl hf
      · exact Or.inr (hr f hf)
    cases l with
    | col a =>
      simp only [addOther] at h
      split at h
      · simp at h
      · split at h
        · cases h; exact hs
        · cases h
          refine recorded_having primary own s hs _ _ hb fun f hf => ?_
          rcases List.mem_append.1 hf with hf | hf
          · exact Or.inl (List.mem_append_right _ hf)
          · exact Or.inl (List.mem_append_left _ hf)
    | const v => exact ho _ rfl hk h
    | un f x => exact ho _ rfl hk h
    | bin f x y => exact ho _ rfl hk h
    | between f x y z => exact ho _ rfl hk h
    | app f rs => exact ho _ rfl hk h
  cases c with
  | cmp op l r =>
    rw [parseCond] at h
    split at h
    · split at h
      · rw [addEq] at h
        split at h
        · cases h; exact hs
        · exact recorded_key primary own s s' hs _ r hb.2 h
      · split at h
        · rw [addEq] at h
          split at h
          · cases h; exact hs
          · exact recorded_key primary own s s' hs _ l hb.1 h
        · exact other _ l r _ rfl h
    · exact other op l r _ rfl h
  | isin l vs =>
    have ho : some { s with joinCols := s.joinCols ++ foreign own (fields l), having := s.having ++ [condX o (.isin l vs)] } = some s' →
        Recorded primary own s' := by
      intro h
      cases h
      exact recorded_having primary own s hs _ _ hb fun f hf => Or.inl hf
    cases l with
    | col a =>
      simp only [parseCond] at h
      split at h
      · simp at h
      · cases h; exact hs
    | const v => exact ho h
    | un f x => exact ho h
    | bin f x y => exact ho h
    | between f x y z => exact ho h
    | app f rs => exact ho h
  | other x =>
    cases h
    exact recorded_having primary own s hs _ _ hb fun f hf => Or.inl hf

/-- **C53**: ON records every table it needs (what `C122_value_partial` asks for), when the columns on the right side of a comparison
whose left side is not a column are those of the joined and of the primary table. -/
theorem C53_recorded_partial (o : Ops V) (primary own : Name) (T : Table V) (cs : List (Cond V))
    (hc : ∀ c ∈ cs, LeftKnown primary own c ∧ CondNoBetween c) (h : parseOn o own noTable cs = some T) : Recorded primary own T := by
  have key : ∀ (cs : List (Cond V)) (s : Table V), (∀ c ∈ cs, LeftKnown primary own c ∧ CondNoBetween c) →
      Recorded primary own s → parseOn o own s cs = some T → Recorded primary own T := by
    intro cs
    induction cs with
    | nil => intro s _ hs h; cases h; exact hs
    | cons c cs ih =>
      intro s hc hs h
      rw [parseOn] at h
      cases hp : parseCond o own s c with
      | none => simp [hp] at h
      | some s' =>
        simp only [hp, Option.bind_eq_bind, Option.bind_some] at h
        exact ih s' (fun c' hc' => hc c' (by simp [hc']))
          (parseCond_recorded o primary own s s' c (hc c (by simp)).1 (hc c (by simp)).2 hs hp) h
  refine key cs noTable hc ⟨?_, ?_⟩ h <;> simp [noTable]

end

/-- The operators on numbers, 0 is false and NULL. -/
def natOps : Ops Nat where
  cmp op a b := match op with
    | .eq => if a = b then 1 else 0
    | .ne => if a ≠ b then 1 else 0
    | .gt => if a > b then 1 else 0
    | .ge => if a ≥ b then 1 else 0
    | .lt => if a < b then 1 else 0
    | .le => if a ≤ b then 1 else 0
  isin v vs := if v ∈ vs then 1 else 0
  truthy v := v != 0

/-- **C53 is violated by a condition on another table**: in `a LEFT JOIN b ON b.id = a.id AND a.kind = 1` the condition `a.kind = 1`
is applied to the column `kind` of `b`. -/
theorem C53_other_table_violated :
    let cs : List (Cond Nat) := [.cmp .eq (.col ⟨some "b", "id"⟩) (.col ⟨some "a", "id"⟩), .cmp .eq (.col ⟨some "a", "kind"⟩) (.const 1)]
    let a : Ref → Nat := fun r => if r = ⟨some "a", "id"⟩ then 5 else if r = ⟨some "a", "kind"⟩ then 1 else 0
    let b : Row Nat := fun n => if n = "id" then 5 else if n = "kind" then 2 else 0
    (parseOn natOps "b" noTable cs).map (fun T => matches_ natOps "b" T a b) = some false ∧
    cs.all (fun c => natOps.truthy (evalX (withRow a "b" b) (condX natOps c))) = true := by
  decide +kernel

/-- **C53 is violated by a column on the right** of something that is not a column: `b JOIN … ON b.id = a.id AND b.x + 1 > c.y`
does not record that it needs `c`, and a column of `b` does not compile. -/
theorem C53_right_side_violated :
    let cs : List (Cond Nat) := [.cmp .eq (.col ⟨some "b", "id"⟩) (.col ⟨some "a", "id"⟩),
      .cmp .gt (.un (· + 1) (.col ⟨some "b", "x"⟩)) (.col ⟨some "c", "y"⟩)]
    (parseOn natOps "b" noTable cs).map (refs "a") = some [] ∧
    ∀ T, parseOn natOps "b" noTable cs = some T →
      (compileColumn "a" (fun _ => T) ["b"] (.col ⟨some "b", "v"⟩)).isNone = true := by
  refine ⟨by decide +kernel, fun T h => ?_⟩
  cases h
  decide +kernel

/-- C53 on `b.id = a.id AND b.v > 3 AND c.w < b.v`. -/
def exOn : List (Cond Nat) := [.cmp .eq (.col ⟨some "b", "id"⟩) (.col ⟨some "a", "id"⟩), .cmp .gt (.col ⟨some "b", "v"⟩) (.const 3),
  .cmp .lt (.col ⟨some "c", "w"⟩) (.col ⟨some "b", "v"⟩)]

example : (∀ a b, natOps.truthy (natOps.cmp .eq a b) = natOps.truthy (natOps.cmp .eq b a)) ∧
    (∀ c ∈ exOn, (OwnConst "b" c ∧ NoSelf "b" c) ∧ LeftKnown "a" "b" c ∧ CondNoBetween c) ∧
    (parseOn natOps "b" noTable exOn).isSome = true := by
  refine ⟨fun a b => ?_, fun c hc => ?_, by decide +kernel⟩
  · simp only [natOps]
    by_cases h : a = b
    · simp [h]
    · simp [h, Ne.symm h]
  · simp only [exOn, List.mem_cons, List.not_mem_nil, or_false] at hc
    rcases hc with rfl | rfl | rfl
    · refine ⟨⟨?_, ?_, ?_⟩, trivial, trivial, trivial⟩
      · simp [OwnConst, fields]
      · intro k _ f hf
        simp only [fields, List.mem_singleton] at hf
        subst hf; decide
      · intro k hk
        simp at hk
    · exact ⟨⟨by simp [OwnConst], trivial⟩, trivial, trivial, trivial⟩
    · exact ⟨⟨by simp [OwnConst, fields], trivial⟩, trivial, trivial, trivial⟩

/-! ## C45 -/

section
variable {V : Type} [DecidableEq V]

/-- Every join is tied to the primary table by a comparison of its own column. -/
def Linked (primary : Name) (j : Join V) : Prop :=
  ∃ c ∈ j.on, ∃ x, ComparesOwn j.name c x ∧ ∃ r ∈ fields x, r.table = some primary

/-- A true comparison has no NULL among its columns (a comparison of columns, or of expressions without IFNULL and the like). -/
def Strict (null : V) (o : Ops V) (primary : Name) (j : Join V) : Prop :=
  ∀ c ∈ j.on, LinksOwn j.name c → ∀ e : Env V, o.truthy (evalX (refVal primary e) (condX o c)) = true →
    ∀ r ∈ condFields c, refVal primary e r ≠ null

theorem ownCol_own (own k : Name) : ownCol own (.col ⟨some own, k⟩ : X V) = some k := by simp [ownCol]

theorem onExpr_iff (own : Name) (c : Cond V) : (onExpr own c).isSome = true ↔ LinksOwn own c := by
  constructor
  · intro h
    cases c with
    | cmp op l r =>
      simp only [onExpr] at h
      cases hl : ownCol own l with
      | some k =>
        have e := ownCol_some own l k hl
        subst e
        refine ⟨r, .left op k r, fun h0 => ?_⟩
        simp [hl, h0] at h
      | none =>
        cases hr : ownCol own r with
        | some k =>
          have e := ownCol_some own r k hr
          subst e
          refine ⟨l, .right op k l, fun h0 => ?_⟩
          simp [hl, hr, h0] at h
        | none => simp [hl, hr] at h
    | isin l vs => simp [onExpr] at h
    | other x => simp [onExpr] at h
  · rintro ⟨x, hx, hf⟩
    cases hx with
    | left op k x => simp [onExpr, ownCol_own, hf]
    | right op k x =>
      simp only [onExpr]
      cases hl : ownCol own x with
      | some m => simp [fields]
      | none => simp [ownCol_own, hf]

theorem onExpr_tables (own primary : Name) (hp : own ≠ primary) (c : Cond V) (x : X V) (hx : ComparesOwn own c x)
    (r : Ref) (hr : r ∈ fields x) (ht : r.table = some primary) : ∃ ts, onExpr own c = some ts ∧ some primary ∈ ts := by
  have hf : fields x ≠ [] := fun h => by simp [h] at hr
  have hm : some primary ∈ (fields x).map (·.table) := List.mem_map.2 ⟨r, hr, ht⟩
  cases hx with
  | left op k x => exact ⟨_, by simp [onExpr, ownCol_own, hf], hm⟩
  | right op k x =>
    have hl : ownCol own x = none := by
      cases hl : ownCol own x with
      | none => rfl
      | some m =>
        have e := ownCol_some own x m hl
        subst e
        simp only [fields, List.mem_singleton] at hr
        subst hr
        simp only [Option.some.injEq] at ht
        exact absurd ht hp
    exact ⟨_, by simp [onExpr, hl, ownCol_own, hf], hm⟩

/-- The tables have different names, and ON uses those on its left only. -/
def Scoped (primary : Name) : List (Join V) → Prop
  | [] => True
  | j :: js => j.name ≠ primary ∧ (∀ k ∈ js, k.name ≠ j.name ∧ ∀ c ∈ j.on, ∀ r ∈ condFields c, r.table ≠ some k.name) ∧ Scoped primary js

/-- The IS NOT NULL columns of one join. -/
def fieldsOf (primary : Name) (j : Join V) : List Ref :=
  let ons := j.on.filter fun c => (onExpr j.name c).isSome
  (if (ons.any fun c => ((onExpr j.name c).getD []).contains (some primary)) = true then ons.flatMap condFields else []).filter
    fun r => match r.table with | some t => decide (t ≠ primary) | none => false

theorem innerFields_cons (primary : Name) (j : Join V) (js : List (Join V)) :
    innerFields primary (j :: js) = fieldsOf primary j ++ innerFields primary js := by
  rw [innerFields, List.flatMap_cons, List.filter_append]
  rfl

theorem onExpr_own (own : Name) (c : Cond V) (h : (onExpr own c).isSome = true) : ∃ k, (⟨some own, k⟩ : Ref) ∈ condFields c := by
  cases c with
  | cmp op l r =>
    have own? : ∀ x : X V, (ownCol own x).isSome = true → ∃ k, (⟨some own, k⟩ : Ref) ∈ fields x := by
      intro x hx
      obtain ⟨k, hk⟩ := Option.isSome_iff_exists.1 hx
      exact ⟨k, by rw [ownCol_some own x k hk]; simp [fields]⟩
    simp only [onExpr] at h
    by_cases hl : (ownCol own l).isSome = true
    · obtain ⟨k, hk⟩ := own? l hl
      exact ⟨k, by simp [condFields, hk]⟩
    · by_cases hr : (ownCol own r).isSome = true
      · obtain ⟨k, hk⟩ := own? r hr
        exact ⟨k, by simp [condFields, hk]⟩
      · simp [hl, hr] at h
  | isin l vs => simp [onExpr] at h
  | other x => simp [onExpr] at h

theorem fieldsOf_own (primary : Name) (j : Join V) (hp : j.name ≠ primary) (hl : Linked primary j) :
    ∃ k, (⟨some j.name, k⟩ : Ref) ∈ fieldsOf primary j := by
  obtain ⟨c, hc, x, hx, r, hr, ht⟩ := hl
  obtain ⟨ts, hts, hp'⟩ := onExpr_tables j.name primary hp c x hx r hr ht
  have hs : (onExpr j.name c).isSome = true := by rw [hts]; rfl
  obtain ⟨k, hk⟩ := onExpr_own j.name c hs
  refine ⟨k, ?_⟩
  have hmem : c ∈ j.on.filter fun c => (onExpr j.name c).isSome := List.mem_filter.2 ⟨hc, hs⟩
  have hany : ((j.on.filter fun c => (onExpr j.name c).isSome).any
      fun c => ((onExpr j.name c).getD []).contains (some primary)) = true := by
    rw [List.any_eq_true]
    exact ⟨c, hmem, by rw [hts]; simpa using hp'⟩
  rw [fieldsOf]
  simp only [hany, if_true, List.mem_filter]
  exact ⟨List.mem_flatMap.2 ⟨c, hmem, hk⟩, by simpa using hp⟩

theorem fieldsOf_sub (primary : Name) (j : Join V) (r : Ref) (h : r ∈ fieldsOf primary j) :
    ∃ c ∈ j.on, (onExpr j.name c).isSome = true ∧ r ∈ condFields c := by
  rw [fieldsOf] at h
  simp only [List.mem_filter] at h
  obtain ⟨h, _⟩ := h
  split at h
  · obtain ⟨c, hc, hr⟩ := List.mem_flatMap.1 h
    rw [List.mem_filter] at hc
    exact ⟨c, hc.1, hc.2, hr⟩
  · cases h

theorem fieldsOf_table (primary : Name) (j : Join V) (r : Ref) (h : r ∈ fieldsOf primary j) : ∃ t, r.table = some t := by
  rw [fieldsOf] at h
  simp only [List.mem_filter] at h
  cases ht : r.table with
  | some t => exact ⟨t, rfl⟩
  | none => simp [ht] at h

/-- Later joins do not change the rows of the tables already there. -/
theorem leftAll_agree (null : V) (o : Ops V) (primary : Name) (db : Name → List (Row V)) (js : List (Join V)) (t : Name)
    (ht : ∀ k ∈ js, k.name ≠ t) (e e' : Env V) (h : e' ∈ leftAll null o primary db js e) : e' t = e t := by
  induction js generalizing e with
  | nil => simp only [leftAll, List.mem_singleton] at h; rw [h]
  | cons j js ih =>
    rw [leftAll, List.mem_flatMap] at h
    obtain ⟨e1, h1, h2⟩ := h
    rw [ih (fun k hk => ht k (by simp [hk])) e1 h2]
    have hne : t ≠ j.name := fun e => ht j (by simp) e.symm
    simp only [leftStep] at h1
    split at h1
    · simp only [List.mem_singleton] at h1
      rw [h1, upd, if_neg hne]
    · rw [joined, List.mem_filter, List.mem_map] at h1
      obtain ⟨⟨row, _, rfl⟩, _⟩ := h1
      rw [upd, if_neg hne]

theorem filter_leftAll (null : V) (o : Ops V) (primary : Name) (db : Name → List (Row V)) (js : List (Join V))
    (hk : ∀ j ∈ js, j.kind = .inner) (hl : ∀ j ∈ js, Linked primary j) (hst : ∀ j ∈ js, Strict null o primary j)
    (hsc : Scoped primary js) (wher : Env V → Bool) (e : Env V) :
    (leftAll null o primary db js e).filter (fun e' => wher e' && (innerFields primary js).all fun r => decide (refVal primary e' r ≠ null))
      = (rows null o primary db js e).filter wher := by
  induction js generalizing e with
  | nil => simp [leftAll, rows, innerFields]
  | cons j js ih =>
    obtain ⟨hjp, hfresh, hsc'⟩ := hsc
    have hm : step null o primary db j e = joined o primary db j e := by
      rw [step, hk j (by simp)]; rfl
    rw [leftAll, rows, hm, List.filter_flatMap, List.filter_flatMap, innerFields_cons]
    have hagree : ∀ e1 e' : Env V, e' ∈ leftAll null o primary db js e1 → ∀ r ∈ fieldsOf primary j,
        refVal primary e' r = refVal primary e1 r := by
      intro e1 e' he r hr
      obtain ⟨c, hc, _, hrc⟩ := fieldsOf_sub primary j r hr
      obtain ⟨t, ht⟩ := fieldsOf_table primary j r hr
      rw [refVal, refVal, ht]
      simp only [Option.getD_some]
      rw [leftAll_agree null o primary db js t (fun k hk' e => (hfresh k hk').2 c hc r hrc (by rw [ht, e])) e1 e' he]
    simp only [leftStep]
    split
    · rename_i hnil
      rw [hnil, List.flatMap_nil, List.flatMap_cons, List.flatMap_nil, List.append_nil, List.filter_eq_nil_iff]
      intro e' he
      obtain ⟨k, hk'⟩ := fieldsOf_own primary j hjp (hl j (by simp))
      have hv := hagree _ e' he _ hk'
      have hn : refVal primary (upd e j.name fun _ => null) ⟨some j.name, k⟩ = null := by simp [refVal, upd]
      rw [hn] at hv
      simp only [Bool.and_eq_true, List.all_eq_true, decide_eq_true_eq, not_and]
      intro _ hall
      exact hall _ (List.mem_append_left _ hk') hv
    · rw [List.flatMap_def, List.flatMap_def]
      congr 1
      refine List.map_congr_left fun e1 he1 => ?_
      rw [← ih (fun j' h => hk j' (by simp [h])) (fun j' h => hl j' (by simp [h])) (fun j' h => hst j' (by simp [h])) hsc' e1]
      refine List.filter_congr fun e' he => ?_
      have hall : ((fieldsOf primary j).all fun r => decide (refVal primary e' r ≠ null)) = true := by
        rw [List.all_eq_true]
        intro r hr
        rw [decide_eq_true_eq, hagree e1 e' he r hr]
        obtain ⟨c, hc, hs, hrc⟩ := fieldsOf_sub primary j r hr
        refine hst j (by simp) c hc ((onExpr_iff _ _).1 hs) e1 ?_ r hrc
        rw [joined, List.mem_filter, List.all_eq_true] at he1
        exact he1.2 c hc
      rw [List.all_append, hall, Bool.true_and]

/-- **C45**: a query of INNER JOINs, each tied to the primary table by a comparison and with comparisons that are strict, returns
exactly the rows of the inner joins, in order. -/
theorem C45_inner_partial (null : V) (o : Ops V) (primary : Name) (db : Name → List (Row V)) (js : List (Join V)) (hne : js ≠ [])
    (hk : ∀ j ∈ js, j.kind = .inner) (hl : ∀ j ∈ js, Linked primary j) (hst : ∀ j ∈ js, Strict null o primary j)
    (hsc : Scoped primary js) (wher : Env V → Bool) (e : Env V) :
    run null o primary db js wher e = some ((rows null o primary db js e).filter wher) := by
  cases js with
  | nil => exact absurd rfl hne
  | cons j js =>
    have hany : ((j :: js).any fun j => decide (j.kind = .inner)) = true := by
      rw [List.any_cons, decide_eq_true (hk j (by simp)), Bool.true_or]
    have hfs : innerFields primary (j :: js) ≠ [] := by
      obtain ⟨k, hk'⟩ := fieldsOf_own primary j hsc.1 (hl j (by simp))
      intro h
      rw [innerFields_cons] at h
      rw [(List.append_eq_nil_iff.1 h).1] at hk'
      cases hk'
    rw [run]
    simp only [hany, if_true, if_neg hfs]
    rw [filter_leftAll null o primary db (j :: js) hk hl hst hsc wher e]

/-- **C45** for queries of LEFT JOINs only. -/
theorem C45_left (null : V) (o : Ops V) (primary : Name) (db : Name → List (Row V)) (js : List (Join V))
    (hk : ∀ j ∈ js, j.kind = .left) (wher : Env V → Bool) (e : Env V) :
    run null o primary db js wher e = some ((rows null o primary db js e).filter wher) := by
  have hany : (js.any fun j => decide (j.kind = .inner)) = false := by
    rw [List.any_eq_false]
    intro j hj
    rw [hk j hj]; decide
  rw [run]
  simp only [hany, Bool.false_eq_true, if_false]
  congr 2
  clear hany
  induction js generalizing e with
  | nil => rfl
  | cons j js ih =>
    rw [leftAll, rows]
    have : step null o primary db j e = leftStep null o primary db j e := by
      rw [step, hk j (by simp)]; rfl
    rw [this, List.flatMap_def, List.flatMap_def]
    congr 1
    exact List.map_congr_left fun e1 _ => ih (fun j' h => hk j' (by simp [h])) e1

end

section

/-- Rows of the examples: columns `id`, `x`, `y`. -/
def exRow (a b c : Nat) : Row Nat := fun n => if n = "id" then a else if n = "x" then b else if n = "y" then c else 0

def exA : Env Nat := fun t => if t = "a" then exRow 1 2 3 else exRow 0 0 0

/-- `b.id = a.id`. -/
def bOnA : Cond Nat := .cmp .eq (.col ⟨some "b", "id"⟩) (.col ⟨some "a", "id"⟩)
def cOnA : Cond Nat := .cmp .eq (.col ⟨some "c", "id"⟩) (.col ⟨some "a", "id"⟩)
def cOnB : Cond Nat := .cmp .eq (.col ⟨some "c", "id"⟩) (.col ⟨some "b", "x"⟩)

/-- **C45 is violated by LEFT JOIN beside INNER JOIN**: `a INNER JOIN b ON b.id = a.id LEFT JOIN c ON c.id = a.id` loses the row of
`a` and `b` when `c` has no match. -/
theorem C45_left_join_violated :
    let db : Name → List (Row Nat) := fun t => if t = "b" then [exRow 1 1 1] else []
    let js : List (Join Nat) := [⟨"b", .inner, [bOnA]⟩, ⟨"c", .left, [cOnA]⟩]
    (run 0 natOps "a" db js (fun _ => true) exA).map List.length = some 0 ∧
    ((rows 0 natOps "a" db js exA).filter fun _ => true).length = 1 := by
  decide +kernel

/-- **C45 is violated by an INNER JOIN that is tied to another joined table only**: `a INNER JOIN b ON b.id = a.id INNER JOIN c ON
c.id = b.x` keeps the row of `a` and `b` when `c` has no match. -/
theorem C45_indirect_violated :
    let db : Name → List (Row Nat) := fun t => if t = "b" then [exRow 1 7 1] else []
    let js : List (Join Nat) := [⟨"b", .inner, [bOnA]⟩, ⟨"c", .inner, [cOnB]⟩]
    (run 0 natOps "a" db js (fun _ => true) exA).map List.length = some 1 ∧
    ((rows 0 natOps "a" db js exA).filter fun _ => true).length = 0 := by
  decide +kernel

/-- **C45 is violated by JOIN without INNER**, which keeps unmatched rows. -/
theorem C45_plain_join_violated :
    let js : List (Join Nat) := [⟨"b", .plain, [bOnA]⟩]
    (run 0 natOps "a" (fun _ => []) js (fun _ => true) exA).map List.length = some 1 ∧
    ((rows 0 natOps "a" (fun _ => []) js exA).filter fun _ => true).length = 0 := by
  decide +kernel

/-- **C45 is violated by comparisons that are not strict**: `a INNER JOIN b ON b.id = IFNULL(b.x, a.id)` loses the matches in which
`b.x` is NULL. -/
theorem C45_ifnull_violated :
    let db : Name → List (Row Nat) := fun t => if t = "b" then [exRow 1 0 1] else []
    let js : List (Join Nat) := [⟨"b", .inner, [.cmp .eq (.col ⟨some "b", "id"⟩)
      (.bin (fun v w => if v = 0 then w else v) (.col ⟨some "b", "x"⟩) (.col ⟨some "a", "id"⟩))]⟩]
    (run 0 natOps "a" db js (fun _ => true) exA).map List.length = some 0 ∧
    ((rows 0 natOps "a" db js exA).filter fun _ => true).length = 1 := by
  decide +kernel

/-- Comparison of numbers where 0 is NULL. -/
def sqlOps : Ops Nat := { natOps with cmp := fun op a b => if a = 0 ∨ b = 0 then 0 else natOps.cmp op a b }

/-- C45 on `a INNER JOIN b ON b.id = a.id INNER JOIN c ON c.id = a.id`. -/
example : Linked "a" (⟨"b", .inner, [bOnA]⟩ : Join Nat) ∧ Strict 0 sqlOps "a" ⟨"b", .inner, [bOnA]⟩ ∧
    Scoped "a" [(⟨"b", .inner, [bOnA]⟩ : Join Nat), ⟨"c", .inner, [cOnA]⟩] := by
  refine ⟨⟨bOnA, by simp, _, .left _ _ _, ⟨some "a", "id"⟩, by simp [fields], rfl⟩, ?_, ⟨by decide, ?_, by decide, by simp, trivial⟩⟩
  · intro c hc _ e h r hr
    simp only [List.mem_singleton] at hc
    subst hc
    have h : natOps.truthy (if refVal "a" e ⟨some "b", "id"⟩ = 0 ∨ refVal "a" e ⟨some "a", "id"⟩ = 0 then 0
      else natOps.cmp .eq (refVal "a" e ⟨some "b", "id"⟩) (refVal "a" e ⟨some "a", "id"⟩)) = true := h
    have h' : ¬ (refVal "a" e ⟨some "b", "id"⟩ = 0 ∨ refVal "a" e ⟨some "a", "id"⟩ = 0) := by
      intro h0
      rw [if_pos h0] at h
      simp [natOps] at h
    rw [not_or] at h'
    simp only [bOnA, condFields, fields, List.cons_append, List.nil_append, List.mem_cons, List.not_mem_nil, or_false] at hr
    rcases hr with rfl | rfl
    · exact h'.1
    · exact h'.2
  · intro k hk
    simp only [List.mem_singleton] at hk
    subst hk
    refine ⟨by decide, fun c hc r hr => ?_⟩
    simp only [List.mem_singleton] at hc
    subst hc
    simp only [bOnA, condFields, fields, List.cons_append, List.nil_append, List.mem_cons, List.not_mem_nil, or_false] at hr
    rcases hr with rfl | rfl <;> decide

end

end Verif.Props
