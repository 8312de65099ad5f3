import Verif.Model.Into
/-! Property theorems C13: the shape of `SELECT ... INTO` variables. -/
namespace Verif.Props
open Verif.Env Verif.Into

variable {V : Type} [DecidableEq V]

theorem into_single (null : V) (keys : List Key) (v : Key) (datas : List (Row V)) (env : Dict Key (Stored V)) :
    ∃ env', selectInto null keys [v] datas env = some env' ∧
      env'.get? v = some (shape null keys true datas) ∧ ∀ k, k ≠ v → env'.get? k = env.get? k := by
  have hs : (((start null [v] env).get? v).isSome) ∧ ∀ k, k ≠ v → (start null [v] env).get? k = env.get? k := by
    simp only [start, List.foldl_cons, List.foldl_nil]
    split
    · next h => exact ⟨h, fun _ _ => rfl⟩
    · exact ⟨by simp, fun k hk => Dict.get?_set_ne _ _ (Ne.symm hk)⟩
  unfold selectInto assign
  simp only [List.length_singleton, decide_true]
  split
  · next h =>
    rw [if_pos hs.1]
    exact ⟨_, rfl, by simp [h], fun k hk => by rw [Dict.get?_set_ne _ _ (Ne.symm hk), hs.2 k hk]⟩
  · exact ⟨_, rfl, by simp, fun k hk => by rw [Dict.get?_set_ne _ _ (Ne.symm hk), hs.2 k hk]⟩

/-- **C13**, one column: one row stores the scalar (NULL if the row lacks the column). -/
theorem C13_scalar (null : V) (k v : Key) (r : Row V) (env : Dict Key (Stored V)) :
    ∃ env', selectInto null [k] [v] [r] env = some env' ∧ env'.get? v = some (.scalar ((r.get? k).getD null)) ∧
      ∀ k', k' ≠ v → env'.get? k' = env.get? k' := into_single null [k] v [r] env

/-- **C13**, one column, zero or several rows all having the column: the list of the rows' values, in row order. -/
theorem C13_column (null : V) (k v : Key) (datas : List (Row V)) (env : Dict Key (Stored V))
    (hn : datas.length ≠ 1) (hk : ∀ r ∈ datas, (r.get? k).isSome) :
    ∃ env' vs, selectInto null [k] [v] datas env = some env' ∧ env'.get? v = some (.column vs) ∧
      vs.length = datas.length ∧ (∀ (i : Nat) (r : Row V), datas[i]? = some r → vs[i]? = r.get? k) ∧
      ∀ k', k' ≠ v → env'.get? k' = env.get? k' := by
  obtain ⟨env', h1, h2, h3⟩ := into_single null [k] v datas env
  refine ⟨env', datas.filterMap fun r => r.get? k, h1, ?_, ?_, ?_, h3⟩
  · rw [h2]
    match datas, hn with
    | [], _ => rfl
    | [_], hn => simp at hn
    | _ :: _ :: _, _ => rfl
  · clear h1 h2 hn
    induction datas with
    | nil => rfl
    | cons r rs ih =>
      obtain ⟨x, hx⟩ := Option.isSome_iff_exists.mp (hk r (by simp))
      simp only [List.filterMap_cons, hx]
      simp [ih (fun r h => hk r (by simp [h]))]
  · clear h1 h2 hn
    induction datas with
    | nil => simp
    | cons r rs ih =>
      obtain ⟨x, hx⟩ := Option.isSome_iff_exists.mp (hk r (by simp))
      simp only [List.filterMap_cons, hx]
      intro i r' hr'
      cases i with
      | zero => simp at hr'; subst hr'; simp [hx]
      | succ i => simp at hr' ⊢; exact ih (fun r h => hk r (by simp [h])) i r' hr'

theorem get?_project (null : V) (keys : List Key) (r : Row V) (k : Key) (hk : k ∈ keys) :
    (project null keys r).get? k = some ((r.get? k).getD null) := by
  induction keys with
  | nil => simp at hk
  | cons k' keys ih =>
    simp only [project, List.map_cons, Dict.get?]
    split
    · next e => subst e; rfl
    · next e =>
      apply ih
      rcases List.mem_cons.mp hk with h | h
      · exact absurd h.symm e
      · exact h

/-- **C13**, several columns, one row: a mapping with exactly the columns, NULL for those the row lacks. -/
theorem C13_mapping (null : V) (keys : List Key) (h2 : 2 ≤ keys.length) (v : Key) (r : Row V)
    (env : Dict Key (Stored V)) :
    ∃ env' d, selectInto null keys [v] [r] env = some env' ∧ env'.get? v = some (.row d) ∧ d.keys = keys ∧
      (∀ k ∈ keys, d.get? k = some ((r.get? k).getD null)) ∧ ∀ k', k' ≠ v → env'.get? k' = env.get? k' := by
  obtain ⟨env', h1, h3, h4⟩ := into_single null keys v [r] env
  refine ⟨env', project null keys r, h1, ?_, ?_, fun k hk => get?_project null keys r k hk, h4⟩
  · rw [h3]
    match keys, h2 with
    | _ :: _ :: _, _ => rfl
  · simp [project, Dict.keys, Function.comp_def]

/-- **C13**, several columns, zero or several rows: the list of such mappings, in row order. -/
theorem C13_mappings (null : V) (keys : List Key) (h2 : 2 ≤ keys.length) (v : Key) (datas : List (Row V))
    (hn : datas.length ≠ 1) (env : Dict Key (Stored V)) :
    ∃ env' ds, selectInto null keys [v] datas env = some env' ∧ env'.get? v = some (.rows ds) ∧
      ds.length = datas.length ∧
      (∀ (i : Nat) (r : Row V), datas[i]? = some r → ∃ d, ds[i]? = some d ∧ d.keys = keys ∧
        ∀ k ∈ keys, d.get? k = some ((r.get? k).getD null)) ∧
      ∀ k', k' ≠ v → env'.get? k' = env.get? k' := by
  obtain ⟨env', h1, h3, h4⟩ := into_single null keys v datas env
  refine ⟨env', datas.map (project null keys), h1, ?_, by simp, ?_, h4⟩
  · rw [h3]
    match keys, h2, datas, hn with
    | _ :: _ :: _, _, [], _ => rfl
    | _ :: _ :: _, _, [_], hn => simp at hn
    | _ :: _ :: _, _, _ :: _ :: _, _ => rfl
  · intro i r hr
    refine ⟨project null keys r, by simp [hr], by simp [project, Dict.keys, Function.comp_def],
      fun k hk => get?_project null keys r k hk⟩

theorem start_isSome (null : V) (vars : List Key) : ∀ (env : Dict Key (Stored V)),
    (∀ v ∈ vars, ((start null vars env).get? v).isSome) ∧
    (∀ v, (env.get? v).isSome → (start null vars env).get? v = env.get? v) := by
  induction vars with
  | nil => intro env; simp [start]
  | cons a vars ih =>
    intro env
    have key : ∀ env' : Dict Key (Stored V), (env'.get? a).isSome →
        ∀ v ∈ a :: vars, ((start null vars env').get? v).isSome := by
      intro env' h v hv
      rcases List.mem_cons.mp hv with e | e
      · subst e; rw [(ih env').2 _ h]; exact h
      · exact (ih env').1 v e
    simp only [start, List.foldl_cons]
    split
    · next h => exact ⟨key env h, (ih env).2⟩
    · next h =>
      refine ⟨key _ (by simp), fun v hv => ?_⟩
      have hne : a ≠ v := fun e => h (e ▸ hv)
      have h' := (ih (env.set a (.scalar null))).2 v (by rw [Dict.get?_set_ne _ _ hne]; exact hv)
      rw [show List.foldl _ (env.set a (.scalar null)) vars = start null vars (env.set a (.scalar null)) from rfl,
        h', Dict.get?_set_ne _ _ hne]

/-- The per-variable result of the multi-variable form. -/
def nthValue (null : V) (keys : List Key) (value : Stored V) (i : Nat) : Option (Stored V) :=
  match keys[i]? with
  | none => some (.scalar null)
  | some k =>
    match value with
    | .row r => (r.get? k).map .scalar
    | .rows rs => (rs.mapM fun (r : Row V) => r.get? k).map .column
    | _ => none

theorem assign_many (null : V) (keys : List Key) (hk : keys ≠ []) (value : Stored V)
    (hv : ∀ vs, value ≠ .column vs) : ∀ (vars : List Key) (i : Nat) (env : Dict Key (Stored V)),
    vars.Nodup → (∀ v ∈ vars, (env.get? v).isSome) →
    (∀ j < vars.length, (nthValue null keys value (i + j)).isSome) →
    ∃ env', assignAll null keys value vars i env = some env' ∧
      (∀ (j : Nat) v, vars[j]? = some v → env'.get? v = nthValue null keys value (i + j)) ∧
      (∀ k', k' ∉ vars → env'.get? k' = env.get? k') := by
  intro vars
  induction vars with
  | nil => intro i env _ _ _; exact ⟨env, rfl, by simp, by simp⟩
  | cons v vars ih =>
    intro i env hnd hdef hval
    have h0 := hval 0 (by simp)
    rw [Nat.add_zero] at h0
    obtain ⟨x, hx⟩ := Option.isSome_iff_exists.mp h0
    obtain ⟨env', h1, h2, h3⟩ := ih (i + 1) (env.set v x) (List.nodup_cons.mp hnd).2
      (by
        intro u hu
        rw [Dict.get?_set]
        split
        · simp
        · exact hdef u (by simp [hu]))
      (by
        intro j hj
        have := hval (j + 1) (by simpa using hj)
        rwa [show i + (j + 1) = i + 1 + j by omega] at this)
    refine ⟨env', ?_, ?_, ?_⟩
    · have hd := hdef v (by simp)
      have : assignNth null keys value env v i = some (env.set v x) := by
        unfold assignNth
        simp only [if_neg hk]
        unfold nthValue at hx
        cases hki : keys[i]? with
        | none => simp [hki] at hx; simp [hd, hx]
        | some k =>
          simp only [hki] at hx ⊢
          cases value with
          | scalar _ => simp at hx
          | column vs => exact absurd rfl (hv vs)
          | row r =>
            simp at hx
            obtain ⟨y, hy, rfl⟩ := hx
            simp [hy]
          | rows rs =>
            simp only [Option.map_eq_some_iff] at hx
            obtain ⟨y, hy, rfl⟩ := hx
            simp [hy]
      simp only [assignAll, this]
      exact h1
    · intro j u hj
      cases j with
      | zero =>
        simp at hj
        subst hj
        rw [h3 _ (List.nodup_cons.mp hnd).1]
        simp [hx]
      | succ j =>
        simp at hj
        rw [h2 j u hj, show i + 1 + j = i + (j + 1) by omega]
    · intro k' hk'
      simp at hk'
      rw [h3 k' hk'.2, Dict.get?_set_ne _ _ (Ne.symm hk'.1)]

theorem mapM_project (null : V) (keys : List Key) (k : Key) (hk : k ∈ keys) (datas : List (Row V)) :
    (datas.map (project null keys)).mapM (fun (r : Row V) => r.get? k) = some (datas.map fun (r : Row V) => (r.get? k).getD null) := by
  induction datas with
  | nil => rfl
  | cons r rs ih => simp [List.mapM_cons, get?_project null keys r k hk, ih]

/-- Specification: column `k` of the result — the scalar for a single row, the list of the rows' values
otherwise; NULL where a row lacks the column. -/
def columnValue (null : V) (datas : List (Row V)) (k : Key) : Stored V :=
  match datas with
  | [r] => .scalar ((r.get? k).getD null)
  | _ => .column (datas.map fun (r : Row V) => (r.get? k).getD null)

/-- **C13**, several variables and at least two columns: the i-th variable gets the i-th column — the scalar for a
single row, the list of the rows' values otherwise — and surplus variables get NULL. -/
theorem C13_several_variables (null : V) (keys : List Key) (hkeys : 2 ≤ keys.length) (vars : List Key)
    (hvars : 2 ≤ vars.length) (hnd : vars.Nodup) (datas : List (Row V)) (env : Dict Key (Stored V)) :
    ∃ env', selectInto null keys vars datas env = some env' ∧
      (∀ (i : Nat) v k, vars[i]? = some v → keys[i]? = some k →
        env'.get? v = some (columnValue null datas k)) ∧
      (∀ (i : Nat) v, vars[i]? = some v → keys[i]? = none → env'.get? v = some (.scalar null)) := by
  have hshape : shape null keys (decide (vars.length = 1)) datas =
      (match datas with
        | [r] => .row (project null keys r)
        | _ => .rows (datas.map (project null keys))) := by
    match keys, hkeys with
    | _ :: _ :: _, _ => rfl
  have hnth : ∀ i, nthValue null keys (shape null keys (decide (vars.length = 1)) datas) i =
      some (match keys[i]? with
        | none => .scalar null
        | some k => columnValue null datas k) := by
    intro i
    rw [hshape]
    unfold nthValue
    cases hki : keys[i]? with
    | none => rfl
    | some k =>
      have hm : k ∈ keys := List.mem_of_getElem? hki
      match datas with
      | [r] => simp [get?_project null keys r k hm, columnValue]
      | [] => rfl
      | r1 :: r2 :: rs => simp only [mapM_project null keys k hm]; rfl
  obtain ⟨env', h1, h2, -⟩ := assign_many null keys (by intro e; simp [e] at hkeys)
    (shape null keys (decide (vars.length = 1)) datas)
    (by
      intro vs e
      rw [hshape] at e
      split at e <;> simp at e)
    vars 0 (start null vars env) hnd (start_isSome null vars env).1 (by intro j _; simp [hnth])
  refine ⟨env', ?_, ?_, ?_⟩
  · unfold selectInto assign
    match vars, hvars with
    | _ :: _ :: _, _ => exact h1
  · intro i v k hv hk
    rw [h2 i v hv, Nat.zero_add, hnth, hk]
  · intro i v hv hk
    rw [h2 i v hv, Nat.zero_add, hnth, hk]

/-- **C13 fails** for two variables and one column: the statement raises instead of giving the second variable
NULL. -/
theorem C13_one_column_two_variables_raises (null : V) (k v1 v2 : Key) (r : Row V) (env : Dict Key (Stored V)) :
    selectInto null [k] [v1, v2] [r] env = none := rfl

/-- **C13**, `SELECT *` into one variable: the one value of one row with one column, the mapping of one row with
another number of columns, the list of the mappings of zero or several rows. -/
theorem C13_star (null : V) (v : Key) (env : Dict Key (Stored V)) :
    (∀ c x, ∃ env', selectInto null [] [v] [[(c, x)]] env = some env' ∧ env'.get? v = some (.scalar x) ∧
      ∀ k', k' ≠ v → env'.get? k' = env.get? k') ∧
    (∀ r : Row V, r.length ≠ 1 → ∃ env', selectInto null [] [v] [r] env = some env' ∧ env'.get? v = some (.row r) ∧
      ∀ k', k' ≠ v → env'.get? k' = env.get? k') ∧
    (∀ datas : List (Row V), datas.length ≠ 1 → ∃ env', selectInto null [] [v] datas env = some env' ∧
      env'.get? v = some (.rows datas) ∧ ∀ k', k' ≠ v → env'.get? k' = env.get? k') := by
  refine ⟨fun c x => into_single null [] v [[(c, x)]] env, fun r hr => ?_, fun datas hd => ?_⟩
  · have : shape null [] true [r] = .row r := by
      match r, hr with
      | [], _ => rfl
      | [_], hr => simp at hr
      | _ :: _ :: _, _ => rfl
    have h := into_single null [] v [r] env
    rwa [this] at h
  · have : shape null [] true datas = .rows datas := by
      match datas, hd with
      | [], _ => rfl
      | [_], hd => simp at hd
      | _ :: _ :: _, _ => rfl
    have h := into_single null [] v datas env
    rwa [this] at h

/-- **C13**, `SELECT *` into several variables raises, whatever the rows. -/
theorem C13_star_several_raises (null : V) (v1 v2 : Key) (vs : List Key) (datas : List (Row V))
    (env : Dict Key (Stored V)) : selectInto null [] (v1 :: v2 :: vs) datas env = none := rfl

/-- **C13**, one column, no rows, several variables: the first variable gets the empty list, the others NULL. -/
theorem C13_no_rows_several_variables (null : V) (k v1 v2 : Key) (hv : v1 ≠ v2) (env : Dict Key (Stored V)) :
    ∃ env', selectInto null [k] [v1, v2] [] env = some env' ∧ env'.get? v1 = some (.column []) ∧
      env'.get? v2 = some (.scalar null) := by
  have h2 := (start_isSome null [v1, v2] env).1 v2 (by simp)
  refine ⟨_, rfl, ?_, ?_⟩
  · have h : ((((start null [v1, v2] env).set v1 (.column [])).get? v2)).isSome := by
      rw [Dict.get?_set_ne _ _ hv]; exact h2
    show Dict.get? (if (Dict.get? ((start null [v1, v2] env).set v1 (.column [])) v2).isSome then _ else _) v1 = _
    rw [if_pos h, Dict.get?_set_ne _ _ (Ne.symm hv)]; simp
  · have h : ((((start null [v1, v2] env).set v1 (.column [])).get? v2)).isSome := by
      rw [Dict.get?_set_ne _ _ hv]; exact h2
    show Dict.get? (if (Dict.get? ((start null [v1, v2] env).set v1 (.column [])) v2).isSome then _ else _) v2 = _
    rw [if_pos h]; simp

/-- Non-vacuity. -/
example :
    selectInto (none : Option Int) [['a'], ['b']] [['x'], ['y'], ['z']] [[(['a'], some 1), (['b'], some 2)]] []
      = some [(['x'], .scalar (some 1)), (['y'], .scalar (some 2)), (['z'], .scalar none)] ∧
    selectInto (none : Option Int) [['a']] [['x']] [[(['a'], some 1)], [(['a'], none)]] []
      = some [(['x'], .column [some 1, none])] := by decide

end Verif.Props
