import Verif.Proofs.JoinExpr
namespace Verif.Proofs.JoinSelect
open Verif.Join Verif.SqlJoin Verif.Props

/-! ## The rows the joins give to a row of the primary table -/

section
variable {V : Type} (null : V) (o : Ops V) (primary : Name) (db : Name → List (Join.Row V))

/-- The first row ON selects. -/
def theRow (j : Join V) (e : Env V) : Join.Row V :=
  ((db j.name).find? fun row => j.on.all (holds o primary (upd e j.name row))).getD fun _ => null

/-- … for all joins. -/
def theEnv : List (Join V) → Env V → Env V
  | [], e => e
  | j :: js, e => theEnv js (upd e j.name (theRow null o primary db j e))

theorem theEnv_other (js : List (Join V)) (e : Env V) (t : Name) (h : t ∉ js.map (·.name)) : theEnv null o primary db js e t = e t := by
  induction js generalizing e with
  | nil => rfl
  | cons j js ih =>
    simp only [List.map_cons, List.mem_cons, not_or] at h
    rw [theEnv, ih _ h.2, upd, if_neg h.1]

theorem scoped_primary (js : List (Join V)) (h : Scoped primary js) : primary ∉ js.map (·.name) := by
  induction js with
  | nil => simp
  | cons j js ih => simp only [List.map_cons, List.mem_cons, not_or]; exact ⟨h.1.symm, ih h.2.2⟩

theorem scoped_nodup (j : Join V) (js : List (Join V)) (h : Scoped primary (j :: js)) : j.name ∉ js.map (·.name) := by
  rw [List.mem_map]
  rintro ⟨k, hk, e⟩
  exact (h.2.1 k hk).1 e

/-- ON of a join gives the same on the environments that agree on the tables it may use. -/
theorem holds_agree (j : Join V) (js : List (Join V)) (h : Scoped primary (j :: js)) (e e' : Env V)
    (he : ∀ t, t ∉ js.map (·.name) → e t = e' t) (c : Cond V) (hc : c ∈ j.on) : holds o primary e c = holds o primary e' c := by
  haveI : DecidableEq V := fun _ _ => Classical.propDecidable _
  unfold holds
  refine congrArg o.truthy (evalX_congr _ _ _ fun r hr => ?_)
  rw [fields_condX] at hr
  unfold refVal
  rw [he]
  rw [List.mem_map]
  rintro ⟨k, hk, hn⟩
  cases ht : r.table with
  | none =>
    rw [ht] at hn
    exact scoped_primary primary js h.2.2 (List.mem_map.2 ⟨k, hk, hn⟩)
  | some t =>
    rw [ht] at hn
    simp only [Option.getD_some] at hn
    exact (h.2.1 k hk).2 c hc r hr (by rw [ht, hn])

theorem theEnv_row (js : List (Join V)) (h : Scoped primary js) (e : Env V) (j : Join V) (hj : j ∈ js) :
    theEnv null o primary db js e j.name = theRow null o primary db j (theEnv null o primary db js e) := by
  induction js generalizing e with
  | nil => cases hj
  | cons k js ih =>
    rcases List.mem_cons.1 hj with rfl | hj
    · rw [theEnv, theEnv_other _ _ _ _ _ _ _ (scoped_nodup primary j js h), upd, if_pos rfl]
      unfold theRow
      congr 2
      funext row
      rw [Bool.eq_iff_iff, List.all_eq_true, List.all_eq_true]
      refine forall_congr' fun c => forall_congr' fun hc => ?_
      rw [holds_agree o primary j js h (upd e j.name row) (upd (theEnv null o primary db js _) j.name row) _ c hc]
      intro t ht
      unfold upd
      split
      · rfl
      · next hne => rw [theEnv_other _ _ _ _ _ _ _ ht]; simp only [hne, if_false]
    · rw [theEnv]; exact ih h.2.2 _ hj

theorem parseJoins_mem {o : Ops Val.Val} {js : List (Join Val.Val)} {info : Name → Table Val.Val} (hs : Scoped primary js)
    (h : JoinSelect.parseJoins o js = some info) (j : Join Val.Val) (hj : j ∈ js) : parseOn o j.name noTable j.on = some (info j.name) := by
  induction js generalizing info with
  | nil => cases hj
  | cons k js ih =>
    simp only [JoinSelect.parseJoins, Option.bind_eq_some_iff, Option.map_eq_some_iff] at h
    obtain ⟨t, ht, info', hi, rfl⟩ := h
    rcases List.mem_cons.1 hj with rfl | hj
    · simp only [if_true]; exact ht
    · show _ = some (if j.name = k.name then t else info' j.name)
      rw [if_neg fun e => scoped_nodup primary k js hs (List.mem_map.2 ⟨j, hj, e⟩)]
      exact ih hs.2.2 hi hj

theorem parseJoins_other {o : Ops Val.Val} {js : List (Join Val.Val)} {info : Name → Table Val.Val}
    (h : JoinSelect.parseJoins o js = some info) (t : Name) (ht : t ∉ js.map (·.name)) : info t = noTable := by
  induction js generalizing info with
  | nil => cases h; rfl
  | cons k js ih =>
    simp only [JoinSelect.parseJoins, Option.bind_eq_some_iff, Option.map_eq_some_iff] at h
    obtain ⟨t', _, info', hi, rfl⟩ := h
    simp only [List.map_cons, List.mem_cons, not_or] at ht
    show (if t = k.name then t' else info' t) = noTable
    rw [if_neg ht.1]
    exact ih hi ht.2

/-- The columns ON records are columns of ON. -/
theorem joinCols_sub (own : Name) (s T : Table V) (cs : List (Cond V)) (h : parseOn o own s cs = some T) (r : Ref) (hr : r ∈ T.joinCols) :
    r ∈ s.joinCols ∨ ∃ c ∈ cs, r ∈ condFields c := by
  have hEq : ∀ (s s' : Table V) (k : Name) (x : X V), addEq o s k x = some s' → r ∈ s'.joinCols → r ∈ s.joinCols ∨ r ∈ fields x := by
    intro s s' k x h hr
    unfold addEq at h
    split at h
    · cases h; exact Or.inl hr
    · unfold addKey at h
      split at h
      · cases h
      · cases h; exact List.mem_append.1 hr
  have hH : ∀ (s s' : Table V) (c : Cond V) (rs : List Ref), addHaving o own s c rs = some s' → r ∈ s'.joinCols → r ∈ s.joinCols ∨ r ∈ rs := by
    intro s s' c rs h hr
    cases h
    exact (List.mem_append.1 hr).imp id fun h => (List.mem_filter.1 h).1
  have hO : ∀ (s s' : Table V) (c : Cond V) (l x : X V) (q : V → V → Bool), addOther o own s c l x q = some s' → r ∈ s'.joinCols →
      r ∈ s.joinCols ∨ r ∈ fields l ++ fields x := by
    intro s s' c l x q h hr
    unfold addOther at h
    split at h
    · split at h
      · cases h
      · split at h
        · cases h; exact Or.inl hr
        · refine (hH _ _ _ _ h hr).imp id fun h => ?_
          rw [List.mem_append] at h ⊢
          exact h.symm
    · exact (hH _ _ _ _ h hr).imp id fun h => List.mem_append.2 (Or.inl h)
  have hC : ∀ (s s' : Table V) (c : Cond V), parseCond o own s c = some s' → r ∈ s'.joinCols → r ∈ s.joinCols ∨ r ∈ condFields c := by
    intro s s' c h hr
    cases c with
    | cmp op l x =>
      rw [condFields]
      simp only [parseCond] at h
      split at h
      · split at h
        · exact (hEq _ _ _ _ h hr).imp id fun h => List.mem_append.2 (Or.inr h)
        · split at h
          · exact (hEq _ _ _ _ h hr).imp id fun h => List.mem_append.2 (Or.inl h)
          · exact hO _ _ _ _ _ _ h hr
      · exact hO _ _ _ _ _ _ h hr
    | isin l vs =>
      rw [condFields]
      simp only [parseCond] at h
      split at h
      · split at h
        · cases h
        · cases h; exact Or.inl hr
      · exact hH _ _ _ _ h hr
    | other x => exact hH _ _ _ _ h hr
  induction cs generalizing s with
  | nil => cases h; exact Or.inl hr
  | cons c cs ih =>
    simp only [parseOn] at h
    obtain ⟨s', hs', h⟩ := Option.bind_eq_some_iff.1 h
    rcases ih s' h with h | ⟨c', hc', h⟩
    · rcases hC s s' c hs' h with h | h
      · exact Or.inl h
      · exact Or.inr ⟨c, by simp, h⟩
    · exact Or.inr ⟨c', by simp [hc'], h⟩

/-! ### One match: SQL's rows -/

theorem rows_one (js : List (Join V)) (hl : ∀ j ∈ js, j.kind = .left) (e : Env V)
    (h : ∀ before j after, js = before ++ j :: after → ∀ e' ∈ SqlJoin.rows null o primary db before e,
      (matching o primary db j e').length ≤ 1) : SqlJoin.rows null o primary db js e = [theEnv null o primary db js e] := by
  induction js generalizing e with
  | nil => rfl
  | cons j js ih =>
    have h0 := h [] j js rfl e (by simp [SqlJoin.rows])
    have hstep : SqlJoin.step null o primary db j e = [upd e j.name (theRow null o primary db j e)] := by
      have hm : matching o primary db j e = ((db j.name).filter fun row => j.on.all (holds o primary (upd e j.name row))).map (upd e j.name) := by
        unfold matching
        rw [List.filter_map]
        rfl
      have hf : theRow null o primary db j e = (((db j.name).filter fun row => j.on.all (holds o primary (upd e j.name row))).head?).getD fun _ => null := by
        rw [theRow, List.head?_filter]
      unfold SqlJoin.step
      simp only [hl j (by simp)]
      rw [hm] at h0 ⊢
      rw [hf]
      revert h0
      generalize (db j.name).filter (fun row => j.on.all (holds o primary (upd e j.name row))) = l
      intro h0
      match l, h0 with
      | [], _ => rfl
      | [a], _ => rfl
      | _ :: _ :: _, h0 => simp at h0
    rw [SqlJoin.rows, hstep, List.flatMap_singleton, theEnv]
    refine ih (fun j hj => hl j (by simp [hj])) _ fun before k after hk e' he' => ?_
    refine h (j :: before) k after (by rw [hk]; rfl) e' ?_
    rw [SqlJoin.rows, hstep, List.flatMap_singleton]
    exact he'
end

/-! ### What a column is compiled to -/

section
open Verif.Val Verif.Expr

/-- The conditions on the joins. -/
structure JoinsOk (o : Ops Val) (primary : Name) (joins : List (Join Val)) : Prop where
  names : Scoped primary joins
  left : ∀ j ∈ joins, j.kind = .left
  on : ∀ j ∈ joins, ∀ c ∈ j.on, OwnConst j.name c ∧ NoSelf j.name c ∧ LeftKnown primary j.name c ∧ CondNoBetween c
  known : ∀ j ∈ joins, ∀ c ∈ j.on, ∀ r ∈ condFields c, ∀ t, r.table = some t → t = primary ∨ t ∈ joins.map (·.name)

variable (py : Py) (calls : Str → List Val → Val)

theorem compileE_value (o : Ops Val) (hsym : ∀ a b, o.truthy (o.cmp .eq a b) = o.truthy (o.cmp .eq b a)) (primary : Name)
    (joins : List (Join Val)) (hj : JoinsOk o primary joins) (info : Name → Table Val) (hi : JoinSelect.parseJoins o joins = some info)
    (order : List Name → List Name) (ho : ∀ l, (order l).Perm l) (fuel : Nat) (db : Name → List (Join.Row Val)) (x : E) (c : C Val)
    (h : JoinSelect.compileE py calls ⟨primary, joins.map (·.name), info, order, fuel⟩ x = some c) (e0 : Env Val) :
    evalC .null (fun a b => o.truthy (o.cmp .eq a b)) o.truthy (fun t f => (db t).find? f) [e0 primary] c
      = eval py calls (SqlSelect.joinedRow primary (theEnv .null o primary db joins e0)) (compile x) := by
  unfold JoinSelect.compileE at h
  split at h
  case isFalse => cases h
  next hcond =>
  simp only [Bool.and_eq_true] at hcond
  obtain ⟨hnames, -⟩ := hcond
  obtain ⟨tables, hch, hc⟩ := Option.bind_eq_some_iff.1 h
  simp only at hch hc
  have hin : ∀ t ∈ tables, t ∈ joins.map (·.name) := by
    intro t ht
    have hr := ((Verif.Proofs.Join.chain_mem _ order ho fuel _ [] tables hch t).1 ht).resolve_left (by simp)
    clear ht
    induction hr with
    | base hb =>
      rw [(ho _).mem_iff] at hb
      have := List.all_eq_true.1 hnames _ hb
      simpa using this
    | step _ hu ih =>
      rename_i t u _
      obtain ⟨j, hjm, rfl⟩ := List.mem_map.1 ih
      unfold refs at hu
      rw [List.mem_eraseDups, List.mem_filterMap] at hu
      obtain ⟨r, hr, hu⟩ := hu
      rcases joinCols_sub o j.name noTable (info j.name) j.on (parseJoins_mem primary hj.names hi j hjm) r hr with h | ⟨c, hc, h⟩
      · simp [noTable] at h
      · split at hu
        · next n hn =>
          split at hu
          · cases hu
          · next hne => cases hu; exact (hj.known j hjm c hc r h _ hn).resolve_left hne
        · cases hu
  have hprim : primary ∉ tables := fun hm => scoped_primary primary joins hj.names (hin _ hm)
  let e := theEnv .null o primary db joins e0
  have hrec : ∀ t ∈ tables, Recorded primary t (info t) := by
    intro t ht
    obtain ⟨j, hjm, rfl⟩ := List.mem_map.1 (hin t ht)
    exact C53_recorded_partial o primary j.name (info j.name) j.on (fun c hc => (hj.on j hjm c hc).2.2) (parseJoins_mem primary hj.names hi j hjm)
  have hcons : Consistent .null (fun a b => o.truthy (o.cmp .eq a b)) o.truthy (fun t f => (db t).find? f) primary info tables e := by
    intro t ht
    obtain ⟨j, hjm, rfl⟩ := List.mem_map.1 (hin t ht)
    show theEnv .null o primary db joins e0 j.name = _
    rw [theEnv_row .null o primary db joins hj.names e0 j hjm]
    unfold theRow
    congr 2
    funext row
    have := C53_on_partial o hsym j.name (info j.name) j.on (fun c hc => ⟨(hj.on j hjm c hc).1, (hj.on j hjm c hc).2.1⟩)
      (parseJoins_mem primary hj.names hi j hjm) (refVal primary e) row
    have hne : j.name ≠ primary := fun h => scoped_primary primary joins hj.names (List.mem_map.2 ⟨j, hjm, h⟩)
    have hw : withRow (refVal primary e) j.name row = refVal primary (upd e j.name row) := by
      funext r
      unfold withRow refVal upd
      cases hrt : r.table with
      | none => simp [hne.symm]
      | some t => simp only [Option.getD_some, Option.some.injEq]; split <;> rfl
    unfold matches_ at this
    rw [hw] at this
    rw [this]
    rfl
  obtain ⟨c', hc', hv⟩ := C122_value_partial .null (fun a b => o.truthy (o.cmp .eq a b)) o.truthy (fun t f => (db t).find? f) primary info order ho fuel
    (JoinSelect.exprX py calls x) trivial (order (JoinSelect.tablesOf x)) tables
    ((ho _).nodup_iff.2 (Verif.Proofs.Join.nodup_eraseDups _))
    (by
      intro r hr t ht _
      rw [(ho _).mem_iff, JoinSelect.tablesOf, List.mem_eraseDups, List.mem_filterMap]
      obtain ⟨c, hc, rfl⟩ := List.mem_map.1 (show r ∈ (Select.colsE x).map JoinSelect.refOf from hr)
      exact ⟨c, hc, ht⟩) hch hprim hrec e hcons
  rw [hc] at hc'
  cases hc'
  rw [← exprX_eval, ← hv]
  congr 2
  exact (theEnv_other .null o primary db joins e0 primary (scoped_primary primary joins hj.names)).symm
end

end Verif.Proofs.JoinSelect
