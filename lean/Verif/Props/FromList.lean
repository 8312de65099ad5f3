import Verif.Model.FromList
import Verif.Spec.FromList
import Verif.Props.JoinInner
import Verif.Props.JoinMulti
/-! C147: a SELECT from several tables (FROM a, b, …) as a whole. -/
namespace Verif.Props.FromList
open Verif.Val Verif.Expr Verif.Sql Verif.Where Verif.Order Verif.Select Verif.SqlSelect Verif.JoinSelect Verif.Proofs.JoinSelect Verif.SqlJoin
open Verif.Join (Cond X Ref Ops condFields fields refVal evalX multiJoins toOn)

section
variable {S : Type} (text : Str → Bool) (py : Py) (calls : Str → List Val → Val)

/-- The comparisons among the conjuncts. -/
def isCmp : Conj → Bool
  | .cmp _ _ _ => true
  | .other _ => false

/-- A comparison of the WHERE that goes to the ON of some table. -/
def Tie (py : Py) (calls : Str → List Val → Val) (c : Conj) : Prop := ∃ can t, GoesToOn can t (c.toCond py calls)

/-- The WHERE clauses this is about. -/
structure FromOk (o : Ops Val) (primary : Join.Name) (ts : List Join.Name) (w : List Conj) : Prop where
  /-- the tables have different names, without `.` and `|` -/
  fresh : primary ∉ ts
  plain : ∀ t ∈ ts, '.' ∉ t.toList ∧ '|' ∉ t.toList
  /-- every table is compared with something, no comparison looks ahead (refuted otherwise: C54) -/
  compared : Compared (w.map (Conj.toCond py calls)) [primary] ts
  back : LooksBack (w.map (Conj.toCond py calls)) [primary] ts
  /-- the other side of a comparison of a table does not mention that table -/
  other : ∀ c ∈ w, ∀ t ∈ ts, ∀ x, ComparesOwn t (c.toCond py calls) x → ∀ r ∈ fields x, r.table ≠ some t
  /-- columns are columns of the tables of the query -/
  cols : ∀ c ∈ w, ∀ r ∈ condFields (c.toCond py calls), ∀ t, r.table = some t → t = primary ∨ t ∈ ts
  bare : ∀ op l r, Conj.cmp op l r ∈ w → ∀ f : Ref, l = .col f ∨ r = .col f → f.table = none ∨ f.table = some primary → '.' ∉ baseName f.col.toList
  sides : ∀ op l r, Conj.cmp op l r ∈ w → ∀ e, l = .expr e ∨ r = .expr e → scalarOk e = true
  /-- a comparison that is true has no NULL among its columns -/
  strict : ∀ c ∈ w, Tie py calls c → ∀ env : Join.Env Val, Join.holds o primary env (c.toCond py calls) = true →
    ∀ r ∈ condFields (c.toCond py calls), refVal primary env r ≠ .null

/-- On the values that are compared in the row, the comparison of ON is the one of WHERE. -/
def Agree (text : Str → Bool) (py : Py) (calls : Str → List Val → Val) (o : Ops Val) (primary : Join.Name) (w : List Conj) (row : Row) : Prop :=
  ∀ op l r, Conj.cmp op l r ∈ w →
    o.truthy (o.cmp (opOf op) (sem text py.cmp calls row (l.toE primary)) (sem text py.cmp calls row (r.toE primary)))
      = decide (tv text (py.cmp op (sem text py.cmp calls row (l.toE primary)) (sem text py.cmp calls row (r.toE primary))) = some true)

theorem toOn_other (can : List Join.Name) (t : Join.Name) (c : Conj) (h : isCmp c = false) : toOn can t (c.toCond py calls) = false := by
  cases c with
  | cmp op l r => cases h
  | other e => rfl

theorem multi_cmps (w : List Conj) (can ts : List Join.Name) :
    multiJoins (w.map (Conj.toCond py calls)) can ts = multiJoins ((w.filter isCmp).map (Conj.toCond py calls)) can ts := by
  induction ts generalizing can with
  | nil => rfl
  | cons t ts ih =>
    rw [multiJoins, multiJoins, ih]
    congr 2
    clear ih
    induction w with
    | nil => rfl
    | cons c w ih =>
      rw [List.map_cons, List.filter_cons]
      cases hc : isCmp c with
      | true => rw [List.filter_cons_of_pos hc, List.map_cons, List.filter_cons, ih]
      | false => rw [List.filter_cons_of_neg (by simp [hc]), toOn_other py calls can t c hc, if_neg (by decide), ih]

theorem goes_cmp (w : List Conj) (can : List Join.Name) (t : Join.Name) (c : Cond Val) (h : c ∈ w.map (Conj.toCond py calls)) (hg : GoesToOn can t c) :
    c ∈ (w.filter isCmp).map (Conj.toCond py calls) := by
  obtain ⟨c', hc, rfl⟩ := List.mem_map.1 h
  refine List.mem_map.2 ⟨c', List.mem_filter.2 ⟨hc, ?_⟩, rfl⟩
  cases hi : isCmp c' with
  | true => rfl
  | false => rw [← toOn_iff, toOn_other py calls can t c' hi] at hg; cases hg

theorem compared_cmps (w : List Conj) (can ts : List Join.Name) (h : Compared (w.map (Conj.toCond py calls)) can ts) :
    Compared ((w.filter isCmp).map (Conj.toCond py calls)) can ts := by
  induction ts generalizing can with
  | nil => trivial
  | cons t ts ih =>
    obtain ⟨⟨c, hc, hg⟩, h⟩ := h
    exact ⟨⟨c, goes_cmp py calls w can t c hc hg, hg⟩, ih _ h⟩

theorem looksBack_sub (conds conds' : List (Cond Val)) (hs : ∀ c ∈ conds', c ∈ conds) (can ts : List Join.Name) (h : LooksBack conds can ts) :
    LooksBack conds' can ts := by
  induction ts generalizing can with
  | nil => trivial
  | cons t ts ih => exact ⟨fun u hu => ⟨(h.1 u hu).1, fun c hc => (h.1 u hu).2 c (hs c hc)⟩, ih _ h.2⟩

/-! ## The values of columns and conjuncts -/

theorem col_value (primary : Join.Name) (env : Join.Env Val) (r : Ref)
    (hp : ∀ t, r.table = some t → t ≠ primary → '.' ∉ t.toList ∧ '|' ∉ t.toList)
    (hb : r.table = none ∨ r.table = some primary → '.' ∉ baseName r.col.toList) :
    joinedRow primary env (colName primary r) = refVal primary env r := by
  have key : ∀ c : Str, '.' ∉ baseName c → joinedRow primary env c = env primary (String.ofList c) := by
    intro c hc
    unfold joinedRow refOf
    rw [if_neg hc]; rfl
  unfold colName refVal
  cases ht : r.table with
  | none => simp only [Option.getD_none]; rw [key _ (hb (Or.inl ht)), String.ofList_toList]
  | some t =>
    simp only [Option.getD_some]
    by_cases h : t = primary
    · subst h; rw [if_pos rfl, key _ (hb (Or.inr ht)), String.ofList_toList]
    · rw [if_neg h]
      have e : t.toList ++ '.' :: r.col.toList = refName r := by rw [refName, ht]; rfl
      rw [e]
      unfold joinedRow
      rw [refOf_name r t ht (hp t ht h).1 (hp t ht h).2, ht]; rfl

variable {text py calls} in
theorem side_value {o : Ops Val} {primary : Join.Name} {ts : List Join.Name} {w : List Conj} (h : FromOk py calls o primary ts w) (op : Cmp) (l r : Side)
    (hm : Conj.cmp op l r ∈ w) (env : Join.Env Val) (s : Side) (hs : s = l ∨ s = r) :
    sem text py.cmp calls (joinedRow primary env) (s.toE primary) = evalX (refVal primary env) (s.toX py calls) := by
  cases s with
  | col f =>
    refine col_value primary env f (fun t ht hne => ?_) (h.bare op l r hm f (hs.imp Eq.symm Eq.symm))
    have hf : f ∈ condFields (Conj.toCond py calls (.cmp op l r)) := by
      rcases hs with rfl | rfl <;> simp [Conj.toCond, condFields, Side.toX, fields]
    exact h.plain t ((h.cols _ hm f hf t ht).resolve_left hne)
  | expr e =>
    simp only [Side.toE, Side.toX]
    rw [exprX_eval, C31_value_partial text py calls _ e (h.sides op l r hm e (hs.imp Eq.symm Eq.symm))]

variable {text py calls} in
theorem conj_value {o : Ops Val} {primary : Join.Name} {ts : List Join.Name} {w : List Conj} (h : FromOk py calls o primary ts w)
    (c : Conj) (hc : c ∈ w) (hi : isCmp c = true) (env : Join.Env Val) (hcmp : Agree text py calls o primary w (joinedRow primary env)) :
    decide (tv text (sem text py.cmp calls (joinedRow primary env) (c.toE primary)) = some true) = Join.holds o primary env (c.toCond py calls) := by
  cases c with
  | other e => cases hi
  | cmp op l r =>
    simp only [Conj.toE, sem, Join.holds, Conj.toCond, Join.condX, evalX]
    rw [← hcmp op l r hc, side_value h op l r hc env l (Or.inl rfl), side_value h op l r hc env r (Or.inr rfl)]

/-- The WHERE is the conjunction of its conjuncts. -/
theorem satisfies_where (primary : Join.Name) (w : List Conj) (r : Row) :
    satisfies text py.cmp calls (whereE primary w) r
      = w.all fun c => decide (tv text (sem text py.cmp calls r (c.toE primary)) = some true) := by
  cases w with
  | nil => rfl
  | cons c w =>
    simp only [whereE, satisfies, List.all_cons]
    have : ∀ (w : List Conj) (e : E), decide (tv text (sem text py.cmp calls r (w.foldl (fun e c => .and e (c.toE primary)) e)) = some true)
        = (decide (tv text (sem text py.cmp calls r e) = some true) && w.all fun c => decide (tv text (sem text py.cmp calls r (c.toE primary)) = some true)) := by
      intro w
      induction w with
      | nil => intro e; rw [List.foldl_nil, List.all_nil, Bool.and_true]
      | cons c w ih => intro e; rw [List.foldl_cons, ih, tv_and, List.all_cons, Bool.and_assoc]
    exact this w _

theorem all_parts {α : Type} (p f : α → Bool) (l : List α) : l.all f = ((l.filter p).all f && (l.filter fun a => !p a).all f) := by
  induction l with
  | nil => rfl
  | cons a l ih =>
    rw [List.all_cons, ih, List.filter_cons, List.filter_cons]
    cases p a <;> simp <;> cases f a <;> simp

/-- Of the combinations of rows those that satisfy the WHERE are those of the LEFT JOINs that do. -/
theorem filter_cross {o : Ops Val} {primary : Join.Name} {ts : List Join.Name} {w : List Conj} (h : FromOk py calls o primary ts w)
    (db : Join.Name → List (Join.Row Val)) (rows : List Row)
    (hcmp : ∀ r ∈ joinedRows o primary db (multiJoins (w.map (Conj.toCond py calls)) [primary] ts) rows ++ crossRows primary db ts rows,
      Agree text py calls o primary w r) :
    (joinedRows o primary db (multiJoins (w.map (Conj.toCond py calls)) [primary] ts) rows).filter (satisfies text py.cmp calls (whereE primary w))
      = (crossRows primary db ts rows).filter (satisfies text py.cmp calls (whereE primary w)) := by
  let conds := (w.filter isCmp).map (Conj.toCond py calls)
  unfold joinedRows crossRows at hcmp ⊢
  rw [List.filter_flatMap, List.filter_flatMap, List.flatMap_def, List.flatMap_def]
  congr 1
  refine List.map_congr_left fun r hrr => ?_
  rw [List.filter_map, List.filter_map]
  congr 1
  have hsat : ∀ env, Agree text py calls o primary w (joinedRow primary env) → satisfies text py.cmp calls (whereE primary w) (joinedRow primary env)
      = ((w.filter fun c => !isCmp c).all (fun c => decide (tv text (sem text py.cmp calls (joinedRow primary env) (c.toE primary)) = some true))
        && conds.all (Join.holds o primary env)) := by
    intro env hag
    rw [satisfies_where, all_parts isCmp, Bool.and_comm]
    congr 1
    rw [List.all_map, Bool.eq_iff_iff, List.all_eq_true, List.all_eq_true]
    refine forall_congr' fun c => forall_congr' fun hc => ?_
    obtain ⟨h1, h2⟩ := List.mem_filter.1 hc
    rw [conj_value h c h1 h2 env hag]; rfl
  have hl : SqlJoin.rows .null o primary db (multiJoins (w.map (Conj.toCond py calls)) [primary] ts) (start primary r)
      = Join.leftAll .null o primary db (multiJoins conds [primary] ts) (start primary r) := by
    rw [leftAll_asLeft, multi_cmps]
    congr 1
    unfold asLeft
    have : (multiJoins conds [primary] ts).map (fun j => { j with kind := .left }) = multiJoins conds [primary] ts := by
      conv => rhs; rw [← List.map_id (multiJoins conds [primary] ts)]
      refine List.map_congr_left fun j hj => ?_
      obtain ⟨n, k, on⟩ := j
      have := (multi_names conds _ ts _ hj).2
      simp only at this
      rw [this]; rfl
    exact this.symm
  have hm := multi_filter .null o primary db conds (by
      intro c hc ht env hh
      obtain ⟨c', hc', rfl⟩ := List.mem_map.1 hc
      exact h.strict c' (List.mem_filter.1 hc').1 ht env hh) [primary] ts h.fresh
    (compared_cmps py calls w _ _ h.compared)
    (looksBack_sub _ _ (by
      intro c hc
      obtain ⟨c', hc', rfl⟩ := List.mem_map.1 hc
      exact List.mem_map.2 ⟨c', (List.mem_filter.1 hc').1, rfl⟩) _ _ h.back) (start primary r)
  have e1 : ∀ l : List (Join.Env Val), (∀ env ∈ l, Agree text py calls o primary w (joinedRow primary env)) →
      l.filter (satisfies text py.cmp calls (whereE primary w) ∘ joinedRow primary) = (l.filter fun env => conds.all (Join.holds o primary env)).filter
        fun env => (w.filter fun c => !isCmp c).all fun c => decide (tv text (sem text py.cmp calls (joinedRow primary env) (c.toE primary)) = some true) := by
    intro l hlg
    rw [List.filter_filter]
    exact List.filter_congr fun env he => hsat env (hlg env he)
  rw [e1 _ fun env he => hcmp _ (List.mem_append_left _ (List.mem_flatMap.2 ⟨r, hrr, List.mem_map.2 ⟨env, he, rfl⟩⟩)),
    e1 _ fun env he => hcmp _ (List.mem_append_right _ (List.mem_flatMap.2 ⟨r, hrr, List.mem_map.2 ⟨env, he, rfl⟩⟩)), hl, hm]

theorem joinsOk_from {o : Ops Val} {primary : Join.Name} {ts : List Join.Name} {w : List Conj} (h : FromOk py calls o primary ts w) :
    JoinsOk o primary (multiJoins (w.map (Conj.toCond py calls)) [primary] ts) where
  names := by
    have : ∀ can ts, primary ∉ ts → LooksBack (w.map (Conj.toCond py calls)) can ts →
        Props.Scoped primary (multiJoins (w.map (Conj.toCond py calls)) can ts) := by
      intro can ts
      induction ts generalizing can with
      | nil => intro _ _; trivial
      | cons t ts ih =>
        intro hp hb
        refine ⟨fun e => hp (by rw [← e]; simp), fun k hk => ?_, ih _ (fun hh => hp (by simp [hh])) hb.2⟩
        have hn := (multi_names _ _ ts k hk).1
        refine ⟨(hb.1 k.name hn).1, fun c hc r hr => ?_⟩
        obtain ⟨h1, h2⟩ := List.mem_filter.1 hc
        exact (hb.1 k.name hn).2 c h1 ((toOn_iff _ _ _).1 h2) r hr
    exact this _ _ h.fresh h.back
  left j hj := (multi_names _ _ ts j hj).2
  on := by
    have : ∀ can (us : List Join.Name), (∀ u ∈ us, u ∈ ts) → ∀ j ∈ multiJoins (w.map (Conj.toCond py calls)) can us, ∀ c ∈ j.on,
        OwnConst j.name c ∧ NoSelf j.name c ∧ LeftKnown primary j.name c ∧ CondNoBetween c := by
      intro can us
      induction us generalizing can with
      | nil => intro _ j hj; cases hj
      | cons t us ih =>
        intro hu j hj c hc
        rw [multiJoins] at hj
        rcases List.mem_cons.1 hj with rfl | hj
        · obtain ⟨h1, h2⟩ := List.mem_filter.1 hc
          obtain ⟨c', hc', rfl⟩ := List.mem_map.1 h1
          obtain ⟨x, hx, -⟩ := (toOn_iff _ _ _).1 h2
          have hself := h.other c' hc' t (hu t (by simp))
          cases c' with
          | other e => cases hx
          | cmp op l r =>
            simp only [Conj.toCond] at hx hself ⊢
            have hb : ∀ s : Side, NoBetween (s.toX py calls) := by intro s; cases s <;> exact trivial
            refine ⟨?_, ?_, ?_, hb l, hb r⟩
            · generalize l.toX py calls = lx at hx hself ⊢
              generalize r.toX py calls = rx at hx hself ⊢
              cases hx with
              | left op' k x => intro _; rfl
              | right op' k x =>
                unfold OwnConst
                split
                · next hh => cases hh; intro hf; cases hf
                · next hh => cases hh
                · trivial
            · generalize opOf op = op' at hx hself ⊢
              unfold NoSelf
              split
              · next l' r' hh =>
                cases hh
                refine ⟨fun k hk f hf => ?_, fun k hk f hf => ?_⟩
                · exact hself _ (by rw [hk]; exact .left _ k _) f hf
                · exact hself _ (by rw [hk]; exact .right _ k _) f hf
              · trivial
            · generalize l.toX py calls = lx at hx hself ⊢
              generalize r.toX py calls = rx at hx hself ⊢
              cases hx with
              | left op' k x => trivial
              | right op' k x =>
                unfold LeftKnown
                split
                · trivial
                · next hh => cases hh; intro f hf; simp only [fields, List.mem_singleton] at hf; rw [hf]; exact Or.inr (Or.inr rfl)
                · trivial
        · exact ih _ (fun u hu' => hu u (by simp [hu'])) j hj c hc
    exact this _ ts fun u hu => hu
  known := by
    have : ∀ can (us : List Join.Name), ∀ j ∈ multiJoins (w.map (Conj.toCond py calls)) can us, ∀ c ∈ j.on, c ∈ w.map (Conj.toCond py calls) := by
      intro can us
      induction us generalizing can with
      | nil => intro j hj; cases hj
      | cons t us ih =>
        intro j hj c hc
        rw [multiJoins] at hj
        rcases List.mem_cons.1 hj with rfl | hj
        · exact (List.mem_filter.1 hc).1
        · exact ih _ j hj c hc
    have hnames : ∀ can (us : List Join.Name), (multiJoins (w.map (Conj.toCond py calls)) can us).map (·.name) = us := by
      intro can us
      induction us generalizing can with
      | nil => rfl
      | cons t us ih => rw [multiJoins, List.map_cons, ih]
    intro j hj c hc r hr t ht
    obtain ⟨c', hc', rfl⟩ := List.mem_map.1 (this _ _ j hj c hc)
    rw [hnames]
    exact h.cols c' hc' r hr t ht

theorem compile_from {o : Ops Val} {order : List Join.Name → List Join.Name} {fuel : Nat} {q : Query S} {ts : List Join.Name} (hts : ts ≠ [])
    {js : List (Join.Join Val)} {w : List Conj} :
    compileFrom py calls o order fuel ts js w q = JoinSelect.compile py calls o order fuel
      (multiJoins (w.map (Conj.toCond py calls)) [String.ofList q.table] ts) { q with cond := whereE (String.ofList q.table) w } := by
  have hany : ((multiJoins (w.map (Conj.toCond py calls)) [String.ofList q.table] ts).any fun j => decide (j.kind = .inner)) = false := by
    rw [List.any_eq_false]
    intro j hj
    rw [(multi_names _ _ ts j hj).2]; decide
  unfold compileFrom compileJoins rewriteInner
  simp only [if_neg hts, hany, Bool.false_eq_true, if_false]

end
end Verif.Props.FromList

namespace Verif.Props
open Verif.Val Verif.Expr Verif.Sql Verif.Where Verif.Order Verif.SqlOrder Verif.Select Verif.SqlSelect Verif.JoinSelect Verif.Proofs.JoinSelect FromList

section
variable {S : Type} (text : Str → Bool) (py : Py) (calls : Str → List Val → Val)

/-- **C147**: `SELECT … FROM a, b, … WHERE …` without grouping returns SQL's result: of the combinations of the rows of the tables those
that satisfy WHERE and HAVING, each turned into a result row, in the order of ORDER BY, and of these the part LIMIT and OFFSET ask for;
when each row of the first table has at most one partner in each further table.  `q.cond` is the WHERE, `w` its conjuncts. -/
theorem C147_from_select_partial (o : Join.Ops Val) (hsym : ∀ a b, o.truthy (o.cmp .eq a b) = o.truthy (o.cmp .eq b a))
    (order : List Join.Name → List Join.Name) (hperm : ∀ l, (order l).Perm l) (fuel : Nat) (db : Join.Name → List (Join.Row Val))
    (en : Engine) (ht : ∀ x y, en.le x y = true ∨ en.le y x = true)
    (htr : ∀ x y z, en.le x y = true → en.le y z = true → en.le x z = true) (hf : Faithful py en.src) (q : Query S)
    (ts : List Join.Name) (hts : ts ≠ []) (w : List Conj) (hw' : q.cond = whereE (String.ofList q.table) w)
    (hj : FromOk py calls o (String.ofList q.table) ts w) (p : JoinSelect.Plan (Join.C Val) S)
    (hp : compileFrom py calls o order fuel ts [] w q = some p) (hcols : ∀ c ∈ q.cols, ∃ e, c.2 = .expr e ∧ scalarOk e = true)
    (hnames : (q.cols.map (·.1)).Nodup) (hg : q.group = []) (hd : q.distinct = false) (hl : q.limit ≠ some 0) (rows : List Row)
    (h1 : OneMatch o (String.ofList q.table) db (Join.multiJoins (w.map (Conj.toCond py calls)) [String.ofList q.table] ts) rows)
    (hw : WhereOk text py calls { q with prim := JoinSelect.isPrim }
      (joinedRows o (String.ofList q.table) db (Join.multiJoins (w.map (Conj.toCond py calls)) [String.ofList q.table] ts) rows))
    (hcmp : ∀ r ∈ joinedRows o (String.ofList q.table) db (Join.multiJoins (w.map (Conj.toCond py calls)) [String.ofList q.table] ts) rows ++
      crossRows (String.ofList q.table) db ts rows, Agree text py calls o (String.ofList q.table) w r)
    (hh : ∀ e ∈ q.having, havingOk e = true) (ho : JoinOrderOk q) :
    JoinRowResult text py.cmp calls en.le q (crossRows (String.ofList q.table) db ts rows) (JoinSelect.run py calls o db en p rows) := by
  rw [compile_from py calls hts] at hp
  have hq : { q with cond := whereE (String.ofList q.table) w } = q := by rw [← hw']
  rw [hq] at hp
  obtain ⟨sorted, hs, hr⟩ := C132_join_select_partial text py calls o hsym order hperm fuel db en ht htr hf q _ (joinsOk_from py calls hj) p hp
    hcols hnames hg hd hl rows h1 hw hh ho
  refine ⟨sorted, ?_, hr⟩
  have := filter_cross text py calls hj db rows hcmp
  rw [← hw'] at this
  refine Eq.mp (congrArg (fun l => SqlOrder.Sorted en.le _ l sorted) ?_) hs
  have e : ∀ l : List Row, (l.filter fun r => satisfies text py.cmp calls q.cond r &&
      satisfies text py.cmp calls q.having (fun n => colVal n (project text py.cmp calls q.cols [r])))
      = (l.filter (satisfies text py.cmp calls q.cond)).filter fun r =>
        satisfies text py.cmp calls q.having (fun n => colVal n (project text py.cmp calls q.cols [r])) := by
    intro l
    rw [List.filter_filter]
    exact List.filter_congr fun r _ => Bool.and_comm _ _
  rw [e, e, this]

/-- **C147**: the same with aggregates or GROUP BY: one row for each group of the combinations that satisfy WHERE that satisfies HAVING. -/
theorem C147_from_grouped_partial (o : Join.Ops Val) (hsym : ∀ a b, o.truthy (o.cmp .eq a b) = o.truthy (o.cmp .eq b a))
    (order : List Join.Name → List Join.Name) (hperm : ∀ l, (order l).Perm l) (fuel : Nat) (db : Join.Name → List (Join.Row Val))
    (en : Engine) (ht : ∀ x y, en.le x y = true ∨ en.le y x = true)
    (htr : ∀ x y z, en.le x y = true → en.le y z = true → en.le x z = true) (hf : Faithful py en.src)
    (hchunk : ∀ l, (en.chunk l).flatMap (·.1) = l) (q : Query S)
    (ts : List Join.Name) (hts : ts ≠ []) (w : List Conj) (hw' : q.cond = whereE (String.ofList q.table) w)
    (hj : FromOk py calls o (String.ofList q.table) ts w) (p : JoinSelect.Plan (Join.C Val) S)
    (hp : compileFrom py calls o order fuel ts [] w q = some p)
    (hexpr : ∀ n e, (n, Select.Item.expr e) ∈ q.cols → scalarOk e = true)
    (hagg : ∀ n args final, (n, Select.Item.agg args final) ∈ q.cols → ∀ a ∈ args, scalarOk a.2 = true)
    (hge : ∀ e, GKey.expr e ∈ q.group → scalarOk e = true) (hnames : (q.cols.map (·.1)).Nodup) (hne : q.cols ≠ [])
    (hgrp : q.group ≠ [] ∨ ∃ c ∈ q.cols, isAgg c.2 = true) (hok : GroupNamesOk q.cols q.group) (hl : q.limit ≠ some 0)
    (hlim : q.limit = none ∨ (∃ c ∈ q.cols, isAgg c.2 = true) ∨ p.predicate.isSome ∨ p.intercept.isSome ∨ p.sort.isSome)
    (rows : List Row)
    (h1 : OneMatch o (String.ofList q.table) db (Join.multiJoins (w.map (Conj.toCond py calls)) [String.ofList q.table] ts) rows)
    (hw : WhereOk text py calls { q with prim := JoinSelect.isPrim }
      (joinedRows o (String.ofList q.table) db (Join.multiJoins (w.map (Conj.toCond py calls)) [String.ofList q.table] ts) rows))
    (hcmp : ∀ r ∈ joinedRows o (String.ofList q.table) db (Join.multiJoins (w.map (Conj.toCond py calls)) [String.ofList q.table] ts) rows ++
      crossRows (String.ofList q.table) db ts rows, Agree text py calls o (String.ofList q.table) w r)
    (hh : ∀ e ∈ q.having, havingOk e = true)
    (hlaw : ∀ n args final, (n, Select.Item.agg args final) ∈ q.cols → ∀ a ∈ args, ∃ good : Val → Prop,
      a.1.fold.Law good ∧ ∀ r ∈ joinedRows o (String.ofList q.table) db (Join.multiJoins (w.map (Conj.toCond py calls)) [String.ofList q.table] ts) rows,
        good (sem text py.cmp calls r a.2))
    (hsome : q.group ≠ [] ∨ ∃ r ∈ crossRows (String.ofList q.table) db ts rows, satisfies text py.cmp calls q.cond r = true)
    (hdep : (∀ c ∈ q.cols, isAgg c.2 = false) → Dependent text py calls q
      (joinedRows o (String.ofList q.table) db (Join.multiJoins (w.map (Conj.toCond py calls)) [String.ofList q.table] ts) rows))
    (ho : JoinGroupOrderOk q) :
    GroupResult text py.cmp calls en.le q (crossRows (String.ofList q.table) db ts rows) (JoinSelect.run py calls o db en p rows) := by
  rw [compile_from py calls hts] at hp
  have hq : { q with cond := whereE (String.ofList q.table) w } = q := by rw [← hw']
  rw [hq] at hp
  have hfilter := filter_cross text py calls hj db rows hcmp
  rw [← hw'] at hfilter
  obtain ⟨members, sorted, m1, m2, m3, m4, m5⟩ := C133_join_grouped_partial text py calls o hsym order hperm fuel db en ht htr hf hchunk
    q _ (joinsOk_from py calls hj) p hp hexpr hagg hge hnames hne hgrp hok hl hlim rows h1 hw hh hlaw
    (hsome.imp id fun ⟨r, hr, hs⟩ => by
      have : r ∈ (crossRows (String.ofList q.table) db ts rows).filter (satisfies text py.cmp calls q.cond) := List.mem_filter.2 ⟨hr, hs⟩
      rw [← hfilter, List.mem_filter] at this
      exact ⟨r, this.1, this.2⟩) hdep ho
  refine ⟨members, sorted, ?_, ?_, m3, m4, m5⟩
  · rw [← hfilter]; exact m1
  · rw [← hfilter]; exact m2

/-- **C147 is violated by a JOIN after several tables**: with two or more tables in FROM the joins of the statement are dropped, whatever
they are. -/
theorem C147_join_dropped (o : Join.Ops Val) (order : List Join.Name → List Join.Name) (fuel : Nat) (ts : List Join.Name) (hts : ts ≠ [])
    (js js' : List (Join.Join Val)) (w : List Conj) (q : Query S) :
    compileFrom py calls o order fuel ts js w q = compileFrom py calls o order fuel ts js' w q := by
  rw [compile_from py calls hts, compile_from py calls hts]

end
end Verif.Props
