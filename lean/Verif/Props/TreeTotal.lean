import Verif.Props.Session
import Verif.Props.Total
/-! C165: statements and scripts in the supported form are accepted and do what SQL says. -/
namespace Verif.Props.TreeTotal
open Verif.Val Verif.Expr Verif.Sql Verif.Where Verif.Select Verif.SqlSelect Verif.Tree Verif.SqlTree Verif.Session Verif.SqlSession Verif.Literal
open Verif.AcceptSpec Verif.TotalSpec
open Verif.Proofs.JoinSelect
open Verif.Nest (Store append asRow)
open Verif.SqlNest (rowOfRecord isAggregate)
open Verif.Props.TreeLemmas
open Verif.Props.Nested (LevelOk isAggregate_eq)
open Verif.Props.SessionLemmas (compilesKind_run exec_some StmtOk PlainConst Separate)

section
variable {S : Type} (text : Str → Bool) (py : Py) (calls : Str → List Val → Val) (o : Join.Ops Val)
  (order : List Join.Name → List Join.Name) (fuel : Nat) (en : Engine) (filter : Ty → Val → Val) (prim : Str → Bool) (minus : Val → Val)

/-! ### Conditions on the text of a statement -/

/-- The tables named in FROM and JOIN, anywhere. -/
def reads : Tree.Rel S → List Str
  | .scan t => [t]
  | .select _ s m => reads s ++ readss m
  | .union l r => reads l ++ reads r
  | .withq _ d b => reads d ++ reads b
where readss : Rels S → List Str
  | .nil => []
  | .cons e l => reads e ++ readss l

/-- One SELECT that is accepted (C157, C158). -/
def KindAccepted : Kind S → Prop
  | .plain q => QueryOk q
  | .joined joins q => QueryOk q ∧ ExprsOk q joins ∧ OnAccepted joins ∧ joins.length + 2 ≤ fuel ∧
      (JoinsOk o (String.ofList q.table) joins ∨ (InnerOk o (String.ofList q.table) joins ∧ ∀ e, q.cond = some e → ¬ Between e))
  | .comma ts w q => ts ≠ [] ∧ FromList.FromOk py calls o (String.ofList q.table) ts w ∧
      QueryOk { q with cond := JoinSelect.whereE (String.ofList q.table) w } ∧
      ExprsOk { q with cond := JoinSelect.whereE (String.ofList q.table) w } (listJoins py calls ts w q) ∧
      OnAccepted (listJoins py calls ts w q) ∧ ts.length + 2 ≤ fuel
  | .windowed q => WinOk q
  | .sub _ _ => False
  | .hav _ _ => False

/-- The columns that are compared with a subquery. -/
def compared : Cond → List Str
  | .and a b => compared a ++ compared b
  | .or a b => compared a ++ compared b
  | .not a => compared a
  | .paren a => compared a
  | .cmpSub _ a _ | .subCmp _ _ a | .inSub a _ => match a with | .col c => [c] | _ => []
  | .e _ => []
  | .exist _ => []

/-- The columns that are compared with a subquery. -/
def comparedHaving : HCond → List Str
  | .and a b => comparedHaving a ++ comparedHaving b
  | .or a b => comparedHaving a ++ comparedHaving b
  | .paren a => comparedHaving a
  | .cmpSub _ a _ | .inSub a _ => match a with | .col c => [c] | _ => []
  | .e _ => []
  | .notIn _ _ => []
  | .exist _ => []

/-- No column of WHERE that is compared with a subquery has a typing filter. -/
def Untyped : Kind S → Prop
  | .sub w _ => ∀ c ∈ compared w, baseName c = c
  | .plain _ => True
  | .joined _ _ => True
  | .comma _ _ _ => True
  | .windowed _ => True
  | .hav _ _ => True

/-- The clause when the subqueries have no rows; EXISTS as a comparison. -/
def emptyHaving : HCond → E
  | .e x => x
  | .and a b => .and (emptyHaving a) (emptyHaving b)
  | .or a b => .or (emptyHaving a) (emptyHaving b)
  | .paren a => .paren (emptyHaving a)
  | .cmpSub op a _ => .cmp op a (.lit .null)
  | .inSub a _ => .inl a .nil
  | .notIn a _ => .not (.inl a .nil)
  | .exist _ => .cmp .eq (.lit (.int 1)) (.lit (.int 0))

/-- One SELECT that is accepted: NULL may be put in for the subqueries of WHERE and HAVING, and no column that is compared with one has a
typing filter. -/
def SelectAccepted : Kind S → Prop
  | .sub w k => (∀ c ∈ compared w, baseName c = c) ∧ KindAccepted py calls o fuel (withWhere (given (fun _ => []) w) k)
  | .plain q => KindAccepted py calls o fuel (.plain q)
  | .joined joins q => KindAccepted py calls o fuel (.joined joins q)
  | .comma ts w q => KindAccepted py calls o fuel (.comma ts w q)
  | .windowed q => KindAccepted py calls o fuel (.windowed q)
  | .hav h k => (∀ c ∈ comparedHaving h, baseName c = c) ∧ Untyped k ∧
      KindAccepted py calls o fuel (havingThis (emptyHaving h) (placed [] [] k))

mutual
/-- A statement that is accepted: all its SELECTs are, there is a source for every join, and the definition of a name of WITH reads no
table the name of which begins with that name. -/
def Accepted : Tree.Rel S → Prop
  | .scan _ => True
  | .select k src more => SelectAccepted py calls o fuel k ∧ more.length = k.joins.length + k.subs ∧ Accepted src ∧ Accepteds more
  | .union l r => Accepted l ∧ Accepted r
  | .withq n d b => (∀ t ∈ reads d, ¬ n <+: t) ∧ Accepted d ∧ Accepted b
def Accepteds : Rels S → Prop
  | .nil => True
  | .cons e l => Accepted e ∧ Accepteds l
end

theorem input_reads (e : Tree.Rel S) (t : Str) (h : input e = some t) : t ∈ reads e := by
  match e with
  | .scan _ => cases h
  | .select k (.scan u) m => simp only [input, Option.some.injEq] at h; subst h; simp [reads]
  | .select k (.select _ _ _) m => cases h
  | .select k (.union _ _) m => cases h
  | .select k (.withq _ _ _) m => cases h
  | .union _ _ => cases h
  | .withq n d b =>
    rw [input] at h
    rw [reads]
    exact List.mem_append_right _ (input_reads b t h)

theorem inputs_reads (l : Rels S) (t : Str) (h : t ∈ inputs l) : t ∈ reads.readss l := by
  match l with
  | .nil => cases h
  | .cons e l =>
    rw [inputs] at h
    rw [reads.readss]
    rcases List.mem_append.1 h with h | h
    · exact List.mem_append_left _ (input_reads e t (by simpa using h))
    · exact List.mem_append_right _ (inputs_reads l t h)

theorem branchInputs_reads (e : Tree.Rel S) (t : Str) (h : t ∈ branchInputs e) : t ∈ reads e := by
  match e with
  | .union l r =>
    rw [branchInputs] at h
    rw [reads]
    rcases List.mem_append.1 h with h | h
    · exact List.mem_append_left _ (branchInputs_reads l t h)
    · exact List.mem_append_right _ (branchInputs_reads r t h)
  | .scan _ => exact input_reads _ t (by simpa [branchInputs] using h)
  | .select _ _ _ => exact input_reads _ t (by simpa [branchInputs] using h)
  | .withq _ _ _ => exact input_reads _ t (by simpa [branchInputs] using h)

theorem depInputs_reads (e : Tree.Rel S) (t : Str) (h : t ∈ depInputs e) : t ∈ reads e := by
  match e with
  | .scan _ => cases h
  | .select k src more =>
    rw [depInputs] at h
    rw [reads]
    rcases List.mem_append.1 h with h | h
    · exact List.mem_append_left _ (input_reads src t (by simpa using h))
    · exact List.mem_append_right _ (inputs_reads more t h)
  | .union l r =>
    rw [depInputs] at h
    rw [reads]
    rcases List.mem_append.1 h with h | h
    · exact List.mem_append_left _ (branchInputs_reads l t h)
    · exact List.mem_append_right _ (branchInputs_reads r t h)
  | .withq n d b =>
    rw [depInputs] at h
    rw [reads]
    rcases List.mem_append.1 h with h | h
    · exact List.mem_append_left _ (input_reads d t (by simpa using h))
    · exact List.mem_append_right _ (depInputs_reads b t h)

theorem listJoins_length (cs : List (Join.Cond Val)) (can ts : List Join.Name) : (Join.multiJoins cs can ts).length = ts.length := by
  induction ts generalizing can with
  | nil => rfl
  | cons t ts ih => rw [Join.multiJoins, List.length_cons, List.length_cons, ih]

theorem kind_compiles (hperm : ∀ l, (order l).Perm l) (k : Kind S) (h : KindAccepted py calls o fuel k) :
    compilesFilled py calls o order fuel k = true := by
  cases k with
  | plain q =>
    obtain ⟨p, hp⟩ := C157_select_accepted q h
    simp [compilesFilled, hp]
  | joined joins q =>
    obtain ⟨h1, h2, h3, h4, h5 | ⟨h5, h6⟩⟩ := h
    · obtain ⟨p, hp⟩ := C157_join_accepted py calls o order hperm q joins h5 (fun j h => (h3 j h).1) (h3.used q) h1 h2 fuel h4
      rw [← compileJoins_left py calls o order fuel joins q h5.left] at hp
      simp [compilesFilled, hp]
    · obtain ⟨p, hp⟩ := C158_inner_accepted py calls o order hperm q joins h5 h3 h1 h2 h6 fuel h4
      simp [compilesFilled, hp]
  | comma ts w q =>
    obtain ⟨h0, h1, h2, h3, h4, h5⟩ := h
    obtain ⟨p, hp⟩ := C157_join_accepted py calls o order hperm { q with cond := JoinSelect.whereE (String.ofList q.table) w }
      (listJoins py calls ts w q) (FromList.joinsOk_from py calls h1) (fun j h => (h4 j h).1) (h4.used _) h2 h3 fuel (by
        rw [listJoins, listJoins_length]; exact h5)
    rw [compilesFilled, FromList.compile_from py calls h0]
    exact Option.isSome_iff_exists.2 ⟨p, hp⟩
  | windowed q =>
    obtain ⟨p, hp⟩ := C158_window_accepted q h
    simp [compilesFilled, hp]
  | sub w k => exact h.elim
  | hav h' k => exact h.elim

theorem not_refused (prim : Str → Bool) (f : Nat → SubOperand.Sub) (w : Cond) (h : ∀ c ∈ compared w, baseName c = c) :
    SubOperand.refused prim (w.toS f) = false := by
  have key : ∀ a : E, (∀ c ∈ (match a with | .col c => [c] | _ => []), baseName c = c) → ((SubOperand.pushes prim a).map SubOperand.typed).getD false = false := by
    intro a ha
    cases a with
    | col c => cases hp : prim c <;> simp [SubOperand.pushes, hp, SubOperand.typed, ha c (by simp)]
    | _ => rfl
  induction w with
  | and a b iha ihb =>
    simp only [compared, List.mem_append] at h
    simp [Cond.toS, SubOperand.refused, iha fun c hc => h c (.inl hc), ihb fun c hc => h c (.inr hc)]
  | paren a ih => exact ih h
  | cmpSub op a i => exact key a h
  | subCmp op i a => exact key a h
  | inSub a i => exact key a h
  | _ => rfl

theorem not_refused_having (w : HCond) (h : ∀ c ∈ comparedHaving w, baseName c = c) : w.refused = false := by
  have key : ∀ a : E, (∀ c ∈ (match a with | .col c => [c] | _ => []), baseName c = c) → HavingSub.typedE a = false := by
    intro a ha
    cases a with
    | col c => simp [HavingSub.typedE, SubOperand.typed, ha c (by simp)]
    | _ => rfl
  induction w with
  | and a b iha ihb =>
    simp only [comparedHaving, List.mem_append] at h
    simp [HCond.refused, iha fun c hc => h c (.inl hc), ihb fun c hc => h c (.inr hc)]
  | or a b iha ihb =>
    simp only [comparedHaving, List.mem_append] at h
    simp [HCond.refused, iha fun c hc => h c (.inl hc), ihb fun c hc => h c (.inr hc)]
  | paren a ih => exact ih h
  | cmpSub op a i => exact key a h
  | inSub a i => exact key a h
  | _ => rfl

theorem select_refused (k : Kind S) (h : SelectAccepted py calls o fuel k) : k.refused = false := by
  cases k with
  | sub w k => exact not_refused _ _ w h.1
  | hav w k =>
    have hk : k.refused = false := by
      cases k with
      | sub w' k => exact not_refused _ _ w' h.2.1
      | hav w' k => exact h.2.2.elim
      | _ => rfl
    rw [Kind.refused, not_refused_having w h.1, hk]
    rfl
  | _ => rfl

theorem empty_like (s : Nat → SubOperand.Sub) (h : HCond) : Like (emptyHaving h) (asH (h.toH s)) := by
  induction h with
  | e x => exact .refl x
  | and a b iha ihb => exact .and iha ihb
  | or a b iha ihb => exact .or iha ihb
  | paren a ih => exact .paren ih
  | cmpSub op a i => exact .right op a (.lit _) (.known _)
  | inSub a i => exact .inl a [] _
  | notIn a i => exact .not (.inl a [] _)
  | exist i => exact .right _ _ (.lit _) (.lit _)

theorem select_compiles (hperm : ∀ l, (order l).Perm l) (k : Kind S) (h : SelectAccepted py calls o fuel k) :
    compilesKind py calls o order fuel k = true := by
  rw [compilesKind]
  cases k with
  | sub w k =>
    rw [Kind.fill, Kind.fillWhere, ← SessionLemmas.compilesFilled_like py calls o order fuel (given_like (fun _ => []) _ w) k, ← withWhere_eq]
    exact kind_compiles py calls o order fuel hperm _ h.2
  | hav w k =>
    have h3 := kind_compiles py calls o order fuel hperm _ h.2.2
    rw [havingThis_eq, SessionLemmas.compilesFilled_having py calls o order fuel (empty_like (fun i => subOf [] [] (k.joins.length + k.subs + i)) w)] at h3
    rw [Kind.fill]
    cases k with
    | sub w' k =>
      rw [placed, withWhere_eq, having_cond, SessionLemmas.compilesFilled_like py calls o order fuel
        (given_like _ (fun i => subOf [] [] (k.joins.length + i)) w') _] at h3
      rw [Kind.fillWhere, having_cond]
      exact h3
    | _ => exact h3
  | plain q => exact kind_compiles py calls o order fuel hperm (.plain q) h
  | joined joins q => exact kind_compiles py calls o order fuel hperm (.joined joins q) h
  | comma ts w q => exact kind_compiles py calls o order fuel hperm (.comma ts w q) h
  | windowed q => exact kind_compiles py calls o order fuel hperm (.windowed q) h

mutual
theorem accepted_compiles (hperm : ∀ l, (order l).Perm l) (e : Tree.Rel S) (h : Accepted py calls o fuel e) : compiles py calls o order fuel e = true := by
  match e with
  | .scan _ => rfl
  | .select k src more =>
    rw [Accepted] at h
    obtain ⟨h1, h2, h3, h4⟩ := h
    simp only [compiles, Bool.and_eq_true, decide_eq_true_eq]
    exact ⟨⟨⟨accepted_compiles hperm src h3, accepteds_compile hperm more h4⟩, h2, select_refused py calls o fuel k h1⟩, select_compiles py calls o order fuel hperm k h1⟩
  | .union l r =>
    rw [Accepted] at h
    simp only [compiles, Bool.and_eq_true]
    exact ⟨accepted_compiles hperm l h.1, accepted_compiles hperm r h.2⟩
  | .withq n d b =>
    rw [Accepted] at h
    obtain ⟨h1, h2, h3⟩ := h
    simp only [compiles, Bool.and_eq_true, Bool.not_eq_true']
    refine ⟨⟨?_, accepted_compiles hperm d h2⟩, accepted_compiles hperm b h3⟩
    rw [loops, List.any_eq_false]
    intro t ht
    rw [List.isPrefixOf_iff_prefix]
    exact h1 t (depInputs_reads d t ht)
theorem accepteds_compile (hperm : ∀ l, (order l).Perm l) (l : Rels S) (h : Accepteds py calls o fuel l) : compileds py calls o order fuel l = true := by
  match l with
  | .nil => rfl
  | .cons e l =>
    rw [Accepteds] at h
    simp only [compileds, Bool.and_eq_true]
    exact ⟨accepted_compiles hperm e h.1, accepteds_compile hperm l h.2⟩
end

/-! ### Conditions on a SELECT and its rows, without the compiled plan -/

/-- As `LevelOk`, with what can be seen from the query in place of the plan. -/
structure PlainFits (q : Query S) (rows : List Row) : Prop where
  names : (q.cols.map (·.1)).Nodup
  limit : q.limit ≠ some 0
  cond : WhereOk text py calls q rows
  having : ∀ e ∈ q.having, havingOk e = true
  kind :
    (q.group = [] ∧ q.distinct = false ∧ (∀ c ∈ q.cols, ∃ e, c.2 = .expr e ∧ scalarOk e = true) ∧ OrderOk q) ∨
    (q.group = [] ∧ q.distinct = true ∧ (∀ c ∈ q.cols, ∃ e, c.2 = .expr e ∧ scalarOk e = true) ∧ q.cols ≠ [] ∧ GroupOrderOk q ∧
      LimitsResult q ∧ Distinguishable text py calls q rows) ∨
    ((q.group ≠ [] ∨ ∃ c ∈ q.cols, isAggregate c.2 = true) ∧ q.distinct = false ∧ q.cols ≠ [] ∧ GroupOrderOk q ∧
      (∀ n e, (n, Select.Item.expr e) ∈ q.cols → scalarOk e = true) ∧
      (∀ n args final, (n, Select.Item.agg args final) ∈ q.cols → ∀ a ∈ args, scalarOk a.2 = true) ∧
      (∀ e, GKey.expr e ∈ q.group → scalarOk e = true) ∧ GroupNamesOk q.cols q.group ∧ LimitsResult q ∧
      (∀ n args final, (n, Select.Item.agg args final) ∈ q.cols → ∀ a ∈ args, ∃ good : Val → Prop,
        a.1.fold.Law good ∧ ∀ r ∈ rows, good (sem text py.cmp calls r a.2)) ∧
      (q.group ≠ [] ∨ ∃ r ∈ rows, satisfies text py.cmp calls q.cond r = true) ∧
      ((∀ c ∈ q.cols, isAggregate c.2 = false) → Dependent text py calls q rows))

theorem noAgg (q : Query S) (hc : ∀ c ∈ q.cols, ∃ e, c.2 = .expr e ∧ scalarOk e = true) : ¬ ∃ c ∈ q.cols, isAgg c.2 = true := by
  rintro ⟨c, hm, ha⟩
  obtain ⟨e, he, _⟩ := hc c hm
  rw [he] at ha; cases ha

theorem plain_fits (q : Query S) (p : Plan S) (hp : compileSelect q = some p) (rows : List Row) (h : PlainFits text py calls q rows) :
    LevelOk text py calls q p rows where
  names := h.names
  limit := h.limit
  cond := h.cond
  having := h.having
  kind := by
    rcases h.kind with h | ⟨h1, h2, h3, h4, h5, h6, h7⟩ | ⟨h1, h2, h3, h4, h5, h6, h7, h8, h9, h10, h11, h12⟩
    · exact .inl h
    · refine .inr (.inl ⟨h1, h2, h3, h4, h5, ?_, h7⟩)
      rcases Total.limits hp h6 with h | h | h
      · exact .inl h
      · exact absurd h (noAgg q h3)
      · exact .inr h
    · refine .inr (.inr ⟨h1, h2, h3, h4, h5, h6, h7, h8, ?_, h10, h11, h12⟩)
      simp only [isAggregate_eq]
      exact Total.limits hp h9

/-- As `JoinLevelOk`, with what can be seen from the query in place of the plan. -/
structure JoinFits (joins eff : List (Join.Join Val)) (q : Query S) (db : Join.Name → List (Join.Row Val)) (rows : List Row) : Prop where
  shape : (JoinsOk o (String.ofList q.table) joins ∧ eff = joins) ∨ (InnerOk o (String.ofList q.table) joins ∧ eff = asLeft joins)
  one : OneMatch o (String.ofList q.table) db eff rows
  names : (q.cols.map (·.1)).Nodup
  limit : q.limit ≠ some 0
  cond : WhereOk text py calls { q with prim := JoinSelect.isPrim } (joinedRows o (String.ofList q.table) db eff rows)
  having : ∀ e ∈ q.having, havingOk e = true
  kind :
    (q.group = [] ∧ q.distinct = false ∧ (∀ c ∈ q.cols, ∃ e, c.2 = .expr e ∧ scalarOk e = true) ∧ JoinOrderOk q) ∨
    (q.group = [] ∧ q.distinct = true ∧ (∀ c ∈ q.cols, ∃ e, c.2 = .expr e ∧ scalarOk e = true) ∧ q.cols ≠ [] ∧ JoinGroupOrderOk q ∧
      (LimitsResult q ∨ InnerOk o (String.ofList q.table) joins) ∧
      Distinguishable text py calls q (joinedRows o (String.ofList q.table) db eff rows)) ∨
    ((q.group ≠ [] ∨ ∃ c ∈ q.cols, isAggregate c.2 = true) ∧ q.cols ≠ [] ∧ JoinGroupOrderOk q ∧
      (∀ n e, (n, Select.Item.expr e) ∈ q.cols → scalarOk e = true) ∧
      (∀ n args final, (n, Select.Item.agg args final) ∈ q.cols → ∀ a ∈ args, scalarOk a.2 = true) ∧
      (∀ e, GKey.expr e ∈ q.group → scalarOk e = true) ∧ GroupNamesOk q.cols q.group ∧
      (LimitsResult q ∨ InnerOk o (String.ofList q.table) joins) ∧
      (∀ n args final, (n, Select.Item.agg args final) ∈ q.cols → ∀ a ∈ args, ∃ good : Val → Prop,
        a.1.fold.Law good ∧ ∀ r ∈ joinedRows o (String.ofList q.table) db eff rows, good (sem text py.cmp calls r a.2)) ∧
      (q.group ≠ [] ∨ ∃ r ∈ joinedRows o (String.ofList q.table) db joins rows, satisfies text py.cmp calls q.cond r = true) ∧
      ((∀ c ∈ q.cols, isAggregate c.2 = false) → Dependent text py calls q (joinedRows o (String.ofList q.table) db eff rows)))

theorem join_limits (joins eff : List (Join.Join Val)) (q : Query S) (p : JoinSelect.Plan (Join.C Val) S)
    (hp : JoinSelect.compileJoins py calls o order fuel joins q = some p)
    (hs : (JoinsOk o (String.ofList q.table) joins ∧ eff = joins) ∨ (InnerOk o (String.ofList q.table) joins ∧ eff = asLeft joins))
    (hl : LimitsResult q ∨ InnerOk o (String.ofList q.table) joins) :
    q.limit = none ∨ (∃ c ∈ q.cols, isAgg c.2 = true) ∨ p.predicate.isSome ∨ p.intercept.isSome ∨ p.sort.isSome := by
  rcases hs with ⟨hj, rfl⟩ | ⟨hj, rfl⟩
  · rcases hl with hl | hj'
    · rw [compileJoins_left py calls o order fuel _ q hj.left] at hp
      obtain ⟨info, _, h⟩ := Proofs.JoinSelect.compile_some hp
      exact Total.limitsJoin h hl
    · exact .inr (.inr (.inl (Total.inner_predicate py calls hj' hp)))
  · exact .inr (.inr (.inl (Total.inner_predicate py calls hj hp)))

theorem join_fits (joins eff : List (Join.Join Val)) (q : Query S) (p : JoinSelect.Plan (Join.C Val) S)
    (hp : JoinSelect.compileJoins py calls o order fuel joins q = some p) (db : Join.Name → List (Join.Row Val)) (rows : List Row)
    (h : JoinFits text py calls o joins eff q db rows) : JoinLevelOk text py calls o joins eff q p db rows where
  shape := h.shape
  one := h.one
  names := h.names
  limit := h.limit
  cond := h.cond
  having := h.having
  kind := by
    rcases h.kind with h | ⟨h1, h2, h3, h4, h5, h6, h7⟩ | ⟨h1, h3, h4, h5, h6, h7, h8, h9, h10, h11, h12⟩
    · exact .inl h
    · refine .inr (.inl ⟨h1, h2, h3, h4, h5, ?_, h7⟩)
      rcases join_limits py calls o order fuel joins eff q p hp h.shape h6 with h | h | h
      · exact .inl h
      · exact absurd h (noAgg q h3)
      · exact .inr h
    · refine .inr (.inr ⟨h1, h3, h4, h5, h6, h7, h8, ?_, h10, h11, h12⟩)
      simp only [isAggregate_eq]
      exact join_limits py calls o order fuel joins eff q p hp h.shape h9

/-- What is asked of one SELECT, for the rows of its sources. -/
def KindFits (rows : List Row) (others : List (List Row)) : Kind S → Prop
  | .plain q => PlainFits text py calls q rows
  | .joined joins q => ∃ eff, JoinFits text py calls o joins eff q (joinedTable joins others) rows
  | .comma ts w q => ListOk text py calls o ts w q (listedTable ts others) rows ∧
      JoinFits text py calls o (listJoins py calls ts w q) (listJoins py calls ts w q)
        { q with cond := JoinSelect.whereE (String.ofList q.table) w } (listedTable ts others) rows
  | .windowed q => WinLevelOk text py calls en q rows
  | .sub _ _ => False
  | .hav _ _ => False

/-- What is asked of one SELECT whose WHERE and HAVING clauses may have subqueries. -/
def SelectFits (rows : List Row) (heads : List (List Str)) (others : List (List Row)) : Kind S → Prop
  | .sub w k => Single (fun i => firstColumn heads others (k.joins.length + i)) w ∧
      KindFits text py calls o en rows others (Kind.fill heads others (.sub w k))
  | .plain q => KindFits text py calls o en rows others (.plain q)
  | .joined joins q => KindFits text py calls o en rows others (.joined joins q)
  | .comma ts w q => KindFits text py calls o en rows others (.comma ts w q)
  | .windowed q => KindFits text py calls o en rows others (.windowed q)
  | .hav h k => SingleWhere heads others k ∧ SingleHaving (fun i => firstColumn heads others (k.joins.length + k.subs + i)) h ∧
      KindFits text py calls o en rows others (Kind.fill heads others (.hav h k))

theorem kind_fits (rows : List Row) (others : List (List Row)) (k : Kind S) (h : KindFits text py calls o en rows others k) :
    KindOk text py calls o order fuel en rows others k := by
  cases k with
  | plain q => exact fun p hp => plain_fits text py calls q p hp _ h
  | joined joins q =>
    intro p hp
    obtain ⟨eff, h⟩ := h
    exact ⟨eff, join_fits text py calls o order fuel joins eff q p hp _ _ h⟩
  | comma ts w q =>
    refine ⟨h.1, fun p hp => ?_⟩
    rw [JoinSelect.compileFrom, if_neg h.1.several] at hp
    exact join_fits text py calls o order fuel _ _ { q with cond := JoinSelect.whereE (String.ofList q.table) w } p hp _ _ h.2
  | windowed q => exact h
  | sub w k => exact h
  | hav w k => exact h

mutual
/-- What is asked, of every SELECT in it, for the rows that SELECT reads in SQL. -/
def Fits (env : Str → List Out) : Tree.Rel S → Prop
  | .scan _ => True
  | .select k src more => Fits env src ∧ Fitss env more ∧ ∀ rows others, Means text py.cmp calls en.le o env src rows →
      MeansAll text py.cmp calls en.le o env more others →
      SelectFits text py calls o en (rows.map rowOfRecord) (headers more) (others.map (·.map rowOfRecord)) k
  | .union l r => Fits env l ∧ Fits env r
  | .withq n d b => Fits env d ∧ ∀ rows, Means text py.cmp calls en.le o env d rows → Fits (fun m => if m = n then rows else env m) b
def Fitss (env : Str → List Out) : Rels S → Prop
  | .nil => True
  | .cons e l => Fits env e ∧ Fitss env l
end

mutual
theorem fits_ok (env : Str → List Out) (e : Tree.Rel S) (h : Fits text py calls o en env e) : Ok text py calls o order fuel en env e := by
  match e with
  | .scan _ => rw [Ok]; trivial
  | .select k src more =>
    rw [Fits] at h
    rw [Ok]
    refine ⟨fits_ok env src h.1, fitss_ok env more h.2.1, fun rows others h1 h2 => ?_⟩
    have := h.2.2 rows others h1 h2
    cases k with
    | sub w k => exact ⟨this.1, kind_fits text py calls o order fuel en _ _ _ this.2⟩
    | hav w k => exact ⟨this.1, this.2.1, kind_fits text py calls o order fuel en _ _ _ this.2.2⟩
    | plain q => exact kind_fits text py calls o order fuel en _ (others.map (·.map rowOfRecord)) (.plain q) this
    | joined joins q => exact kind_fits text py calls o order fuel en _ _ (.joined joins q) this
    | comma ts w q => exact kind_fits text py calls o order fuel en _ _ (.comma ts w q) this
    | windowed q => exact kind_fits text py calls o order fuel en _ (others.map (·.map rowOfRecord)) (.windowed q) this
  | .union l r =>
    rw [Fits] at h
    rw [Ok]
    exact ⟨fits_ok env l h.1, fits_ok env r h.2⟩
  | .withq n d b =>
    rw [Fits] at h
    rw [Ok]
    exact ⟨fits_ok env d h.1, fun rows hr => fits_ok _ b (h.2 rows hr)⟩
theorem fitss_ok (env : Str → List Out) (l : Rels S) (h : Fitss text py calls o en env l) : Oks text py calls o order fuel en env l := by
  match l with
  | .nil => rw [Oks]; trivial
  | .cons e l =>
    rw [Fitss] at h
    rw [Oks]
    exact ⟨fits_ok env e h.1, fitss_ok env l h.2⟩
end

/-! ### Scripts -/

/-- A statement that is accepted. -/
def StmtAccepted : Stmt S → Prop
  | .query e => Accepted py calls o fuel e
  | .insert _ e => Accepted py calls o fuel e
  | .values _ cols rows => cols ≠ [] ∧ ∀ r ∈ rows, r.length ≤ cols.length
  | .delete _ cond => ∀ e ∈ cond, pushable prim e = true
  | .set _ _ => True

/-- What is asked of a statement, in the state `s`. -/
def StmtFits (s : SqlSession.State) : Stmt S → Prop
  | .query e => SqlTree.Scoped e ∧ Aligned e ∧ Fits text py calls o en s.tables e
  | .insert t e => isQuery e = true ∧ t ∉ bound e ∧ SqlTree.Scoped e ∧ Aligned e ∧ Fits text py calls o en s.tables e
  | .values _ cols rows => (cols.map Prod.fst).Nodup ∧ (∀ r ∈ rows, ∀ c ∈ r, PlainConst c) ∧
      ∀ (j : Nat) (t : Ty), ((∃ n, cols[j]? = some (n, some t)) ∨
          ∃ r ∈ rows, ∃ e, r[j]? = some e ∧ tyOf (SqlLiteral.value s.env minus e) = some t) →
        ∀ r ∈ rows, filter t ((r[j]?.map (SqlLiteral.value s.env minus)).getD .null) = (r[j]?.map (SqlLiteral.value s.env minus)).getD .null
  | .delete t (some e) => condOk e = true ∧ inListsConst e = true ∧ NoClash (operandCols e) ∧
      ∀ r ∈ s.tables t, swapsHarmless text py calls (rowOfRecord r) prim e
  | .delete _ none => True
  | .set _ _ => True

theorem stmt_ok (s : SqlSession.State) (x : Stmt S) (ha : StmtAccepted py calls o fuel prim x)
    (h : StmtFits text py calls o en filter prim minus s x) : StmtOk text py calls o order fuel en filter prim minus s x := by
  cases x with
  | query e => exact ⟨h.1, h.2.1, fits_ok text py calls o order fuel en _ e h.2.2⟩
  | insert t e => exact ⟨h.1, h.2.1, h.2.2.1, h.2.2.2.1, fits_ok text py calls o order fuel en _ e h.2.2.2.2⟩
  | values t cols rows => exact ⟨ha.1, h.1, ha.2, h.2.1, h.2.2⟩
  | delete t cond => cases cond <;> exact h
  | set n v => trivial

theorem insertRow_some (cols : List (Str × Option Ty)) (vs : List Val) (d : List (Str × Val)) (h : vs.length ≤ cols.length) :
    ∃ r, insertRow cols vs d = some r ∧ r.1.length = cols.length := by
  induction cols generalizing vs d with
  | nil =>
    cases vs with
    | nil => exact ⟨_, rfl, rfl⟩
    | cons v vs => simp at h
  | cons c cols ih =>
    cases vs with
    | nil => exact ⟨_, rfl, rfl⟩
    | cons v vs =>
      obtain ⟨r, h1, h2⟩ := ih vs (dictSet c.1 v d) (by simpa using h)
      refine ⟨_, by rw [insertRow, h1, Option.map_some], ?_⟩
      simp [h2]

theorem insertRows_some (cols : List (Str × Option Ty)) (rows : List (List Val)) (h : ∀ r ∈ rows, r.length ≤ cols.length) :
    (insertRows cols rows).isSome = true := by
  induction rows generalizing cols with
  | nil => rfl
  | cons r rows ih =>
    obtain ⟨x, h1, h2⟩ := insertRow_some cols r [] (h r (by simp))
    rw [insertRows, h1]
    simpa using ih x.1 fun r' hr' => by rw [h2]; exact h r' (by simp [hr'])

theorem dropWith_accepted (e : Tree.Rel S) (h : Accepted py calls o fuel e) : Accepted py calls o fuel (dropWith e) := by
  match e with
  | .withq n d b =>
    rw [Accepted] at h
    rw [dropWith]
    exact dropWith_accepted b h.2.2
  | .scan _ => exact h
  | .select _ _ _ => exact h
  | .union _ _ => exact h

theorem start_some (hperm : ∀ l, (order l).Perm l) (x : Stmt S) (h : StmtAccepted py calls o fuel prim x) (w : World) :
    ∃ w' ts, start py calls o order fuel filter prim x w = (w', some ts) := by
  cases x with
  | query e => exact ⟨_, _, by rw [Session.start, if_pos (accepted_compiles py calls o order fuel hperm e h)]⟩
  | insert t e => exact ⟨_, _, by rw [Session.start, if_pos (accepted_compiles py calls o order fuel hperm _ (dropWith_accepted py calls o fuel e h))]⟩
  | values t cols rows =>
    have := insertRows_some cols (rows.map fun r => r.map (parseConst w.env)) (by
      intro r hr
      obtain ⟨r0, hr0, rfl⟩ := List.mem_map.1 hr
      simpa using h.2 r0 hr0)
    obtain ⟨q, hq⟩ := Option.isSome_iff_exists.1 this
    exact ⟨_, _, by rw [Session.start, insertValues, if_neg h.1, hq, Option.map_some, Option.map_some]⟩
  | delete t cond =>
    cases cond with
    | none => exact ⟨_, _, rfl⟩
    | some e =>
      cases hc : compileDelete prim (some e) with
      | none =>
        have := (C43_rejected_iff prim e).1 hc
        rw [h e rfl] at this
        cases this
      | some qs => exact ⟨_, _, by rw [Session.start, hc, Option.map_some]⟩
  | set n v => exact ⟨_, _, rfl⟩

theorem run_some (hperm : ∀ l, (order l).Perm l) (ss : List (Stmt S)) (h : ∀ x ∈ ss, StmtAccepted py calls o fuel prim x)
    (x : Exec.State World (Job S)) : ∃ y, Exec.run (machine py calls o order fuel en filter prim) x ss = (y, true) := by
  induction ss generalizing x with
  | nil => exact ⟨_, rfl⟩
  | cons s ss ih =>
    obtain ⟨w, ts, hs⟩ := start_some py calls o order fuel filter prim hperm s (h s (by simp)) x.world
    have hm : (machine py calls o order fuel en filter prim).start s x.world = (w, some ts) := hs
    rw [Exec.run, hm]
    exact ih (fun y hy => h y (by simp [hy])) _

end
end Verif.Props.TreeTotal

namespace Verif.Props
open Verif.Val Verif.Expr Verif.Sql Verif.Where Verif.Select Verif.Tree Verif.SqlTree Verif.Session Verif.SqlSession Verif.Literal
open Verif.TotalSpec
open Verif.Nest (Store)
open Verif.Props.TreeTotal
open Verif.Props.SessionLemmas (Separate)

section
variable {S : Type} (text : Str → Bool) (py : Py) (calls : Str → List Val → Val) (o : Join.Ops Val)
  (order : List Join.Name → List Join.Name) (fuel : Nat) (en : Engine) (filter : Ty → Val → Val) (prim : Str → Bool) (minus : Val → Val)

/-- C165: a statement of any shape — SELECTs with LEFT or INNER JOINs of tables and subqueries, aggregates, GROUP BY, DISTINCT, window
functions; subqueries in FROM, UNION ALL, WITH, to any depth — all the SELECTs of which are in the supported form is accepted and returns
SQL's result.  All conditions can be seen from the statement and the rows of its tables; none speaks of what the compiler makes of it. -/
theorem C165_statement_partial (hsym : ∀ a b, o.truthy (o.cmp .eq a b) = o.truthy (o.cmp .eq b a)) (hperm : ∀ l, (order l).Perm l)
    (hen : EngineOk en) (hf : Faithful py en.src) (e : Tree.Rel S) (db : Store) (hacc : Accepted py calls o fuel e) (hs : SqlTree.Scoped e)
    (ha : Aligned e) (hfit : Fits text py calls o en db e) (hfresh : ∀ n ∈ bound e, db n = []) :
    ∃ out, Tree.result py calls o order fuel en db e = some out ∧ Means text py.cmp calls en.le o db e out := by
  obtain ⟨x, hx⟩ := SessionLemmas.exec_some py calls o order fuel en e (accepted_compiles py calls o order fuel hperm e hacc) db
  have hr : Tree.result py calls o order fuel en db e = some (collect x.1 e x.2) := by rw [Tree.result, hx]; rfl
  exact ⟨_, hr, C155_statement_partial text py calls o order fuel hsym hperm en hen.total hen.trans hf hen.chunks e db _ hr hs ha
    (fits_ok text py calls o order fuel en db e hfit) hfresh⟩

/-- C165: a script of any number of statements in the supported form is accepted, ends, and does what SQL says. -/
theorem C165_script_partial (hsym : ∀ a b, o.truthy (o.cmp .eq a b) = o.truthy (o.cmp .eq b a)) (hperm : ∀ l, (order l).Perm l)
    (hen : EngineOk en) (hf : Faithful py en.src) (ss : List (Stmt S)) (w : World)
    (hacc : ∀ st ∈ ss, StmtAccepted py calls o fuel prim st)
    (hok : ∀ pre st post, ss = pre ++ st :: post → ∀ s', Steps text py.cmp calls en.le o minus ⟨w.env, w.store, w.printed⟩ pre s' →
      StmtFits text py calls o en filter prim minus s' st)
    (hsep : Separate ss) (hnew : ∀ st ∈ ss, ∀ n ∈ binds st, w.store n = []) :
    ∃ x s' N, Exec.run (machine py calls o order fuel en filter prim) ⟨w, [], []⟩ ss = (x, true) ∧
      Steps text py.cmp calls en.le o minus ⟨w.env, w.store, w.printed⟩ ss s' ∧
      ∀ n, N ≤ n → ∃ y, Exec.execute (machine py calls o order fuel en filter prim) n x = (y, .returned) ∧
        y.runners = [] ∧ y.world.env = s'.env ∧ y.world.printed = s'.shown ∧
        ∀ k, (∀ st ∈ ss, k ∉ binds st) → y.world.store k = s'.tables k := by
  obtain ⟨x, hx⟩ := run_some py calls o order fuel en filter prim hperm ss hacc ⟨w, [], []⟩
  obtain ⟨s', h1, h2⟩ := C164_script_partial text py calls o order fuel en filter prim minus hsym hperm hen.total hen.trans hf hen.chunks ss w x hx
    (fun pre st post he s' hs' => stmt_ok text py calls o order fuel en filter prim minus s' st (hacc st (by rw [he]; simp)) (hok pre st post he s' hs'))
    hsep hnew
  exact ⟨x, s', x.runners.length + 1, hx, h1, fun n hn => h2 n (by omega)⟩

end
end Verif.Props
