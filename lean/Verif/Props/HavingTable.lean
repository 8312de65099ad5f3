import Verif.Model.HavingTable
import Verif.Spec.HavingTable
import Verif.Props.UnknownTable
import Verif.Proofs.WinSelect
import Verif.Props.FromCases
/-! C180: tables in HAVING. -/
namespace Verif.Props.HavingTab
open Verif.Val Verif.Expr Verif.Where Verif.Select Verif.AcceptSpec Verif.Join Verif.SqlSelect Verif.Sql
open Verif.HavingTable (bare side untabled untabledHaving)

theorem prim_iff (c : Str) : JoinSelect.isPrim c = true ↔ (JoinSelect.refOf c).table = none := by
  unfold JoinSelect.isPrim JoinSelect.refOf
  split <;> rename_i h <;> simp [h]

theorem bare_prim (c : Str) (h : (JoinSelect.refOf c).table = none) : bare c = c := by
  unfold bare JoinSelect.refOf at *
  split at h
  · cases h
  · rename_i hc; rw [if_neg hc]; exact String.toList_ofList

variable (text : Str → Bool) (cmp : Cmp → Val → Val → Val) (calls : Str → List Val → Val)

theorem side_sem (out : Out) (r : Row) (e e' : E) (h : side e = some e')
    (hq : ∀ c, QualifiedIn e c → colVal (bare c) out = r c) :
    sem text cmp calls (fun n => colVal n out) e' = sem text cmp calls (havingEnv out r) e := by
  have hgen : ∀ e, (colsE e).all JoinSelect.isPrim = true →
      sem text cmp calls (fun n => colVal n out) e = sem text cmp calls (havingEnv out r) e := by
    intro e he
    refine WinSelect.sem_congr text cmp calls _ _ e fun c hc => ?_
    have := (prim_iff c).1 (List.all_eq_true.1 he c hc)
    simp only [havingEnv, if_pos this]
  cases e with
  | col c =>
    cases h
    show colVal (bare c) out = if (JoinSelect.refOf c).table = none then colVal c out else r c
    split
    · next h => rw [bare_prim c h]
    · next h => exact hq c ⟨List.mem_cons_self, h⟩
  | _ =>
    simp only [side] at h
    split at h
    · next he => cases h; exact hgen _ he
    · cases h

theorem untabled_sem (out : Out) (r : Row) (e e' : E) (hok : havingOk e = true) (h : untabled e = some e')
    (hq : ∀ c, QualifiedIn e c → colVal (bare c) out = r c) :
    sem text cmp calls (fun n => colVal n out) e' = sem text cmp calls (havingEnv out r) e := by
  induction e using E.rec (motive_2 := fun _ => True) (motive_3 := fun _ => True) generalizing e' with
  | and a b iha ihb =>
    simp only [untabled, Option.bind_eq_some_iff, Option.map_eq_some_iff] at h
    obtain ⟨x, hx, y, hy, rfl⟩ := h
    rw [havingOk, Bool.and_eq_true] at hok
    simp only [sem]
    rw [iha x hok.1 hx fun c hc => hq c ⟨List.mem_append_left _ hc.1, hc.2⟩, ihb y hok.2 hy fun c hc => hq c ⟨List.mem_append_right _ hc.1, hc.2⟩]
  | or a b iha ihb =>
    simp only [untabled, Option.bind_eq_some_iff, Option.map_eq_some_iff] at h
    obtain ⟨x, hx, y, hy, rfl⟩ := h
    rw [havingOk, Bool.and_eq_true] at hok
    simp only [sem]
    rw [iha x hok.1 hx fun c hc => hq c ⟨List.mem_append_left _ hc.1, hc.2⟩, ihb y hok.2 hy fun c hc => hq c ⟨List.mem_append_right _ hc.1, hc.2⟩]
  | paren a ih =>
    obtain ⟨x, hx, rfl⟩ := Option.map_eq_some_iff.1 h
    exact ih x hok hx hq
  | cmp op a b =>
    simp only [untabled, Option.bind_eq_some_iff, Option.map_eq_some_iff] at h
    obtain ⟨x, hx, y, hy, rfl⟩ := h
    simp only [sem]
    rw [side_sem text cmp calls out r a x hx fun c hc => hq c ⟨List.mem_append_left _ hc.1, hc.2⟩,
      side_sem text cmp calls out r b y hy fun c hc => hq c ⟨List.mem_append_right _ hc.1, hc.2⟩]
  | not a =>
    obtain ⟨x, hx, rfl⟩ := Option.map_eq_some_iff.1 h
    simp only [sem]
    rw [side_sem text cmp calls out r a x hx hq]
  | is a w =>
    obtain ⟨x, hx, rfl⟩ := Option.map_eq_some_iff.1 h
    cases w <;> simp only [sem] <;> rw [side_sem text cmp calls out r a x hx hq]
  | inl a l =>
    simp only [untabled, Option.bind_eq_some_iff] at h
    obtain ⟨x, hx, h⟩ := h
    split at h
    · next hl =>
      cases h
      have hL : ∀ l : EL, (colsEL l).all JoinSelect.isPrim = true →
          semL text cmp calls (fun n => colVal n out) l = semL text cmp calls (havingEnv out r) l := by
        intro l hl
        refine WinSelect.semL_congr text cmp calls _ _ l fun c hc => ?_
        have := (prim_iff c).1 (List.all_eq_true.1 hl c hc)
        simp only [havingEnv, if_pos this]
      simp only [sem]
      rw [side_sem text cmp calls out r a x hx fun c hc => hq c ⟨List.mem_append_left _ hc.1, hc.2⟩, hL l hl]
    · cases h
  | _ => first | trivial | cases hok

theorem side_ok (e e' : E) (h : side e = some e') : scalarOk e' = scalarOk e ∧ boolShape e' = boolShape e := by
  cases e with
  | col c => cases h; exact ⟨rfl, rfl⟩
  | _ =>
    simp only [side] at h
    split at h
    · cases h; exact ⟨rfl, rfl⟩
    · cases h

theorem untabled_ok (e e' : E) (h : untabled e = some e') (hok : havingOk e = true) : havingOk e' = true := by
  induction e using E.rec (motive_2 := fun _ => True) (motive_3 := fun _ => True) generalizing e' with
  | and a b iha ihb =>
    simp only [untabled, Option.bind_eq_some_iff, Option.map_eq_some_iff] at h
    obtain ⟨x, hx, y, hy, rfl⟩ := h
    rw [havingOk, Bool.and_eq_true] at hok ⊢
    exact ⟨iha x hx hok.1, ihb y hy hok.2⟩
  | or a b iha ihb =>
    simp only [untabled, Option.bind_eq_some_iff, Option.map_eq_some_iff] at h
    obtain ⟨x, hx, y, hy, rfl⟩ := h
    rw [havingOk, Bool.and_eq_true] at hok ⊢
    exact ⟨iha x hx hok.1, ihb y hy hok.2⟩
  | paren a ih =>
    obtain ⟨x, hx, rfl⟩ := Option.map_eq_some_iff.1 h
    exact ih x hx hok
  | cmp op a b =>
    simp only [untabled, Option.bind_eq_some_iff, Option.map_eq_some_iff] at h
    obtain ⟨x, hx, y, hy, rfl⟩ := h
    rw [havingOk] at hok ⊢
    rw [(side_ok a x hx).1, (side_ok b y hy).1]; exact hok
  | not a =>
    obtain ⟨x, hx, rfl⟩ := Option.map_eq_some_iff.1 h
    rw [havingOk] at hok ⊢
    rw [(side_ok a x hx).1, (side_ok a x hx).2]; exact hok
  | is a w =>
    obtain ⟨x, hx, rfl⟩ := Option.map_eq_some_iff.1 h
    cases w with
    | null => rw [havingOk] at hok ⊢; rw [(side_ok a x hx).1]; exact hok
    | _ => cases hok
  | inl a l =>
    simp only [untabled, Option.bind_eq_some_iff] at h
    obtain ⟨x, hx, h⟩ := h
    split at h
    · cases h
      rw [havingOk] at hok ⊢; rw [(side_ok a x hx).1]; exact hok
    · cases h
  | _ => first | trivial | cases hok

end Verif.Props.HavingTab

namespace Verif.Props
open Verif.Val Verif.Expr Verif.Where Verif.Select Verif.AcceptSpec Verif.Join Verif.Proofs.JoinSelect Verif.SqlSelect Verif.Props.HavingTab
open Verif.HavingTable (bare side untabled untabledHaving)
variable {S : Type} (text : Str → Bool) (py : Py) (calls : Str → List Val → Val)

/-- **C180**: as C132, with columns of the tables in HAVING: a column `t.c` there is the column of the table, when the result column `c`
is `t.c`. -/
theorem C180_having_partial (o : Join.Ops Val) (hsym : ∀ a b, o.truthy (o.cmp .eq a b) = o.truthy (o.cmp .eq b a))
    (order : List Join.Name → List Join.Name) (hperm : ∀ l, (order l).Perm l) (fuel : Nat) (db : Join.Name → List (Join.Row Val))
    (en : Engine) (ht : ∀ x y, en.le x y = true ∨ en.le y x = true)
    (htr : ∀ x y z, en.le x y = true → en.le y z = true → en.le x z = true) (hf : Faithful py en.src) (q : Query S)
    (joins : List (Join.Join Val)) (hj : JoinsOk o (String.ofList q.table) joins) (hu : ∀ j ∈ joins, Used { q with having := none } joins j.name)
    (p : JoinSelect.Plan (Join.C Val) S)
    (hp : HavingTable.compile py calls o order fuel joins q = some p) (hcols : ∀ c ∈ q.cols, ∃ e, c.2 = .expr e ∧ scalarOk e = true)
    (hnames : (q.cols.map (·.1)).Nodup) (hg : q.group = []) (hd : q.distinct = false) (hl : q.limit ≠ some 0) (rows : List Row)
    (h1 : OneMatch o (String.ofList q.table) db joins rows)
    (hw : WhereOk text py calls { q with prim := JoinSelect.isPrim } (joinedRows o (String.ofList q.table) db joins rows))
    (hh : ∀ e ∈ q.having, havingOk e = true) (ho : JoinOrderOk q)
    (hsel : ∀ e ∈ q.having, ∀ c, QualifiedIn e c → ((JoinSelect.refOf c).col.toList, Select.Item.expr (.col c)) ∈ q.cols) :
    JoinHavingResult text py.cmp calls en.le q (joinedRows o (String.ofList q.table) db joins rows) (JoinSelect.run py calls o db en p rows) := by
  obtain ⟨info, hi, hp⟩ := Option.bind_eq_some_iff.1 hp
  split at hp
  · next hk =>
    obtain ⟨h, hh', hp⟩ := Option.bind_eq_some_iff.1 hp
    have hp' : JoinSelect.compile py calls o order fuel joins { q with having := h } = some p := by
      refine Option.bind_eq_some_iff.2 ⟨info, hi, ?_⟩
      rw [if_pos]
      · exact hp
      · rw [Bool.and_eq_true] at hk ⊢
        refine ⟨List.all_eq_true.2 fun j hj => ?_, hk.2⟩
        have h1 := List.all_eq_true.1 hk.1 j hj
        rw [Bool.and_eq_true] at h1 ⊢
        refine ⟨?_, h1.2⟩
        rw [JoinSelect.keyFound, Bool.or_eq_true]
        refine .inr ((Accept.mentions_iff _ _ _).2 ?_)
        rcases hu j hj with h | ⟨e, c, he, hc⟩ | h
        · exact .inl h
        · refine .inr (.inl ⟨e, c, ?_, hc⟩)
          rcases he with he | he
          · refine .inl ?_
            cases he with
            | column h => exact .column h
            | arg h ha => exact .arg h ha
            | key h => exact .key h
            | name h => exact .name h
            | cond h => exact .cond h
          · cases he
        · exact .inr (.inr h)
    have hok : ∀ e ∈ h, havingOk e = true := by
      intro e he
      cases hq : q.having with
      | none => rw [hq] at hh'; cases hh'; cases he
      | some e0 =>
        rw [hq] at hh'
        obtain ⟨x, hx, rfl⟩ := Option.map_eq_some_iff.1 hh'
        cases Option.some.inj he
        exact untabled_ok e0 _ hx (hh e0 hq)
    obtain ⟨sorted, hs, hr⟩ := C132_join_select_partial text py calls o hsym order hperm fuel db en ht htr hf { q with having := h } joins hj p hp'
      hcols hnames hg hd hl rows h1 ⟨hw.tests, hw.shape, hw.swaps, hw.typed⟩ hok ⟨ho.plain, ho.primary, ho.joined, ho.bare⟩
    refine ⟨sorted, ?_, hr⟩
    have e : ∀ r : Row, satisfies text py.cmp calls h (fun n => colVal n (project text py.cmp calls q.cols [r]))
        = satisfies text py.cmp calls q.having (havingEnv (project text py.cmp calls q.cols [r]) r) := by
      intro r
      cases hq : q.having with
      | none => rw [hq] at hh'; cases hh'; rfl
      | some e0 =>
        rw [hq] at hh'
        obtain ⟨x, hx, rfl⟩ := Option.map_eq_some_iff.1 hh'
        refine decide_eq_decide.2 ?_
        rw [untabled_sem text py.cmp calls _ r e0 x (hh e0 hq) hx fun c hc => ?_]
        rw [HavingTable.bare, colVal_project text py calls q.cols hnames _ _ (hsel e0 hq c hc) r]
        rfl
    simp only [e] at hs
    exact hs
  · cases hp

/-- Without tables in HAVING this is `JoinSelect.compile`, of which C132-C135 are. -/
theorem C180_no_tables (o : Join.Ops Val) (order : List Join.Name → List Join.Name) (fuel : Nat) (joins : List (Join.Join Val)) (q : Query S)
    (h : ∀ e ∈ q.having, ∀ c ∈ colsE e, (JoinSelect.refOf c).table = none) :
    HavingTable.compile py calls o order fuel joins q = JoinSelect.compile py calls o order fuel joins q := by
  have hs : ∀ e : E, (∀ c ∈ colsE e, (JoinSelect.refOf c).table = none) → side e = some e := by
    intro e he
    cases e with
    | col c => simp only [side]; rw [bare_prim c (he c List.mem_cons_self)]
    | _ => simp only [side]; rw [if_pos (List.all_eq_true.2 fun c hc => (prim_iff c).2 (he c hc))]
  have hl : ∀ e : E, (∀ c ∈ colsE e, (JoinSelect.refOf c).table = none) → untabled e = some e := by
    intro e he
    induction e using E.rec (motive_2 := fun _ => True) (motive_3 := fun _ => True) with
    | and a b iha ihb =>
      rw [untabled, iha fun c hc => he c (List.mem_append_left _ hc), ihb fun c hc => he c (List.mem_append_right _ hc)]; rfl
    | or a b iha ihb =>
      rw [untabled, iha fun c hc => he c (List.mem_append_left _ hc), ihb fun c hc => he c (List.mem_append_right _ hc)]; rfl
    | paren a ih => rw [untabled, ih he]; rfl
    | cmp op a b =>
      rw [untabled, hs a fun c hc => he c (List.mem_append_left _ hc), hs b fun c hc => he c (List.mem_append_right _ hc)]; rfl
    | not a => rw [untabled, hs a he]; rfl
    | is a w => rw [untabled, hs a he]; rfl
    | between a lo hi => rw [untabled, hs a fun c hc => he c (List.mem_append_left _ (List.mem_append_left _ hc))]; rfl
    | inl a l =>
      rw [untabled, hs a fun c hc => he c (List.mem_append_left _ hc), Option.bind_some,
        if_pos (List.all_eq_true.2 fun c hc => (prim_iff c).2 (he c (List.mem_append_right _ hc)))]
    | _ => first | rfl | trivial
  have hh : untabledHaving q.having = some q.having := by
    cases hq : q.having with
    | none => rfl
    | some e => rw [untabledHaving, hl e (h e hq)]; rfl
  simp only [HavingTable.compile, JoinSelect.compile, hh, Option.bind_some]

/-- C180 is violated: the table is ignored.  A comparison of `t.c` keeps what the comparison of `u.c` keeps, for all tables. -/
theorem C180_table_violated (c c' : Str) (h : (JoinSelect.refOf c).col = (JoinSelect.refOf c').col) (op : Cmp) (b : E) :
    untabled (.cmp op (.col c) b) = untabled (.cmp op (.col c') b) := by
  simp only [untabled, side, HavingTable.bare, h]

/-- A table in an expression of HAVING (that is not just a column) is refused. -/
theorem C180_expression_violated (o : Join.Ops Val) (order : List Join.Name → List Join.Name) (fuel : Nat) (joins : List (Join.Join Val)) (q : Query S)
    (op : Cmp) (a b : E) (hh : q.having = some (.cmp op a b)) (ha : ∀ c, a ≠ .col c) (c : Str) (t : Join.Name) (hc : E.col c ∈ parts a) (ht : OfTable c t) :
    HavingTable.compile py calls o order fuel joins q = none := by
  have hs : side a = none := by
    have : ¬ (colsE a).all JoinSelect.isPrim = true := by
      intro h
      have := (prim_iff c).1 (List.all_eq_true.1 h c ((Accept.cols_parts a c).2 hc))
      rw [show (JoinSelect.refOf c).table = some t from ht] at this
      cases this
    cases a with
    | col d => exact absurd rfl (ha d)
    | _ => exact if_neg this
  simp only [HavingTable.compile, hh, untabledHaving, untabled, hs, Option.bind_none, Option.map_none]
  cases JoinSelect.parseJoins o joins with
  | none => rfl
  | some i => simp only [Option.bind_some]; split <;> rfl

theorem schema_names {K : Type} (cc : E → Option K) (group : List GKey) (cols : List (Str × Item S)) (s s' : JoinSelect.Schema K S)
    (h : JoinSelect.addCols cc group s cols = some s') (c : Str) (hc : c ∈ s'.map (·.1)) : c ∈ s.map (·.1) ∨ c ∈ cols.map (·.1) := by
  induction cols generalizing s with
  | nil => cases h; exact .inl hc
  | cons d cols ih =>
    simp only [JoinSelect.addCols] at h
    obtain ⟨s1, h1, h⟩ := Option.bind_eq_some_iff.1 h
    have hs1 : ∃ v, s1 = put d.1 v s := by
      obtain ⟨n, it⟩ := d
      cases it with
      | expr e =>
        simp only [JoinSelect.addCol] at h1
        obtain ⟨k, _, rfl⟩ := Option.map_eq_some_iff.1 h1
        exact ⟨_, rfl⟩
      | agg args final =>
        simp only [JoinSelect.addCol] at h1
        obtain ⟨k, _, h1⟩ := Option.bind_eq_some_iff.1 h1
        obtain ⟨l, _, rfl⟩ := Option.map_eq_some_iff.1 h1
        exact ⟨_, rfl⟩
    obtain ⟨v, rfl⟩ := hs1
    rcases ih _ h with h' | h'
    · rcases (Accept.mem_put _ _ _ _).1 h' with rfl | h'
      · exact .inr List.mem_cons_self
      · exact .inl h'
    · exact .inr (List.mem_cons_of_mem _ h')

/-- A comparison in HAVING with a column, with or without its table, whose name is that of no result column: the query is refused. -/
theorem C180_unknown_refused (o : Join.Ops Val) (order : List Join.Name → List Join.Name) (fuel : Nat) (joins : List (Join.Join Val)) (q : Query S)
    (op : Cmp) (c : Str) (b : E) (hh : q.having = some (.cmp op (.col c) b) ∨ q.having = some (.cmp op b (.col c)))
    (hn : (JoinSelect.refOf c).col.toList ∉ q.cols.map (·.1)) : HavingTable.compile py calls o order fuel joins q = none := by
  cases hp : HavingTable.compile py calls o order fuel joins q with
  | none => rfl
  | some p =>
    exfalso
    obtain ⟨info, _, hp⟩ := Option.bind_eq_some_iff.1 hp
    split at hp
    · obtain ⟨h, hh', hp⟩ := Option.bind_eq_some_iff.1 hp
      have hcol : ∃ e, h = some e ∧ bare c ∈ havingCols e := by
        rcases hh with hh | hh
        · rw [hh] at hh'
          obtain ⟨e, he, rfl⟩ := Option.map_eq_some_iff.1 hh'
          simp only [untabled, side, Option.bind_some, Option.map_eq_some_iff] at he
          obtain ⟨y, _, rfl⟩ := he
          exact ⟨_, rfl, List.mem_append_left _ List.mem_cons_self⟩
        · rw [hh] at hh'
          obtain ⟨e, he, rfl⟩ := Option.map_eq_some_iff.1 hh'
          simp only [untabled] at he
          obtain ⟨x, _, he⟩ := Option.bind_eq_some_iff.1 he
          obtain ⟨y, hy, rfl⟩ := Option.map_eq_some_iff.1 he
          cases hy
          exact ⟨_, rfl, List.mem_append_right _ List.mem_cons_self⟩
      obtain ⟨e, rfl, hc⟩ := hcol
      simp only [JoinSelect.compileSelect, Option.bind_eq_some_iff] at hp
      obtain ⟨s, hs, w, _, i, hi, _⟩ := hp
      simp only [compileIntercept] at hi
      split at hi
      · next hall =>
        have := of_decide_eq_true (List.all_eq_true.1 hall _ hc)
        rcases schema_names _ _ _ _ _ hs _ this with h | h
        · cases h
        · exact hn h
      · cases hi
    · cases hp

/-- In the list of an IN it is not refused: there it is NULL, as the result has no such column. -/
theorem C180_list_violated (names : List Str) (a : E) (ha : ∀ c, E.col c ∈ parts a → c ∈ names) (c : Str) (out : Out) (hr : Select.get c out = none) :
    ∃ t, compileIntercept names (some (.inl a (.cons (.col c) .nil))) = some (some t) ∧
      eval py calls (fun n => field n out) t = eval py calls (fun n => field n out) (Expr.compile (.inl a (.cons (.lit .null) .nil))) := by
  refine ⟨Expr.compile (.inl a (.cons (.col c) .nil)), ?_, ?_⟩
  · rw [compileIntercept, if_pos]
    · rfl
    · exact List.all_eq_true.2 fun d hd => decide_eq_true (ha d ((Accept.cols_parts a d).1 hd))
  · simp only [Expr.compile, compileL, eval, evalL, field, hr, Option.getD_none]

/-! ## Cases -/

/-- `SELECT a, B.v FROM t LEFT JOIN B ON B.i = t.a HAVING B.v > 4`: the row (1, 7).  -/
def hq : Query Empty :=
  { cols := [(['a'], .expr (.col ['a'])), (['v'], .expr (.col ['B', '.', 'v']))], having := some (.cmp .gt (.col ['B', '.', 'v']) (.lit (.int 4))),
    table := ['t'], columns := [['a']] }

/-- `SELECT a AS v, B.v AS w …`, the same HAVING: `v` is `a`, so nothing is returned. -/
def hbad : Query Empty := { hq with cols := [(['v'], .expr (.col ['a'])), (['w'], .expr (.col ['B', '.', 'v']))] }

example : ∃ p, HavingTable.compile plainPy FromCases.noCalls JoinCases.ops id 5 JoinCases.joins hq = some p ∧
    JoinSelect.run plainPy FromCases.noCalls JoinCases.ops JoinCases.db (oneBatch plainPy) p JoinCases.rows = [[(['a'], .int 1), (['v'], .int 7)]] :=
  ⟨_, rfl, rfl⟩

/-- `C180_having_partial` on `hq`. -/
example : ∃ p, HavingTable.compile plainPy FromCases.noCalls JoinCases.ops id 5 JoinCases.joins hq = some p ∧
    JoinHavingResult text plainPy.cmp FromCases.noCalls rankLe hq (joinedRows JoinCases.ops "t" JoinCases.db JoinCases.joins JoinCases.rows)
      (JoinSelect.run plainPy FromCases.noCalls JoinCases.ops JoinCases.db (oneBatch plainPy) p JoinCases.rows) := by
  refine ⟨_, rfl, ?_⟩
  apply C180_having_partial text plainPy FromCases.noCalls JoinCases.ops JoinCases.opsSym id (fun l => List.Perm.refl l) 5 JoinCases.db (oneBatch plainPy)
    rankLe_total rankLe_trans (idealSrc_faithful plainPy) hq JoinCases.joins JoinCases.joinsOk _ _ rfl
  · intro c hc
    simp only [hq, List.mem_cons, List.not_mem_nil, or_false] at hc
    rcases hc with rfl | rfl <;> exact ⟨_, rfl, rfl⟩
  · decide
  · rfl
  · rfl
  · intro h; cases h
  · exact JoinCases.one
  · exact ⟨fun e h => (by cases h), fun e h => (by cases h), fun e h => (by cases h), JoinCases.typed⟩
  · intro e he; cases he; rfl
  · exact ⟨fun t n d h => (by cases h), fun n d h => (by cases h), fun t n d h => (by cases h), fun n d h => (by cases h)⟩
  · intro e he c hc
    cases he
    have : c = ['B', '.', 'v'] := by simpa [colsE] using hc.1
    subst this
    exact List.mem_cons_of_mem _ (by rw [show (JoinSelect.refOf ['B', '.', 'v']).col.toList = ['v'] by decide +kernel]; exact List.mem_cons_self)
  · intro j hj
    exact .inl ⟨j, hj, (joinCases_on j hj).2⟩

/-- `… HAVING B.v + 1 > 4` is refused, as is HAVING on `B.i`, which is no result column. -/
example : HavingTable.compile (S := Empty) plainPy FromCases.noCalls JoinCases.ops id 5 JoinCases.joins
    { hq with having := some (.cmp .gt (.call ['+'] (.cons (.col ['B', '.', 'v']) (.cons (.lit (.int 1)) .nil))) (.lit (.int 4))) } = none ∧
    HavingTable.compile (S := Empty) plainPy FromCases.noCalls JoinCases.ops id 5 JoinCases.joins
    { hq with having := some (.cmp .gt (.lit (.int 4)) (.col ['B', '.', 'i'])) } = none := by
  constructor
  · exact C180_expression_violated plainPy FromCases.noCalls _ _ _ _ _ .gt _ _ rfl nofun ['B', '.', 'v'] "B"
      (List.mem_cons_of_mem _ (List.mem_append_left _ List.mem_cons_self)) (show (JoinSelect.refOf ['B', '.', 'v']).table = some "B" by decide +kernel)
  · refine C180_unknown_refused plainPy FromCases.noCalls _ _ _ _ _ .gt ['B', '.', 'i'] _ (.inr rfl) ?_
    rw [show (JoinSelect.refOf ['B', '.', 'i']).col.toList = ['i'] by decide +kernel]
    decide

/-- C180 is violated: the row (1, 7) is to be returned by `hbad`, as B.v is 7; it is not. -/
theorem C180_other_column_violated :
    ∃ p, HavingTable.compile plainPy FromCases.noCalls JoinCases.ops id 5 JoinCases.joins hbad = some p ∧
      JoinSelect.run plainPy FromCases.noCalls JoinCases.ops JoinCases.db (oneBatch plainPy) p [selRow 1 5] = [] ∧
      ∀ text : Str → Bool, ¬ JoinHavingResult text plainPy.cmp FromCases.noCalls rankLe hbad
        (joinedRows JoinCases.ops "t" JoinCases.db JoinCases.joins [selRow 1 5]) [] := by
  refine ⟨_, rfl, rfl, ?_⟩
  rintro text ⟨sorted, hs, hr⟩
  have hr' : [] = sorted.map fun r => project text plainPy.cmp FromCases.noCalls hbad.cols [r] := hr
  have hsort : sorted = [] := List.map_eq_nil_iff.1 hr'.symm
  have hperm := hs.perm
  rw [hsort] at hperm
  rw [joinedRows_eq JoinCases.ops "t" JoinCases.db JoinCases.joins JoinCases.joinsOk.left [selRow 1 5] (fun r hr => JoinCases.one r (by
      simp only [JoinCases.rows, List.mem_cons, List.not_mem_nil, or_false] at hr ⊢
      exact .inl hr))] at hperm
  have := List.Perm.length_eq hperm
  cases this

end Verif.Props
