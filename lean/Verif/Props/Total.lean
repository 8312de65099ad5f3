import Verif.Spec.Total
import Verif.Props.Accepted
import Verif.Props.JoinInner
import Verif.Props.JoinDistinct
import Verif.Props.WinSelect
/-! C158: queries in the supported form are compiled and return SQL's result. -/
namespace Verif.Props
open Verif.Val

/-- ON conditions that are accepted: their columns have tables, no column of the joined table is equated twice, and some column of it
occurs. -/
def OnAccepted (joins : List (Join.Join Val)) : Prop :=
  ∀ j ∈ joins, ((∀ c ∈ j.on, ∀ r ∈ Join.condFields c, r.table ≠ none) ∧ (j.on.filterMap (keyColumn j.name)).Nodup) ∧
    ∃ c ∈ j.on, ∃ r ∈ Join.condFields c, r.table = some j.name

theorem OnAccepted.used {S : Type} {joins : List (Join.Join Val)} (h : OnAccepted joins) (q : Select.Query S) :
    ∀ j ∈ joins, AcceptSpec.Used q joins j.name := fun j hj => .inl ⟨j, hj, (h j hj).2⟩

end Verif.Props

namespace Verif.Props.Total
open Verif.Val Verif.Expr Verif.Where Verif.Select Verif.AcceptSpec Verif.TotalSpec Verif.Proofs.JoinSelect Verif.Props.Accept

variable {S : Type}

theorem intercept_isSome (names : List Str) (h : Option E) (i : Option T) (hi : compileIntercept names h = some i) (hn : h ≠ none) : i.isSome = true := by
  cases h with
  | none => exact absurd rfl hn
  | some e =>
    simp only [compileIntercept] at hi
    split at hi
    · obtain ⟨t, _, rfl⟩ := Option.map_eq_some_iff.1 hi; rfl
    · cases hi

theorem addItems_expr (cx : Order.Ctx) (items : List (Order.Item × Bool)) (acc r : List Order.Key × List Order.Key)
    (h : Order.addItems cx acc items = some r) : acc.1.length + r.2.length ≥ acc.2.length + r.1.length ∧
      ((∃ n d, (Order.Item.expr (some n), d) ∈ items) → acc.1.length + r.2.length > acc.2.length + r.1.length) := by
  induction items generalizing acc with
  | nil => cases h; exact ⟨by omega, by rintro ⟨_, _, h⟩; cases h⟩
  | cons i items ih =>
    obtain ⟨it, d⟩ := i
    rw [Order.addItems] at h
    cases it with
    | expr c =>
      cases c with
      | none => cases h
      | some a =>
        obtain ⟨h1, h2⟩ := ih _ h
        simp only [List.length_append, List.length_singleton] at h1 h2
        exact ⟨by omega, fun _ => by omega⟩
    | col t n =>
      obtain ⟨h1, h2⟩ := ih _ h
      simp only [List.length_append, List.length_singleton] at h1 h2
      have hl : (if Order.isPrimary cx t n then acc.1 ++ [(n, d)] else acc.1).length ≤ acc.1.length + 1 := by
        split <;> simp
      refine ⟨by omega, ?_⟩
      rintro ⟨m, d', hm⟩
      rcases List.mem_cons.1 hm with hm | hm
      · cases hm
      · have := h2 ⟨m, d', hm⟩; omega

theorem order_isSome (cx : Order.Ctx) (items : List (Order.Item × Bool)) (od : List Order.Key × Option (List Order.Key))
    (h : Order.compile cx items = some od) (hx : ∃ n d, (Order.Item.expr (some n), d) ∈ items) : od.2.isSome = true := by
  unfold Order.compile at h
  cases ha : Order.addItems cx ([], []) items with
  | none => rw [ha] at h; cases h
  | some r =>
    obtain ⟨p, s⟩ := r
    have := (addItems_expr cx items _ _ ha).2 hx
    simp only [List.length_nil, Nat.zero_add] at this
    rw [ha] at h
    simp only [Option.bind_eq_bind, Option.bind_some] at h
    rw [if_pos ⟨by rintro rfl; simp at this, by omega⟩] at h
    split at h
    · cases h; rfl
    · cases h

/-- The plan of a query whose LIMIT is applied to the result. -/
theorem limits {q : Query S} {p : Select.Plan S} (hp : Select.compileSelect q = some p) (hl : LimitsResult q) :
    q.limit = none ∨ (∃ c ∈ q.cols, isAgg c.2 = true) ∨ p.predicate.isSome ∨ p.intercept.isSome ∨ p.sort.isSome := by
  simp only [Select.compileSelect, Option.bind_eq_some_iff, Option.map_eq_some_iff] at hp
  obtain ⟨s, h1, i, h2, od, h3, f, h4, rfl⟩ := hp
  rcases hl with h | ⟨n, args, final, h⟩ | h | h
  · exact .inl h
  · exact .inr (.inl ⟨_, h, rfl⟩)
  · exact .inr (.inr (.inr (.inl (intercept_isSome _ _ _ h2 h))))
  · exact .inr (.inr (.inr (.inr (order_isSome _ _ _ h3 h))))

theorem limitsJoin {K : Type} {cc : E → Option K} {q : Query S} {p : JoinSelect.Plan K S} (hp : JoinSelect.compileSelect cc q = some p)
    (hl : LimitsResult q) :
    q.limit = none ∨ (∃ c ∈ q.cols, isAgg c.2 = true) ∨ p.predicate.isSome ∨ p.intercept.isSome ∨ p.sort.isSome := by
  simp only [JoinSelect.compileSelect, Option.bind_eq_some_iff, Option.map_eq_some_iff] at hp
  obtain ⟨s, h1, w, hw, i, h2, od, h3, f, h4, rfl⟩ := hp
  rcases hl with h | ⟨n, args, final, h⟩ | h | h
  · exact .inl h
  · exact .inr (.inl ⟨_, h, rfl⟩)
  · exact .inr (.inr (.inr (.inl (intercept_isSome _ _ _ h2 h))))
  · exact .inr (.inr (.inr (.inr (order_isSome _ _ _ h3 h))))

/-- A condition that is not pushed to the source leaves a predicate. -/
theorem predicate_isSome {K : Type} {cc : E → Option K} {q : Query S} {p : JoinSelect.Plan K S} (hp : JoinSelect.compileSelect cc q = some p)
    (e : E) (hc : q.cond = some e) (hs : ((split JoinSelect.isPrim [] e).res).isSome = true) : p.predicate.isSome = true := by
  simp only [JoinSelect.compileSelect, Option.bind_eq_some_iff, Option.map_eq_some_iff] at hp
  obtain ⟨s, h1, w, hw, i, h2, od, h3, f, h4, rfl⟩ := hp
  simp only [JoinSelect.whereOf, hc] at hw
  obtain ⟨r, hr⟩ := Option.isSome_iff_exists.1 hs
  rw [hr] at hw
  simp only [Option.map_eq_some_iff] at hw
  obtain ⟨k, _, rfl⟩ := hw
  rfl

theorem split_and_right (prim : Str → Bool) (qs : Querys) (a b : E) (h : ∀ qs, ((split prim qs b).res).isSome = true) :
    ((split prim qs (.and a b)).res).isSome = true := by
  rw [split]
  simp only
  have := h (split prim qs a).querys
  obtain ⟨y, hy⟩ := Option.isSome_iff_exists.1 this
  rw [hy]
  cases (split prim qs a).res <;> rfl

theorem split_and_left (prim : Str → Bool) (qs : Querys) (a b : E) (h : ∀ qs, ((split prim qs a).res).isSome = true) :
    ((split prim qs (.and a b)).res).isSome = true := by
  rw [split]
  simp only
  obtain ⟨y, hy⟩ := Option.isSome_iff_exists.1 (h qs)
  rw [hy]
  cases (split prim (split prim qs a).querys b).res <;> rfl

theorem split_andAll (prim : Str → Bool) (rs : List Join.Ref) (e : E)
    (h : (∀ qs, ((split prim qs e).res).isSome = true) ∨ rs ≠ []) : ∀ qs, ((split prim qs (JoinSelect.andAll e rs)).res).isSome = true := by
  induction rs generalizing e with
  | nil => exact h.resolve_right (by simp)
  | cons r rs ih => exact ih (.and e (JoinSelect.notNull r)) (.inl fun qs => split_and_right _ _ _ _ fun _ => rfl)

theorem innerWhere_some (cond : Option E) (rs : List Join.Ref) (h : rs ≠ []) :
    ∃ e, JoinSelect.innerWhere cond rs = some e ∧ ((split JoinSelect.isPrim [] e).res).isSome = true := by
  unfold JoinSelect.innerWhere
  split
  · exact ⟨_, rfl, split_andAll _ rs _ (.inr h) _⟩
  · exact ⟨_, rfl, split_andAll _ rs _ (.inr h) _⟩
  · cases rs with
    | nil => exact absurd rfl h
    | cons r rs => exact ⟨_, rfl, split_andAll _ rs _ (.inl fun _ => rfl) _⟩

theorem parts_andAll (e : E) (rs : List Join.Ref) (x : E) (hx : (∃ c, x = .col c) ∨ ∃ a lo hi, x = .between a lo hi) :
    x ∈ parts (JoinSelect.andAll e rs) ↔ x ∈ parts e ∨ ∃ r ∈ rs, x = .col ((r.table.getD "").toList ++ '.' :: r.col.toList) := by
  induction rs generalizing e with
  | nil => simp [JoinSelect.andAll]
  | cons r rs ih =>
    have := ih (.and e (JoinSelect.notNull r))
    simp only [JoinSelect.andAll, List.foldl_cons] at this ⊢
    rw [this]
    simp only [parts, JoinSelect.notNull, List.mem_cons, List.mem_append, List.not_mem_nil, or_false]
    rcases hx with ⟨c, rfl⟩ | ⟨a, lo, hi, rfl⟩
    · simp [or_assoc]
    · simp

/-! ### Windows -/

/-- The columns so far: window columns are windows of the query. -/
def SoFarW (q : WinSelect.Query S) (s : List (Str × WinSelect.Col S)) : Prop :=
  ∀ c k, Select.get c s = some k → (∃ t, k = .calc t) ∨ (∃ w, (c, WinSelect.Item.win w) ∈ q.cols) ∨
    ∃ n ws e, (n, WinSelect.Item.calc ws e) ∈ q.cols ∧ c ∈ ws.map (·.1)

theorem keysT_some (q : WinSelect.Query S) (s : List (Str × WinSelect.Col S)) (hs : SoFarW q s) (gs : List GKey)
    (hg : ∀ c, GKey.bare c ∈ gs → (∀ w', (c, WinSelect.Item.win w') ∉ q.cols) ∧ ∀ n ws e, (n, WinSelect.Item.calc ws e) ∈ q.cols → c ∉ ws.map (·.1)) :
    ∃ k, WinSelect.keysT s gs = some k := by
  induction gs with
  | nil => exact ⟨_, rfl⟩
  | cons g gs ih =>
    obtain ⟨ks, hks⟩ := ih fun c h => hg c (List.mem_cons_of_mem _ h)
    have : ∃ t, WinSelect.keyT s g = some t := by
      cases g with
      | expr e => exact ⟨_, rfl⟩
      | bare c =>
        obtain ⟨h1, h2⟩ := hg c List.mem_cons_self
        simp only [WinSelect.keyT]
        cases h : Select.get c s with
        | none => exact ⟨_, rfl⟩
        | some k =>
          rcases hs c k h with ⟨t, rfl⟩ | ⟨w, hw⟩ | ⟨n, ws, e, hm, hc⟩
          · exact ⟨_, rfl⟩
          · exact absurd hw (h1 w)
          · exact absurd hc (h2 n ws e hm)
    obtain ⟨t, ht⟩ := this
    exact ⟨t :: ks, by simp [WinSelect.keysT, ht, hks]⟩

theorem winT_some (q : WinSelect.Query S) (hq : WinOk q) (s : List (Str × WinSelect.Col S)) (hs : SoFarW q s) (w : WinSelect.Win S)
    (hw : WindowOf q w) : ∃ t, WinSelect.winT q.windows s w = some t := by
  have ho : ∃ o, WinSelect.overOf q.windows w.over = some o ∧ (w.over = .inline o ∨ ∃ n, w.over = .named n ∧ (n, o) ∈ q.windows) := by
    cases h : w.over with
    | inline o => exact ⟨o, rfl, .inl rfl⟩
    | named n =>
      obtain ⟨⟨n', o'⟩, hm, rfl⟩ := List.mem_map.1 (hq.windows w hw n h)
      have hne : (q.windows.filter fun w => w.1 = n') ≠ [] := List.ne_nil_of_mem (List.mem_filter.2 ⟨hm, by simp⟩)
      have hl := List.getLast_mem hne
      obtain ⟨h1, h2⟩ := List.mem_filter.1 hl
      refine ⟨((q.windows.filter fun w => w.1 = n').getLast hne).2, ?_, .inr ⟨n', rfl, ?_⟩⟩
      · simp only [WinSelect.overOf, List.getLast?_eq_some_getLast hne, Option.map_some]
      · have h3 : (List.getLast _ hne).1 = n' := of_decide_eq_true h2
        generalize List.getLast _ hne = x at h1 h3
        obtain ⟨a, b⟩ := x
        cases h3; exact h1
  obtain ⟨o, h1, h2⟩ := ho
  obtain ⟨k1, hk1⟩ := keysT_some q s hs o.part fun c h => hq.names w hw o h2 c (List.mem_append_left _ h)
  obtain ⟨k2, hk2⟩ := keysT_some q s hs (o.order.map (·.1)) fun c h => hq.names w hw o h2 c (List.mem_append_right _ h)
  simp only [WinSelect.winT, h1, hk1, hk2, Option.bind_some, Option.map_some]
  exact ⟨_, rfl⟩

theorem soFarW_put {q : WinSelect.Query S} {s : List (Str × WinSelect.Col S)} (hs : SoFarW q s) (n : Str) (k : WinSelect.Col S)
    (hk : (∃ t, k = .calc t) ∨ (∃ w, (n, WinSelect.Item.win w) ∈ q.cols) ∨ ∃ n' ws e, (n', WinSelect.Item.calc ws e) ∈ q.cols ∧ n ∈ ws.map (·.1)) :
    SoFarW q (Select.put n k s) := by
  intro c k' h
  rw [get_put] at h
  split at h
  · next e => cases h; subst e; exact hk
  · exact hs c k' h

theorem addHidden_some (q : WinSelect.Query S) (hq : WinOk q) (n : Str) (ws0 : List (Str × WinSelect.Win S)) (e : E)
    (hm : (n, WinSelect.Item.calc ws0 e) ∈ q.cols) (ws : List (Str × WinSelect.Win S)) (hsub : ∀ x ∈ ws, x ∈ ws0) (c : WinSelect.Cols S)
    (hs : SoFarW q c.schema) :
    ∃ c', WinSelect.addHidden q.windows c ws = some c' ∧ SoFarW q c'.schema ∧ ∀ x ∈ c.schema.map (·.1), x ∈ c'.schema.map (·.1) := by
  induction ws generalizing c with
  | nil => exact ⟨c, rfl, hs, fun _ h => h⟩
  | cons x ws ih =>
    obtain ⟨h, w⟩ := x
    have hw := hsub _ List.mem_cons_self
    obtain ⟨t, ht⟩ := winT_some q hq c.schema hs w (.part hm hw)
    obtain ⟨c', h1, h2, h3⟩ := ih (fun x hx => hsub x (List.mem_cons_of_mem _ hx))
      { c with schema := Select.put h (.win t) c.schema, hidden := c.hidden ++ [h] }
      (soFarW_put hs _ _ (.inr (.inr ⟨n, ws0, e, hm, List.mem_map.2 ⟨_, hw, rfl⟩⟩)))
    refine ⟨c', by rw [WinSelect.addHidden, ht, Option.bind_some]; exact h1, h2, fun x hx => h3 x ?_⟩
    exact (mem_put _ _ _ _).2 (.inr hx)

theorem addColsW_some (q : WinSelect.Query S) (hq : WinOk q) (cols : List (Str × WinSelect.Item S)) (hsub : ∀ x ∈ cols, x ∈ q.cols)
    (c : WinSelect.Cols S) (hs : SoFarW q c.schema) :
    ∃ c', WinSelect.addCols q.windows c cols = some c' ∧
      ∀ x, (x ∈ c.schema.map (·.1) ∨ ∃ it, (x, it) ∈ cols ∧ ∀ ws e, it ≠ .calc ws e) → x ∈ c'.schema.map (·.1) := by
  induction cols generalizing c with
  | nil => exact ⟨c, rfl, fun x h => h.elim id fun ⟨_, h, _⟩ => by cases h⟩
  | cons col cols ih =>
    obtain ⟨n, it⟩ := col
    have hm := hsub _ List.mem_cons_self
    have step : ∃ c1, WinSelect.addCol q.windows c (n, it) = some c1 ∧ SoFarW q c1.schema ∧
        (∀ x ∈ c.schema.map (·.1), x ∈ c1.schema.map (·.1)) ∧ ((∀ ws e, it ≠ .calc ws e) → n ∈ c1.schema.map (·.1)) := by
      cases it with
      | expr e =>
        exact ⟨_, rfl, soFarW_put hs _ _ (.inl ⟨_, rfl⟩), fun x h => (mem_put _ _ _ _).2 (.inr h), fun _ => (mem_put _ _ _ _).2 (.inl rfl)⟩
      | win w =>
        obtain ⟨t, ht⟩ := winT_some q hq c.schema hs w (.column hm)
        refine ⟨{ c with schema := Select.put n (.win t) c.schema, windows := c.windows ++ [n] }, ?_, soFarW_put hs _ _ (.inr (.inl ⟨w, hm⟩)),
          fun x h => (mem_put _ _ _ _).2 (.inr h), fun _ => (mem_put _ _ _ _).2 (.inl rfl)⟩
        simp only [WinSelect.addCol, ht, Option.map_some]
      | «calc» ws e =>
        obtain ⟨c', h1, h2, h3⟩ := addHidden_some q hq n ws e hm ws (fun _ h => h) c hs
        refine ⟨{ c' with finals := Select.put n (compile e) c'.finals, windows := c'.windows ++ [n] }, ?_, h2, h3, fun h => absurd rfl (h ws e)⟩
        simp only [WinSelect.addCol, h1, Option.map_some]
    obtain ⟨c1, h1, h2, h3, h4⟩ := step
    obtain ⟨c', h5, h6⟩ := ih (fun x h => hsub x (List.mem_cons_of_mem _ h)) c1 h2
    refine ⟨c', by rw [WinSelect.addCols, h1, Option.bind_some]; exact h5, ?_⟩
    rintro x (h | ⟨it', h, hne⟩)
    · exact h6 x (.inl (h3 x h))
    · rcases List.mem_cons.1 h with h | h
      · cases h; exact h6 _ (.inl (h4 hne))
      · exact h6 x (.inr ⟨it', h, hne⟩)

end Verif.Props.Total

namespace Verif.Props
open Verif.Val Verif.Expr Verif.Sql Verif.Where Verif.Order Verif.SqlOrder Verif.Select Verif.SqlSelect Verif.SqlWindow
open Verif.AcceptSpec Verif.TotalSpec Verif.Proofs.JoinSelect Total
open Verif.WinSelect (WinQueryOk isWin)

variable {S : Type} (text : Str → Bool) (py : Py) (calls : Str → List Val → Val)

/-- C158: every query with window functions whose HAVING, ORDER BY and OVER are as they should be is accepted. -/
theorem C158_window_accepted (q : WinSelect.Query S) (hq : WinOk q) : ∃ p, WinSelect.compileSelect q = some p := by
  obtain ⟨c, h1, h2⟩ := addColsW_some q hq q.cols (fun _ h => h) {} (by intro c k h; cases h)
  have hn : ∀ x ∈ TotalSpec.winNames q, x ∈ c.schema.map (·.1) := by
    intro x hx
    obtain ⟨⟨n, it⟩, hm, h⟩ := List.mem_filterMap.1 hx
    refine h2 x (.inr ⟨it, ?_, ?_⟩)
    · cases it with
      | expr e => cases h; exact hm
      | win w => cases h; exact hm
      | «calc» ws e => cases h
    · rintro ws e rfl; cases h
  obtain ⟨i, h5⟩ := Accept.intercept_some hn q.having hq.having
  obtain ⟨od, h6⟩ := Accept.order_some ⟨c.schema.map (·.1), q.columns, q.table, q.aliased, c.windows⟩ (TotalSpec.winNames q) hn q.order hq.order
  simp only [WinSelect.compileSelect, h1, h5, h6, Option.bind_some, Option.map_some]
  exact ⟨_, rfl⟩

/-- C158: every query with INNER JOINs is accepted when its ON, HAVING, ORDER BY and GROUP BY are as they should be, the tables used are
joined, and there is no BETWEEN in WHERE or with columns of joined tables. -/
theorem C158_inner_accepted (o : Join.Ops Val) (order : List Join.Name → List Join.Name) (ho : ∀ l, (order l).Perm l) (q : Query S)
    (joins : List (Join.Join Val)) (hj : InnerOk o (String.ofList q.table) joins) (hon : OnAccepted joins) (hq : QueryOk q) (he : ExprsOk q joins)
    (hb : ∀ e, q.cond = some e → ¬ Between e) (fuel : Nat) (hf : joins.length + 2 ≤ fuel) :
    ∃ p, JoinSelect.compileJoins py calls o order fuel joins q = some p := by
  rw [compile_inner py calls hj]
  have hn : (asLeft joins).map (·.name) = joins.map (·.name) := by simp [asLeft]
  refine C157_join_accepted py calls o order ho { q with cond := JoinSelect.innerWhere q.cond (Join.innerFields (String.ofList q.table) joins) } (asLeft joins) hj.left ?_ ?_ ⟨hq.having, hq.order, hq.group⟩ ?_ fuel (by simpa [asLeft] using hf)
  · intro j h
    obtain ⟨k, hk, rfl⟩ := List.mem_map.1 h
    exact (hon k hk).1
  · intro j h
    obtain ⟨k, hk, rfl⟩ := List.mem_map.1 h
    exact .inl ⟨_, h, (hon k hk).2⟩
  · intro e h
    rw [hn]
    cases h with
    | column h => exact he _ (.column h)
    | arg h ha => exact he _ (.arg h ha)
    | key h => exact he _ (.key h)
    | name h => exact he _ (.name h)
    | cond h =>
      have key : ∀ e0, (∀ c t, E.col c ∈ parts e0 → OfTable c t → t ∈ joins.map (·.name)) → ¬ Between e0 → ∀ rs,
          (∀ r ∈ rs, r ∈ Join.innerFields (String.ofList q.table) joins) →
          (∀ c t, E.col c ∈ parts (JoinSelect.andAll e0 rs) → OfTable c t → t ∈ joins.map (·.name)) ∧
            ¬ (Between (JoinSelect.andAll e0 rs) ∧ Joined (JoinSelect.andAll e0 rs)) := by
        intro e0 h0 hb0 rs hrs
        refine ⟨fun c t hc ht => ?_, ?_⟩
        · rcases (parts_andAll e0 rs _ (.inl ⟨c, rfl⟩)).1 hc with hc | ⟨r, hr, e⟩
          · exact h0 c t hc ht
          · cases e
            obtain ⟨t', ht', hrt⟩ := innerFields_table (String.ofList q.table) joins (innerOk_known hj) r (hrs r hr)
            obtain ⟨j, hjm, rfl⟩ := List.mem_map.1 ht'
            have hp := hj.plain j hjm
            have := refOf_name r j.name hrt hp.1 hp.2
            rw [OfTable] at ht
            rw [show (JoinSelect.refOf ((r.table.getD "").toList ++ '.' :: r.col.toList)).table = r.table from congrArg (·.table) this, hrt] at ht
            cases ht
            exact ht'
        · rintro ⟨⟨a, lo, hi, hbt⟩, _⟩
          rcases (parts_andAll e0 rs _ (.inr ⟨a, lo, hi, rfl⟩)).1 hbt with h | ⟨r, _, e⟩
          · exact hb0 ⟨a, lo, hi, h⟩
          · cases e
      simp only [JoinSelect.innerWhere] at h
      split at h
      · next a b hc =>
        cases h
        have h0 := he _ (.cond hc)
        have hb0 := hb _ hc
        refine key _ (fun c t hc ht => h0.1 c t ?_ ht) ?_ _ (fun _ h => h)
        · simpa [parts] using hc
        · rintro ⟨a', lo, hi, h⟩
          exact hb0 ⟨a', lo, hi, by simpa [parts] using h⟩
      · next e0 _ hc =>
        cases h
        exact key _ (he _ (.cond hc)).1 (hb _ hc) _ (fun _ h => h)
      · split at h
        · cases h
        · next r rs hrs =>
          cases h
          have := key (.lit .null) (by intro c t h; simp [parts] at h) (by rintro ⟨a, lo, hi, h⟩; simp [parts] at h) (r :: rs)
            (fun x hx => by rw [hrs]; exact hx)
          refine ⟨fun c t hc ht => this.1 c t ((parts_andAll _ _ _ (.inl ⟨c, rfl⟩)).2 (.inr ?_)) ht, ?_⟩
          · rcases (parts_andAll _ _ _ (.inl ⟨c, rfl⟩)).1 hc with h | ⟨r', h, e⟩
            · refine ⟨r, List.mem_cons_self, ?_⟩
              simpa [parts, JoinSelect.notNull] using h
            · exact ⟨r', List.mem_cons_of_mem _ h, e⟩
          · rintro ⟨⟨a, lo, hi, hbt⟩, _⟩
            rcases (parts_andAll _ _ _ (.inr ⟨a, lo, hi, rfl⟩)).1 hbt with h | ⟨_, _, e⟩
            · simp [parts, JoinSelect.notNull] at h
            · cases e

/-! ### One table -/

/-- C158: SELECT … FROM t WHERE … HAVING … ORDER BY … LIMIT …: in the supported form it is compiled, and returns SQL's result. -/
theorem C158_select_partial (en : Engine) (hen : EngineOk en) (hf : Faithful py en.src) (q : Query S) (hq : QueryOk q)
    (hcols : ∀ c ∈ q.cols, ∃ e, c.2 = .expr e ∧ scalarOk e = true) (hnames : (q.cols.map (·.1)).Nodup) (hg : q.group = [])
    (hd : q.distinct = false) (hl : q.limit ≠ some 0) (hh : ∀ e ∈ q.having, havingOk e = true) (ho : OrderOk q) :
    ∃ p, compileSelect q = some p ∧ ∀ rows, WhereOk text py calls q rows →
      RowResult text py.cmp calls en.le q rows (Select.run py calls en p rows) := by
  obtain ⟨p, hp⟩ := C157_select_accepted q hq
  exact ⟨p, hp, fun rows hw => C57_select_partial text py calls en hen.total hen.trans hf q p hp hcols hnames hg hd hl rows hw hh ho⟩

/-- C158 for aggregates and GROUP BY. -/
theorem C158_grouped_partial (en : Engine) (hen : EngineOk en) (hf : Faithful py en.src) (q : Query S) (hq : QueryOk q)
    (hexpr : ∀ n e, (n, Select.Item.expr e) ∈ q.cols → scalarOk e = true)
    (hagg : ∀ n args final, (n, Select.Item.agg args final) ∈ q.cols → ∀ a ∈ args, scalarOk a.2 = true)
    (hge : ∀ e, GKey.expr e ∈ q.group → scalarOk e = true) (hnames : (q.cols.map (·.1)).Nodup) (hne : q.cols ≠ [])
    (hgrp : q.group ≠ [] ∨ ∃ c ∈ q.cols, isAgg c.2 = true) (hok : GroupNamesOk q.cols q.group) (hl : q.limit ≠ some 0)
    (hlim : LimitsResult q) (hh : ∀ e ∈ q.having, havingOk e = true) (ho : GroupOrderOk q) :
    ∃ p, compileSelect q = some p ∧ ∀ rows, WhereOk text py calls q rows →
      (∀ n args final, (n, Select.Item.agg args final) ∈ q.cols → ∀ a ∈ args, ∃ good : Val → Prop,
        a.1.fold.Law good ∧ ∀ r ∈ rows, good (sem text py.cmp calls r a.2)) →
      (q.group ≠ [] ∨ ∃ r ∈ rows, satisfies text py.cmp calls q.cond r = true) →
      ((∀ c ∈ q.cols, isAgg c.2 = false) → Dependent text py calls q rows) →
      GroupResult text py.cmp calls en.le q rows (Select.run py calls en p rows) := by
  obtain ⟨p, hp⟩ := C157_select_accepted q hq
  exact ⟨p, hp, fun rows hw hlaw hsome hdep => C58_grouped_partial text py calls en hen.total hen.trans hf hen.chunks q p hp hexpr hagg hge hnames
    hne hgrp hok hl (limits hp hlim) rows hw hh hlaw hsome hdep ho⟩

/-- C158 for DISTINCT. -/
theorem C158_distinct_partial (en : Engine) (hen : EngineOk en) (hf : Faithful py en.src) (q : Query S) (hq : QueryOk q)
    (hcols : ∀ c ∈ q.cols, ∃ e, c.2 = .expr e ∧ scalarOk e = true) (hnames : (q.cols.map (·.1)).Nodup) (hne : q.cols ≠ [])
    (hg : q.group = []) (hd : q.distinct = true) (hl : q.limit ≠ some 0) (hlim : LimitsResult q)
    (hh : ∀ e ∈ q.having, havingOk e = true) (ho : GroupOrderOk q) :
    ∃ p, compileSelect q = some p ∧ ∀ rows, WhereOk text py calls q rows → Distinguishable text py calls q rows →
      DistinctResult text py.cmp calls en.le q rows (Select.run py calls en p rows) := by
  obtain ⟨p, hp⟩ := C157_select_accepted q hq
  refine ⟨p, hp, fun rows hw hdist => C59_distinct_partial text py calls en hen.total hen.trans hf hen.chunks q p hp hcols hnames hne hg hd hl ?_
    rows hw hh hdist ho⟩
  rcases limits hp hlim with h | ⟨c, hc, h⟩ | h
  · exact .inl h
  · obtain ⟨e, he, _⟩ := hcols c hc
    rw [he] at h; cases h
  · exact .inr h

/-- C158 for window functions. -/
theorem C158_window_partial (src : Src) (le : Val → Val → Bool) (ht : ∀ x y, le x y = true ∨ le y x = true)
    (htr : ∀ x y z, le x y = true → le y z = true → le x z = true) (hf : Faithful py src) (q : WinSelect.Query S) (hok : WinOk q)
    (hq : WinQueryOk q) (hwin : ∃ c ∈ q.cols, isWin c.2 = true) (hl : q.limit ≠ some 0) (hh : ∀ e ∈ q.having, havingOk e = true)
    (ho : WinOrderOk q) :
    ∃ p, WinSelect.compileSelect q = some p ∧ ∀ rows, WhereOk text py calls (asSelect q) rows → NoTies text py calls le q rows →
      WinResult text py.cmp calls le q rows (WinSelect.run py calls src le p rows) := by
  obtain ⟨p, hp⟩ := C158_window_accepted q hok
  exact ⟨p, hp, fun rows hw hties => C65_window_partial text py calls src le ht htr hf q p hp hq hwin hl rows hw hh ho hties⟩

/-! ### LEFT JOINs -/

/-- C158 for LEFT JOINs. -/
theorem C158_left_partial (o : Join.Ops Val) (hsym : ∀ a b, o.truthy (o.cmp .eq a b) = o.truthy (o.cmp .eq b a))
    (order : List Join.Name → List Join.Name) (hperm : ∀ l, (order l).Perm l) (en : Engine) (hen : EngineOk en) (hf : Faithful py en.src)
    (q : Query S) (hq : QueryOk q) (joins : List (Join.Join Val)) (hj : JoinsOk o (String.ofList q.table) joins) (hon : OnAccepted joins)
    (he : ExprsOk q joins) (hcols : ∀ c ∈ q.cols, ∃ e, c.2 = .expr e ∧ scalarOk e = true) (hnames : (q.cols.map (·.1)).Nodup)
    (hg : q.group = []) (hd : q.distinct = false) (hl : q.limit ≠ some 0) (hh : ∀ e ∈ q.having, havingOk e = true) (ho : JoinOrderOk q)
    (fuel : Nat) (hfuel : joins.length + 2 ≤ fuel) :
    ∃ p, JoinSelect.compile py calls o order fuel joins q = some p ∧ ∀ rows db, OneMatch o (String.ofList q.table) db joins rows →
      WhereOk text py calls { q with prim := JoinSelect.isPrim } (joinedRows o (String.ofList q.table) db joins rows) →
      JoinRowResult text py.cmp calls en.le q (joinedRows o (String.ofList q.table) db joins rows) (JoinSelect.run py calls o db en p rows) := by
  obtain ⟨p, hp⟩ := C157_join_accepted py calls o order hperm q joins hj (fun j h => (hon j h).1) (hon.used q) hq he fuel hfuel
  exact ⟨p, hp, fun rows db h1 hw => C132_join_select_partial text py calls o hsym order hperm fuel db en hen.total hen.trans hf q joins hj p hp
    hcols hnames hg hd hl rows h1 hw hh ho⟩

/-- C158 for LEFT JOINs with aggregates or GROUP BY. -/
theorem C158_left_grouped_partial (o : Join.Ops Val) (hsym : ∀ a b, o.truthy (o.cmp .eq a b) = o.truthy (o.cmp .eq b a))
    (order : List Join.Name → List Join.Name) (hperm : ∀ l, (order l).Perm l) (en : Engine) (hen : EngineOk en) (hf : Faithful py en.src)
    (q : Query S) (hq : QueryOk q) (joins : List (Join.Join Val)) (hj : JoinsOk o (String.ofList q.table) joins) (hon : OnAccepted joins)
    (he : ExprsOk q joins) (hexpr : ∀ n e, (n, Select.Item.expr e) ∈ q.cols → scalarOk e = true)
    (hagg : ∀ n args final, (n, Select.Item.agg args final) ∈ q.cols → ∀ a ∈ args, scalarOk a.2 = true)
    (hge : ∀ e, GKey.expr e ∈ q.group → scalarOk e = true) (hnames : (q.cols.map (·.1)).Nodup) (hne : q.cols ≠ [])
    (hgrp : q.group ≠ [] ∨ ∃ c ∈ q.cols, isAgg c.2 = true) (hok : GroupNamesOk q.cols q.group) (hl : q.limit ≠ some 0)
    (hlim : LimitsResult q) (hh : ∀ e ∈ q.having, havingOk e = true) (ho : JoinGroupOrderOk q)
    (fuel : Nat) (hfuel : joins.length + 2 ≤ fuel) :
    ∃ p, JoinSelect.compile py calls o order fuel joins q = some p ∧ ∀ rows db, OneMatch o (String.ofList q.table) db joins rows →
      WhereOk text py calls { q with prim := JoinSelect.isPrim } (joinedRows o (String.ofList q.table) db joins rows) →
      (∀ n args final, (n, Select.Item.agg args final) ∈ q.cols → ∀ a ∈ args, ∃ good : Val → Prop,
        a.1.fold.Law good ∧ ∀ r ∈ joinedRows o (String.ofList q.table) db joins rows, good (sem text py.cmp calls r a.2)) →
      (q.group ≠ [] ∨ ∃ r ∈ joinedRows o (String.ofList q.table) db joins rows, satisfies text py.cmp calls q.cond r = true) →
      ((∀ c ∈ q.cols, isAgg c.2 = false) → Dependent text py calls q (joinedRows o (String.ofList q.table) db joins rows)) →
      GroupResult text py.cmp calls en.le q (joinedRows o (String.ofList q.table) db joins rows) (JoinSelect.run py calls o db en p rows) := by
  obtain ⟨p, hp⟩ := C157_join_accepted py calls o order hperm q joins hj (fun j h => (hon j h).1) (hon.used q) hq he fuel hfuel
  have hlim' : q.limit = none ∨ (∃ c ∈ q.cols, isAgg c.2 = true) ∨ p.predicate.isSome ∨ p.intercept.isSome ∨ p.sort.isSome := by
    obtain ⟨info, _, h⟩ := Proofs.JoinSelect.compile_some hp
    exact limitsJoin h hlim
  exact ⟨p, hp, fun rows db h1 hw hlaw hsome hdep => C133_join_grouped_partial text py calls o hsym order hperm fuel db en hen.total hen.trans hf
    hen.chunks q joins hj p hp hexpr hagg hge hnames hne hgrp hok hl hlim' rows h1 hw hh hlaw hsome hdep ho⟩

/-- C158 for LEFT JOINs with DISTINCT. -/
theorem C158_left_distinct_partial (o : Join.Ops Val) (hsym : ∀ a b, o.truthy (o.cmp .eq a b) = o.truthy (o.cmp .eq b a))
    (order : List Join.Name → List Join.Name) (hperm : ∀ l, (order l).Perm l) (en : Engine) (hen : EngineOk en) (hf : Faithful py en.src)
    (q : Query S) (hq : QueryOk q) (joins : List (Join.Join Val)) (hj : JoinsOk o (String.ofList q.table) joins) (hon : OnAccepted joins)
    (he : ExprsOk q joins) (hcols : ∀ c ∈ q.cols, ∃ e, c.2 = .expr e ∧ scalarOk e = true) (hnames : (q.cols.map (·.1)).Nodup)
    (hne : q.cols ≠ []) (hg : q.group = []) (hd : q.distinct = true) (hl : q.limit ≠ some 0) (hlim : LimitsResult q)
    (hh : ∀ e ∈ q.having, havingOk e = true) (ho : JoinGroupOrderOk q) (fuel : Nat) (hfuel : joins.length + 2 ≤ fuel) :
    ∃ p, JoinSelect.compile py calls o order fuel joins q = some p ∧ ∀ rows db, OneMatch o (String.ofList q.table) db joins rows →
      WhereOk text py calls { q with prim := JoinSelect.isPrim } (joinedRows o (String.ofList q.table) db joins rows) →
      Distinguishable text py calls q (joinedRows o (String.ofList q.table) db joins rows) →
      DistinctResult text py.cmp calls en.le q (joinedRows o (String.ofList q.table) db joins rows) (JoinSelect.run py calls o db en p rows) := by
  obtain ⟨p, hp⟩ := C157_join_accepted py calls o order hperm q joins hj (fun j h => (hon j h).1) (hon.used q) hq he fuel hfuel
  have hlim' : q.limit = none ∨ p.predicate.isSome ∨ p.intercept.isSome ∨ p.sort.isSome := by
    obtain ⟨info, _, h⟩ := Proofs.JoinSelect.compile_some hp
    rcases limitsJoin h hlim with h | ⟨c, hc, h⟩ | h
    · exact .inl h
    · obtain ⟨e, he, _⟩ := hcols c hc
      rw [he] at h; cases h
    · exact .inr h
  exact ⟨p, hp, fun rows db h1 hw hdist => C136_left_distinct_partial text py calls o hsym order hperm fuel db en hen.total hen.trans hf
    hen.chunks q joins hj p hp hcols hnames hne hg hd hl hlim' rows h1 hw hh hdist ho⟩

/-! ### INNER JOINs: LIMIT is always applied to the result -/

theorem Total.inner_predicate {o : Join.Ops Val} {order : List Join.Name → List Join.Name} {fuel : Nat} {q : Query S} {joins : List (Join.Join Val)}
    (hj : InnerOk o (String.ofList q.table) joins) {p : JoinSelect.Plan (Join.C Val) S}
    (hp : JoinSelect.compileJoins py calls o order fuel joins q = some p) : p.predicate.isSome = true := by
  rw [compile_inner py calls hj] at hp
  obtain ⟨info, _, h⟩ := Proofs.JoinSelect.compile_some hp
  obtain ⟨e, h1, h2⟩ := innerWhere_some q.cond _ (innerOk_fields hj)
  exact predicate_isSome h e h1 h2

/-- C158 for INNER JOINs. -/
theorem C158_inner_partial (o : Join.Ops Val) (hsym : ∀ a b, o.truthy (o.cmp .eq a b) = o.truthy (o.cmp .eq b a))
    (order : List Join.Name → List Join.Name) (hperm : ∀ l, (order l).Perm l) (en : Engine) (hen : EngineOk en) (hf : Faithful py en.src)
    (q : Query S) (hq : QueryOk q) (joins : List (Join.Join Val)) (hj : InnerOk o (String.ofList q.table) joins) (hon : OnAccepted joins)
    (he : ExprsOk q joins) (hb : ∀ e, q.cond = some e → ¬ Between e) (hcols : ∀ c ∈ q.cols, ∃ e, c.2 = .expr e ∧ scalarOk e = true)
    (hnames : (q.cols.map (·.1)).Nodup)
    (hg : q.group = []) (hd : q.distinct = false) (hl : q.limit ≠ some 0) (hh : ∀ e ∈ q.having, havingOk e = true) (ho : JoinOrderOk q)
    (fuel : Nat) (hfuel : joins.length + 2 ≤ fuel) :
    ∃ p, JoinSelect.compileJoins py calls o order fuel joins q = some p ∧ ∀ rows db, OneMatch o (String.ofList q.table) db (asLeft joins) rows →
      WhereOk text py calls { q with prim := JoinSelect.isPrim } (joinedRows o (String.ofList q.table) db (asLeft joins) rows) →
      JoinRowResult text py.cmp calls en.le q (joinedRows o (String.ofList q.table) db joins rows) (JoinSelect.run py calls o db en p rows) := by
  obtain ⟨p, hp⟩ := C158_inner_accepted py calls o order hperm q joins hj hon hq he hb fuel hfuel
  exact ⟨p, hp, fun rows db h1 hw => C134_inner_select_partial text py calls o hsym order hperm fuel db en hen.total hen.trans hf q joins hj p hp
    hcols hnames hg hd hl rows h1 hw hh ho⟩

/-- C158 for INNER JOINs with aggregates or GROUP BY; any LIMIT. -/
theorem C158_inner_grouped_partial (o : Join.Ops Val) (hsym : ∀ a b, o.truthy (o.cmp .eq a b) = o.truthy (o.cmp .eq b a))
    (order : List Join.Name → List Join.Name) (hperm : ∀ l, (order l).Perm l) (en : Engine) (hen : EngineOk en) (hf : Faithful py en.src)
    (q : Query S) (hq : QueryOk q) (joins : List (Join.Join Val)) (hj : InnerOk o (String.ofList q.table) joins) (hon : OnAccepted joins)
    (he : ExprsOk q joins) (hb : ∀ e, q.cond = some e → ¬ Between e) (hexpr : ∀ n e, (n, Select.Item.expr e) ∈ q.cols → scalarOk e = true)
    (hagg : ∀ n args final, (n, Select.Item.agg args final) ∈ q.cols → ∀ a ∈ args, scalarOk a.2 = true)
    (hge : ∀ e, GKey.expr e ∈ q.group → scalarOk e = true) (hnames : (q.cols.map (·.1)).Nodup) (hne : q.cols ≠ [])
    (hgrp : q.group ≠ [] ∨ ∃ c ∈ q.cols, isAgg c.2 = true) (hok : GroupNamesOk q.cols q.group) (hl : q.limit ≠ some 0)
    (hh : ∀ e ∈ q.having, havingOk e = true) (ho : JoinGroupOrderOk q) (fuel : Nat) (hfuel : joins.length + 2 ≤ fuel) :
    ∃ p, JoinSelect.compileJoins py calls o order fuel joins q = some p ∧ ∀ rows db, OneMatch o (String.ofList q.table) db (asLeft joins) rows →
      WhereOk text py calls { q with prim := JoinSelect.isPrim } (joinedRows o (String.ofList q.table) db (asLeft joins) rows) →
      (∀ n args final, (n, Select.Item.agg args final) ∈ q.cols → ∀ a ∈ args, ∃ good : Val → Prop,
        a.1.fold.Law good ∧ ∀ r ∈ joinedRows o (String.ofList q.table) db (asLeft joins) rows, good (sem text py.cmp calls r a.2)) →
      (q.group ≠ [] ∨ ∃ r ∈ joinedRows o (String.ofList q.table) db joins rows, satisfies text py.cmp calls q.cond r = true) →
      ((∀ c ∈ q.cols, isAgg c.2 = false) → Dependent text py calls q (joinedRows o (String.ofList q.table) db (asLeft joins) rows)) →
      GroupResult text py.cmp calls en.le q (joinedRows o (String.ofList q.table) db joins rows) (JoinSelect.run py calls o db en p rows) := by
  obtain ⟨p, hp⟩ := C158_inner_accepted py calls o order hperm q joins hj hon hq he hb fuel hfuel
  exact ⟨p, hp, fun rows db h1 hw hlaw hsome hdep => C135_inner_grouped_partial text py calls o hsym order hperm fuel db en hen.total hen.trans hf
    hen.chunks q joins hj p hp hexpr hagg hge hnames hne hgrp hok hl (.inr (.inr (.inl (inner_predicate py calls hj hp)))) rows h1 hw hh hlaw
    hsome hdep ho⟩

/-- C158 for INNER JOINs with DISTINCT; any LIMIT. -/
theorem C158_inner_distinct_partial (o : Join.Ops Val) (hsym : ∀ a b, o.truthy (o.cmp .eq a b) = o.truthy (o.cmp .eq b a))
    (order : List Join.Name → List Join.Name) (hperm : ∀ l, (order l).Perm l) (en : Engine) (hen : EngineOk en) (hf : Faithful py en.src)
    (q : Query S) (hq : QueryOk q) (joins : List (Join.Join Val)) (hj : InnerOk o (String.ofList q.table) joins) (hon : OnAccepted joins)
    (he : ExprsOk q joins) (hb : ∀ e, q.cond = some e → ¬ Between e) (hcols : ∀ c ∈ q.cols, ∃ e, c.2 = .expr e ∧ scalarOk e = true)
    (hnames : (q.cols.map (·.1)).Nodup) (hne : q.cols ≠ []) (hg : q.group = []) (hd : q.distinct = true) (hl : q.limit ≠ some 0)
    (hh : ∀ e ∈ q.having, havingOk e = true) (ho : JoinGroupOrderOk q) (fuel : Nat) (hfuel : joins.length + 2 ≤ fuel) :
    ∃ p, JoinSelect.compileJoins py calls o order fuel joins q = some p ∧ ∀ rows db, OneMatch o (String.ofList q.table) db (asLeft joins) rows →
      WhereOk text py calls { q with prim := JoinSelect.isPrim } (joinedRows o (String.ofList q.table) db (asLeft joins) rows) →
      Distinguishable text py calls q (joinedRows o (String.ofList q.table) db (asLeft joins) rows) →
      DistinctResult text py.cmp calls en.le q (joinedRows o (String.ofList q.table) db joins rows) (JoinSelect.run py calls o db en p rows) := by
  obtain ⟨p, hp⟩ := C158_inner_accepted py calls o order hperm q joins hj hon hq he hb fuel hfuel
  exact ⟨p, hp, fun rows db h1 hw hdist => C136_inner_distinct_partial text py calls o hsym order hperm fuel db en hen.total hen.trans hf
    hen.chunks q joins hj p hp hcols hnames hne hg hd hl (.inr (.inl (inner_predicate py calls hj hp))) rows h1 hw hh hdist ho⟩

end Verif.Props
