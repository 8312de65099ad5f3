import Verif.Props.JoinSelect
import Verif.Props.SelectCases
/-! Examples for C132 and C133. -/
namespace Verif.Props.JoinCases
open Verif.Val Verif.Expr Verif.Sql Verif.Where Verif.Order Verif.SqlOrder Verif.Select Verif.SqlSelect Verif.Proofs.JoinSelect Verif.Props

theorem split_base (c : Str) (h : '.' ∈ baseName c) :
    (baseName c).takeWhile (· ≠ '.') = c.takeWhile (· ≠ '.') ∧
      ((baseName c).dropWhile (· ≠ '.')).drop 1 = baseName ((c.dropWhile (· ≠ '.')).drop 1) := by
  induction c with
  | nil => cases h
  | cons x c ih =>
    by_cases hx : x = '|'
    · subst hx; simp [baseName] at h
    · have hb : baseName (x :: c) = x :: baseName c := by simp [baseName, hx]
      rw [hb] at h ⊢
      by_cases hd : x = '.'
      · subst hd; simp
      · have := ih ((List.mem_cons.1 h).resolve_left (Ne.symm hd))
        simpa [List.takeWhile_cons, List.dropWhile_cons, hd] using this

/-- The rows of joins of tables whose columns do not depend on typing filters do not either. -/
theorem joined_typed (primary : Join.Name) (e : Join.Env Val) (h : ∀ t c, e t (String.ofList c) = e t (String.ofList (baseName c))) (c : Str) :
    joinedRow primary e c = joinedRow primary e (baseName c) := by
  unfold joinedRow JoinSelect.refOf
  rw [baseName_idem]
  by_cases hd : '.' ∈ baseName c
  · obtain ⟨h1, h2⟩ := split_base c hd
    rw [if_pos hd, if_pos hd]
    simp only [h1, h2, Option.getD_some]
    exact h _ _
  · rw [if_neg hd, if_neg hd]
    exact h _ _

/-- The comparisons of the example. -/
def ops : Join.Ops Val where
  cmp op a b := if op = .eq ∧ a = b ∧ a ≠ .null then .int 1 else .int 0
  isin _ _ := .int 0
  truthy v := decide (v = .int 1)

/-- `b(id, v)` has the rows (1, 7) and (3, 4). -/
def brow (i v : Int) : Join.Row Val := fun c =>
  if baseName c.toList = ['i'] then .int i else if baseName c.toList = ['v'] then .int v else .null
def db : Join.Name → List (Join.Row Val) := fun t => if t = "B" then [brow 1 7, brow 3 4] else []

/-- `LEFT JOIN B ON B.i = t.a`. -/
def joinB : Join.Join Val := ⟨"B", .left, [.cmp .eq (.col ⟨some "B", "i"⟩) (.col ⟨some "t", "a"⟩)]⟩
def joins : List (Join.Join Val) := [joinB]

theorem joinsOk : JoinsOk ops "t" joins where
  names := ⟨by decide, by simp, trivial⟩
  left := by simp [joins, joinB]
  on := by
    intro j hj c hc
    simp only [joins, List.mem_singleton] at hj
    subst hj
    simp only [joinB, List.mem_singleton] at hc
    subst hc
    refine ⟨?_, ⟨?_, ?_⟩, trivial, trivial, trivial⟩
    · intro h; simp [Join.fields] at h
    · intro k _ f hf; simp only [Join.fields, List.mem_singleton] at hf; subst hf; simp [joinB]
    · intro k hk; simp [joinB] at hk
  known := by
    intro j hj c hc r hr t ht
    simp only [joins, List.mem_singleton] at hj
    subst hj
    simp only [joinB, List.mem_singleton] at hc
    subst hc
    simp only [Join.condFields, Join.fields, List.cons_append, List.nil_append, List.mem_cons, List.not_mem_nil, or_false] at hr
    rcases hr with rfl | rfl <;> cases ht <;> simp [joins, joinB]

/-- The query is `SELECT a, B.v AS v FROM t LEFT JOIN B ON B.i = t.a WHERE b > 1 ORDER BY B.v`. -/
def q : Query Empty :=
  { cols := [(['a'], .expr (.col ['a'])), (['v'], .expr (.col ['B', '.', 'v']))], cond := some (.cmp .gt (.col ['b']) (.lit (.int 1))),
    order := [(.col (some ['B']) ['v'], false)], table := ['t'], columns := [['a']] }

def rows : List Row := [selRow 1 5, selRow 3 2, selRow 9 0, selRow 2 4]

theorem brow_typed (i v : Int) (c : Str) : brow i v (String.ofList c) = brow i v (String.ofList (baseName c)) := by
  simp only [brow, String.toList_ofList, baseName_idem]

theorem one : OneMatch ops "t" db joins rows := by
  intro r hr before j after he e hm
  obtain ⟨rfl, rfl, rfl⟩ : before = [] ∧ j = joinB ∧ after = [] := by
    rcases before with _ | ⟨b, before⟩
    · simp only [joins, List.nil_append, List.cons.injEq] at he
      exact ⟨rfl, he.1.symm, he.2.symm⟩
    · simp [joins] at he
  simp only [SqlJoin.rows, List.mem_singleton] at hm
  subst hm
  simp only [rows, List.mem_cons, List.not_mem_nil, or_false] at hr
  rcases hr with rfl | rfl | rfl | rfl <;> decide +kernel

theorem theRow_typed (r : Row) (c : Str) : theRow .null ops "t" db joinB (start "t" r) (String.ofList c) = theRow .null ops "t" db joinB (start "t" r) (String.ofList (baseName c)) := by
  unfold theRow
  cases h : (db joinB.name).find? _ with
  | none => rfl
  | some row =>
    have := List.mem_of_find?_eq_some h
    rw [show db joinB.name = [brow 1 7, brow 3 4] from rfl] at this
    simp only [List.mem_cons, List.not_mem_nil, or_false] at this
    rcases this with rfl | rfl <;> exact brow_typed _ _ c

theorem typed : ∀ r ∈ joinedRows ops "t" db joins rows, ∀ c, r c = r (baseName c) := by
  rw [joinedRows_eq ops "t" db joins joinsOk.left rows one]
  intro r hr
  obtain ⟨r0, h0, rfl⟩ := List.mem_map.1 hr
  intro c
  refine joined_typed "t" _ (fun t c => ?_) c
  show Join.upd (start "t" r0) "B" (theRow .null ops "t" db joinB (start "t" r0)) t (String.ofList c) = Join.upd (start "t" r0) "B" (theRow .null ops "t" db joinB (start "t" r0)) t (String.ofList (baseName c))
  unfold Join.upd
  split
  · exact theRow_typed r0 c
  · unfold start
    split
    · simp only [String.toList_ofList]
      simp only [rows, List.mem_cons, List.not_mem_nil, or_false] at h0
      rcases h0 with rfl | rfl | rfl | rfl <;> exact selRow_typed _ _ c
    · rfl

section
variable (text : Str → Bool) (py : Py) (calls : Str → List Val → Val)

theorem whereOk {S : Type} (q : Query S) (h : q.cond = some (.cmp .gt (.col ['b']) (.lit (.int 1)))) :
    WhereOk text py calls { q with prim := JoinSelect.isPrim } (joinedRows ops "t" db joins rows) := by
  refine ⟨?_, ?_, ?_, typed⟩
  · intro e he; rw [show ({ q with prim := JoinSelect.isPrim } : Query S).cond = q.cond from rfl, h] at he; cases he; exact testsOk_noTests _ _ rfl
  · intro e he
    rw [show ({ q with prim := JoinSelect.isPrim } : Query S).cond = q.cond from rfl, h] at he; cases he
    refine ⟨rfl, rfl, ?_⟩
    intro k hk k' hk' _
    rw [show operandCols (tested (.cmp .gt (.col ['b']) (.lit (.int 1)))) = [['b']] from rfl] at hk hk'
    simp only [List.mem_singleton] at hk hk'
    rw [hk, hk']
  · intro e he
    rw [show ({ q with prim := JoinSelect.isPrim } : Query S).cond = q.cond from rfl, h] at he; cases he
    intro r _
    trivial

theorem opsSym (a b : Val) : ops.truthy (ops.cmp .eq a b) = ops.truthy (ops.cmp .eq b a) := by
  simp only [ops]
  by_cases h : a = b
  · subst h; rfl
  · simp [h, Ne.symm h]

/-- C132 on `q`: (2, NULL), (3, 4), (1, 7). -/
example : ∃ p, JoinSelect.compile py calls ops id 5 joins q = some p ∧
    JoinRowResult text py.cmp calls rankLe q (joinedRows ops "t" db joins rows) (JoinSelect.run py calls ops db (oneBatch py) p rows) ∧
    JoinSelect.run py calls ops db (oneBatch py) p rows =
      [[(['a'], .int 2), (['v'], .null)], [(['a'], .int 3), (['v'], .int 4)], [(['a'], .int 1), (['v'], .int 7)]] := by
  refine ⟨_, rfl, ?_, rfl⟩
  apply C132_join_select_partial text py calls ops opsSym id (fun l => List.Perm.refl l) 5 db (oneBatch py) rankLe_total rankLe_trans
    (idealSrc_faithful py) q joins joinsOk _ rfl
  · intro c hc
    simp only [q, List.mem_cons, List.not_mem_nil, or_false] at hc
    rcases hc with rfl | rfl <;> exact ⟨_, rfl, rfl⟩
  · decide
  · rfl
  · rfl
  · intro h; cases h
  · exact one
  · exact whereOk text py calls q rfl
  · intro e he; cases he
  · refine ⟨?_, ?_, ?_, ?_⟩
    · intro t n d h
      simp only [q, List.mem_singleton, Prod.mk.injEq, Order.Item.col.injEq] at h
      rw [h.1.2]; decide
    · intro n d h
      simp [q] at h
    · intro t n d h _
      simp only [q, List.mem_singleton, Prod.mk.injEq, Order.Item.col.injEq, Option.some.injEq] at h
      rw [h.1.1, h.1.2]
      simp [q]
    · intro n d h
      simp [q] at h

/-- `SELECT B.v AS v, COUNT(a) AS n FROM t LEFT JOIN B ON B.i = t.a WHERE b > 1 GROUP BY B.v`. -/
def qg : Query (Option (Option Int)) :=
  { cols := [(['v'], .expr (.col ['B', '.', 'v'])), (['n'], .agg [(countAggr, .col ['a'])] fun l => l.headD .null)],
    cond := some (.cmp .gt (.col ['b']) (.lit (.int 1))), group := [.expr (.col ['B', '.', 'v'])], table := ['t'], columns := [['a']] }

/-- C133 on `qg`. -/
example : ∃ p, JoinSelect.compile py calls ops id 5 joins qg = some p ∧
    GroupResult text py.cmp calls rankLe qg (joinedRows ops "t" db joins rows) (JoinSelect.run py calls ops db (smallBatches py) p rows) ∧
    JoinSelect.run py calls ops db (smallBatches py) p rows =
      [[(['v'], .int 7), (['n'], .int 1)], [(['v'], .int 4), (['n'], .int 1)], [(['v'], .null), (['n'], .int 1)]] := by
  refine ⟨_, rfl, ?_, rfl⟩
  apply C133_join_grouped_partial text py calls ops opsSym id (fun l => List.Perm.refl l) 5 db (smallBatches py) rankLe_total rankLe_trans
    (idealSrc_faithful py) _ qg joins joinsOk _ rfl
  · intro n e h
    simp [qg] at h
    rw [h.2]; rfl
  · intro n args final h a ha
    simp [qg] at h
    rw [h.2.1] at ha
    simp at ha
    rw [ha]; rfl
  · intro e h
    simp [qg] at h
    rw [h]; rfl
  · decide
  · simp [qg]
  · left; simp [qg]
  · intro c hc _
    simp [qg] at hc
  · decide
  · left; rfl
  · exact one
  · exact whereOk text py calls qg rfl
  · intro e he; cases he
  · intro n args final h a ha
    simp [qg] at h
    rw [h.2.1] at ha
    simp at ha
    rw [ha]
    exact ⟨fun _ => True, total_law Agg.count _ fun l1 l2 _ _ => C20_count l1 l2, fun _ _ => trivial⟩
  · left; simp [qg]
  · intro h
    have := h (['n'], .agg [(countAggr, .col ['a'])] (fun l => l.headD .null)) (by simp [qg])
    simp [isAgg] at this
  · refine ⟨?_, ?_, ?_, ?_⟩ <;> intros <;> simp [qg] at *
  · intro l
    simp [smallBatches, List.flatMap_map]

/-- `SELECT a AS v FROM t LEFT JOIN B ON B.i = t.a ORDER BY B.v`. -/
def qo : Query Empty :=
  { cols := [(['v'], .expr (.col ['a']))], order := [(.col (some ['B']) ['v'], false)], table := ['t'], columns := [['a']] }

end
end Verif.Props.JoinCases

namespace Verif.Props
open Verif.Val Verif.Expr Verif.Sql Verif.Where Verif.Order Verif.SqlOrder Verif.Select Verif.SqlSelect Verif.Proofs.JoinSelect JoinCases
variable {S : Type} (text : Str → Bool) (py : Py) (calls : Str → List Val → Val)

/-- **C132 is violated by ORDER BY a column of a joined table** that has the name of a result column made of something else: the result
column is sorted on.  In `qo` the rows 1 (with `B.v` 7) and 3 (with `B.v` 4) are returned in this order. -/
theorem C132_order_violated :
    let rows := [selRow 1 5, selRow 3 2]
    ∃ p, JoinSelect.compile py calls ops id 5 joins qo = some p ∧
      JoinSelect.run py calls ops db (oneBatch py) p rows = [[(['v'], .int 1)], [(['v'], .int 3)]] ∧
      ¬ JoinRowResult text py.cmp calls rankLe qo (joinedRows ops "t" db joins rows) (JoinSelect.run py calls ops db (oneBatch py) p rows) := by
  intro rows
  refine ⟨_, rfl, rfl, ?_⟩
  rintro ⟨sorted, hs, hr⟩
  have hr' : [[(['v'], Val.int 1)], [(['v'], Val.int 3)]] = sorted.map fun r => project text py.cmp calls qo.cols [r] := hr
  have hmem : ∀ x ∈ sorted, x ∈ joinedRows ops "t" db joins rows := fun x hx => (List.mem_filter.1 (hs.perm.subset hx)).1
  have hj : ∀ x ∈ joinedRows ops "t" db joins rows, (x ['a'] = .int 1 ∧ x ['B', '.', 'v'] = .int 7) ∨ (x ['a'] = .int 3 ∧ x ['B', '.', 'v'] = .int 4) := by
    intro x hx
    rw [joinedRows_eq ops "t" db joins joinsOk.left rows (fun r hr => one r (by
      simp only [rows, JoinCases.rows, List.mem_cons, List.not_mem_nil, or_false] at hr ⊢
      rcases hr with rfl | rfl <;> simp))] at hx
    simp only [rows, List.map_cons, List.map_nil, List.mem_cons, List.not_mem_nil, or_false] at hx
    rcases hx with rfl | rfl
    · exact Or.inl ⟨rfl, rfl⟩
    · exact Or.inr ⟨rfl, rfl⟩
  match sorted, hr', hmem, hs.ascending with
  | [x, y], hr', hmem, ha =>
    simp only [List.map_cons, List.map_nil, List.cons.injEq, and_true] at hr'
    have hx : x ['a'] = .int 1 := by
      have := congrArg (colVal ['v']) hr'.1
      exact this.symm
    have hy : y ['a'] = .int 3 := by
      have := congrArg (colVal ['v']) hr'.2
      exact this.symm
    have hx' : x ['B', '.', 'v'] = .int 7 := by
      rcases hj x (hmem x (by simp)) with h | h
      · exact h.2
      · rw [hx] at h; cases h.1
    have hy' : y ['B', '.', 'v'] = .int 4 := by
      rcases hj y (hmem y (by simp)) with h | h
      · rw [hy] at h; cases h.1
      · exact h.2
    have hle := List.rel_of_pairwise_cons ha (List.mem_singleton.2 rfl)
    have hle' : (rankLe (x ['B', '.', 'v']) (y ['B', '.', 'v']) = true ∧ ¬ rankLe (y ['B', '.', 'v']) (x ['B', '.', 'v']) = true) ∨
        (rankLe (x ['B', '.', 'v']) (y ['B', '.', 'v']) = true ∧ rankLe (y ['B', '.', 'v']) (x ['B', '.', 'v']) = true ∧ _) := hle
    rw [hx', hy'] at hle'
    rcases hle' with h | h <;> exact absurd h.1 (by decide)
  | [], hr', _, _ => simp at hr'
  | [_], hr', _, _ => simp at hr'
  | _ :: _ :: _ :: _, hr', _, _ => simp at hr'

namespace JoinRefused

theorem put_names {α : Type} (n : Str) (v : α) (l : List (Str × α)) (k : Str) (h : k ∈ (put n v l).map (·.1)) : k = n ∨ k ∈ l.map (·.1) := by
  induction l with
  | nil => simpa [Select.put] using h
  | cons c l ih =>
    obtain ⟨k', w⟩ := c
    simp only [Select.put] at h
    split at h
    · simp only [List.map_cons, List.mem_cons] at h ⊢
      exact Or.inr h
    · simp only [List.map_cons, List.mem_cons] at h ⊢
      rcases h with h | h
      · exact Or.inr (Or.inl h)
      · exact (ih h).imp id Or.inr

theorem addCols_names {K : Type} (cc : E → Option K) (group : List GKey) (cols : List (Str × Select.Item S)) (s s' : JoinSelect.Schema K S)
    (h : JoinSelect.addCols cc group s cols = some s') (k : Str) (hk : k ∈ s'.map (·.1)) : k ∈ s.map (·.1) ∨ k ∈ cols.map (·.1) := by
  induction cols generalizing s with
  | nil => cases h; exact Or.inl hk
  | cons c cols ih =>
    obtain ⟨s1, h1, h⟩ := Option.bind_eq_some_iff.1 h
    have hs1 : k ∈ s1.map (·.1) → k = c.1 ∨ k ∈ s.map (·.1) := by
      unfold JoinSelect.addCol at h1
      split at h1
      · obtain ⟨x, _, rfl⟩ := Option.map_eq_some_iff.1 h1
        exact put_names _ _ _ k
      · obtain ⟨x, _, h1⟩ := Option.bind_eq_some_iff.1 h1
        obtain ⟨y, _, rfl⟩ := Option.map_eq_some_iff.1 h1
        exact put_names _ _ _ k
    rcases ih s1 h with h | h
    · rcases hs1 h with h | h
      · exact Or.inr (by simp [h])
      · exact Or.inl h
    · exact Or.inr (by simp only [List.map_cons, List.mem_cons]; exact Or.inr h)

theorem addItems_more (c : Order.Ctx) (acc p : List Order.Key × List Order.Key) (items : List (Order.Item × Bool))
    (h : Order.addItems c acc items = some p) (hl : acc.1.length ≤ acc.2.length) :
    p.1.length ≤ p.2.length ∧ (acc.1.length < acc.2.length → p.1.length < p.2.length) ∧ (∀ k ∈ acc.2, k ∈ p.2) ∧
      ∀ t n d, (Order.Item.col (some t) n, d) ∈ items → t ≠ c.table → p.1.length < p.2.length ∧ (n, d) ∈ p.2 := by
  induction items generalizing acc with
  | nil => cases h; exact ⟨hl, id, fun k hk => hk, fun t n d hm => by cases hm⟩
  | cons i items ih =>
    simp only [Order.addItems] at h
    obtain ⟨acc', h1, h2⟩ := Option.bind_eq_some_iff.1 h
    obtain ⟨i, d⟩ := i
    have hacc : acc'.1.length ≤ acc'.2.length ∧ (acc.1.length < acc.2.length → acc'.1.length < acc'.2.length) ∧ (∀ k ∈ acc.2, k ∈ acc'.2) ∧
        ∀ t n, i = .col (some t) n → t ≠ c.table → acc'.1.length < acc'.2.length ∧ (n, d) ∈ acc'.2 := by
      cases i with
      | expr x =>
        cases x with
        | none => simp [Order.addItem] at h1
        | some x =>
          simp only [Order.addItem, Option.some.injEq] at h1
          subst h1
          simp only [List.length_append, List.length_singleton]
          exact ⟨by omega, fun _ => by omega, fun k hk => by simp [hk], fun t n hi => by cases hi⟩
      | col t n =>
        simp only [Order.addItem, Option.some.injEq] at h1
        subst h1
        refine ⟨?_, ?_, fun k hk => by simp [hk], ?_⟩
        · simp only; split <;> simp only [List.length_append, List.length_singleton] <;> omega
        · intro _; simp only; split <;> simp only [List.length_append, List.length_singleton] <;> omega
        · intro t' n' hi ht
          cases hi
          simp only [Order.isPrimary, ht, decide_false, Bool.false_eq_true, if_false, List.length_append, List.length_singleton]
          exact ⟨by omega, by simp⟩
    obtain ⟨g1, g2, g3, g4⟩ := ih acc' h2 hacc.1
    refine ⟨g1, fun hh => g2 (hacc.2.1 hh), fun k hk => g3 k (hacc.2.2.1 k hk), fun t n d' hm ht => ?_⟩
    rcases List.mem_cons.1 hm with hm | hm
    · cases hm
      obtain ⟨x, y⟩ := hacc.2.2.2 t n rfl ht
      exact ⟨g2 x, g3 _ y⟩
    · exact g4 t n d' hm ht
end JoinRefused

/-- … and a column of a joined table that is no result column is refused in ORDER BY. -/
theorem C132_order_refused (o : Join.Ops Val) (order : List Join.Name → List Join.Name) (fuel : Nat) (joins : List (Join.Join Val))
    (q : Query S) (t n : Str) (d : Bool) (h : (Order.Item.col (some t) n, d) ∈ q.order) (ht : t ≠ q.table) (hn : n ∉ q.cols.map (·.1)) :
    JoinSelect.compile py calls o order fuel joins q = none := by
  rw [Option.eq_none_iff_forall_ne_some]
  intro p hp
  obtain ⟨info, _, hp⟩ := Proofs.JoinSelect.compile_some hp
  simp only [JoinSelect.compileSelect, Option.bind_eq_some_iff, Option.map_eq_some_iff] at hp
  obtain ⟨s, hs, w, _, i, _, od, hod, _⟩ := hp
  unfold Order.compile at hod
  obtain ⟨⟨a, b⟩, h1, h2⟩ := Option.bind_eq_some_iff.1 hod
  obtain ⟨_, _, _, h3⟩ := JoinRefused.addItems_more _ _ _ _ h1 (Nat.le_refl _)
  obtain ⟨hlt, hm⟩ := h3 t n d h ht
  simp only at h2 hlt hm
  rw [if_pos ⟨fun hb => by (rw [hb] at hm; cases hm), hlt⟩] at h2
  split at h2
  · next hall =>
    have := List.all_eq_true.1 hall _ hm
    simp only [decide_eq_true_eq] at this
    exact hn ((JoinRefused.addCols_names _ _ _ _ _ hs n this).resolve_left (by simp))
  · cases h2
end Verif.Props
