import Verif.Props.FromList
import Verif.Props.JoinSelectCases
import Verif.Props.Value
/-! Examples for C147. -/
namespace Verif.Props.FromCases
open Verif.Val Verif.Expr Verif.Sql Verif.Where Verif.Order Verif.SqlOrder Verif.Select Verif.SqlSelect Verif.JoinSelect Verif.Proofs.JoinSelect Verif.Props
open FromList
open Verif.Props.JoinCases (brow db rows brow_typed joined_typed)

/-- The comparisons of the example: of integers. -/
def opBack : Join.Op → Cmp
  | .eq => .eq | .ne => .neq | .gt => .gt | .ge => .gte | .lt => .lt | .le => .lte
def ops : Join.Ops Val where
  cmp op a b := match a, b with
    | .int x, .int y => ofBool ((opBack op).holds (ratCmp x y))
    | _, _ => .int 0
  isin _ _ := .int 0
  truthy v := decide (v = .int 1)

/-- `WHERE B.i = t.a AND b > 1`. -/
def w : List Conj := [.cmp .eq (.col ⟨some "B", "i"⟩) (.col ⟨some "t", "a"⟩), .cmp .gt (.col ⟨none, "b"⟩) (.expr (.lit (.int 1)))]

/-- `SELECT a, B.v AS v FROM t, B WHERE B.i = t.a AND b > 1 ORDER BY B.v`. -/
def q : Query Empty :=
  { cols := [(['a'], .expr (.col ['a'])), (['v'], .expr (.col ['B', '.', 'v']))], cond := whereE "t" w,
    order := [(.col (some ['B']) ['v'], false)], table := ['t'], columns := [['a']] }

/-- The ON of B. -/
def joinB : Join.Join Val := ⟨"B", .left, [.cmp .eq (.col ⟨some "B", "i"⟩) (.col ⟨some "t", "a"⟩)]⟩

variable (text : Str → Bool) (py : Py) (calls : Str → List Val → Val)

theorem joins_eq : Join.multiJoins (w.map (Conj.toCond py calls)) ["t"] ["B"] = [joinB] := rfl

theorem one : OneMatch ops "t" db [joinB] rows := by
  intro r hr before j after he e hm
  obtain ⟨rfl, rfl, rfl⟩ : before = [] ∧ j = joinB ∧ after = [] := by
    rcases before with _ | ⟨b, before⟩
    · simp only [List.nil_append, List.cons.injEq] at he
      exact ⟨rfl, he.1.symm, he.2.symm⟩
    · simp at he
  simp only [SqlJoin.rows, List.mem_singleton] at hm
  subst hm
  simp only [rows, List.mem_cons, List.not_mem_nil, or_false] at hr
  rcases hr with rfl | rfl | rfl | rfl <;> decide +kernel

theorem fromOk : FromOk py calls ops "t" ["B"] w where
  fresh := by decide
  plain := by decide
  compared := ⟨⟨_, List.mem_cons_self .., _, .left _ _ _, by intro r hr; cases hr; exact ⟨"t", by simp, rfl⟩⟩, trivial⟩
  back := ⟨(by intro u hu; cases hu), trivial⟩
  other := by
    intro c hc t ht x hx r hr
    simp only [List.mem_singleton] at ht
    subst ht
    simp only [w, List.mem_cons, List.not_mem_nil, or_false] at hc
    rcases hc with rfl | rfl
    · simp only [Conj.toCond, Side.toX] at hx
      generalize hr1 : (Join.X.col ⟨some "t", "a"⟩ : Join.X Val) = y at hx
      cases hx with
      | left op k x => subst hr1; simp only [Join.fields, List.mem_singleton] at hr; rw [hr]; decide
      | right op k x => simp at hr1
    · simp only [Conj.toCond, Side.toX, exprX] at hx
      generalize hr1 : (Join.X.col ⟨none, "b"⟩ : Join.X Val) = y at hx
      cases hx with
      | left op k x => simp at hr1
  cols := by
    intro c hc r hr t ht
    simp only [w, List.mem_cons, List.not_mem_nil, or_false] at hc
    rcases hc with rfl | rfl
    · simp only [Conj.toCond, Side.toX, Join.condFields, Join.fields, List.cons_append, List.nil_append, List.mem_cons, List.not_mem_nil, or_false] at hr
      rcases hr with rfl | rfl <;> cases ht <;> simp
    · have hr : r ∈ [(⟨none, "b"⟩ : Join.Ref)] := hr
      simp only [List.mem_singleton] at hr
      rw [hr] at ht; cases ht
  bare := by
    intro op l r h f hf _
    simp only [w, List.mem_cons, List.not_mem_nil, or_false, Conj.cmp.injEq] at h
    rcases h with ⟨-, rfl, rfl⟩ | ⟨-, rfl, rfl⟩
    · simp only [Side.col.injEq] at hf
      rcases hf with rfl | rfl <;> decide
    · simp only [Side.col.injEq, reduceCtorEq, or_false] at hf
      rw [← hf]; decide
  sides := by
    intro op l r h e he
    simp only [w, List.mem_cons, List.not_mem_nil, or_false, Conj.cmp.injEq] at h
    rcases h with ⟨-, rfl, rfl⟩ | ⟨-, rfl, rfl⟩
    · simp at he
    · simp only [reduceCtorEq, Side.expr.injEq, false_or] at he
      rw [← he]; rfl
  strict := by
    intro c hc htie e he r hr
    simp only [w, List.mem_cons, List.not_mem_nil, or_false] at hc
    rcases hc with rfl | rfl
    · have he : ops.truthy (ops.cmp .eq (Join.refVal "t" e ⟨some "B", "i"⟩) (Join.refVal "t" e ⟨some "t", "a"⟩)) = true := he
      simp only [Conj.toCond, Side.toX, Join.condFields, Join.fields, List.cons_append, List.nil_append, List.mem_cons, List.not_mem_nil, or_false] at hr
      have : ∀ a b : Val, ops.truthy (ops.cmp .eq a b) = true → a ≠ .null ∧ b ≠ .null := by
        intro a b h
        cases a <;> cases b <;> first | (simp [ops] at h; done) | simp
      rcases hr with rfl | rfl
      · exact (this _ _ he).1
      · exact (this _ _ he).2
    · obtain ⟨can, t, x, hx, -⟩ := htie
      cases hx

/-- The rows of the joins and of the product. -/
theorem agree_row (r : Row) (h1 : r ['B', '.', 'i'] = .null ∨ ∃ i, r ['B', '.', 'i'] = .int i) (h2 : ∃ i, r ['a'] = .int i) (h3 : ∃ i, r ['b'] = .int i) :
    Agree text py calls ops "t" w r := by
  intro op l s h
  simp only [w, List.mem_cons, List.not_mem_nil, or_false, Conj.cmp.injEq] at h
  obtain ⟨a, h2⟩ := h2
  obtain ⟨b, h3⟩ := h3
  have gcd : ∀ op (x y : Int), py.cmp op (.int x) (.int y) = ofBool (op.holds (ratCmp x y)) := by
    intro op x y
    rfl
  have fin : ∀ b, decide (ofBool b = .int 1) = decide (tv text (ofBool b) = some true) := by
    intro b
    cases b <;> simp [ofBool, tv]
  rcases h with ⟨rfl, rfl, rfl⟩ | ⟨rfl, rfl, rfl⟩
  · show ops.truthy (ops.cmp .eq (r ['B', '.', 'i']) (r ['a'])) = decide (tv text (py.cmp .eq (r ['B', '.', 'i']) (r ['a'])) = some true)
    rw [h2]
    rcases h1 with h1 | ⟨i, h1⟩
    · rw [h1]; rfl
    · rw [h1, gcd]; exact fin _
  · show ops.truthy (ops.cmp .gt (r ['b']) (.int 1)) = decide (tv text (py.cmp .gt (r ['b']) (.int 1)) = some true)
    rw [h3, gcd]; exact fin _

/-- The rows of the tables. -/
theorem env_row (r : Row) (hr : r ∈ joinedRows ops "t" db [joinB] rows ++ crossRows "t" db ["B"] rows) :
    ∃ r0 ∈ rows, ∃ row : Join.Row Val, (row = brow 1 7 ∨ row = brow 3 4 ∨ row = fun _ => .null) ∧
      r = joinedRow "t" (Join.upd (start "t" r0) "B" row) := by
  rcases List.mem_append.1 hr with hr | hr
  · obtain ⟨r0, h0, hr⟩ := List.mem_flatMap.1 hr
    obtain ⟨e, he, rfl⟩ := List.mem_map.1 hr
    refine ⟨r0, h0, ?_⟩
    simp only [SqlJoin.rows, SqlJoin.step, joinB, List.mem_flatMap] at he
    obtain ⟨e', he', he⟩ := he
    simp only [List.mem_singleton] at he
    subst he
    by_cases hm : SqlJoin.matching ops "t" db joinB (start "t" r0) = []
    · have he' := (if_pos hm : (if _ then _ else _) = _) ▸ he'
      simp only [List.mem_singleton] at he'
      exact ⟨_, Or.inr (Or.inr rfl), by rw [he']; rfl⟩
    · have he' := (if_neg hm : (if _ then _ else _) = _) ▸ he'
      simp only [SqlJoin.matching, List.mem_filter, List.mem_map] at he'
      obtain ⟨⟨row, hrow, rfl⟩, -⟩ := he'
      rw [show db "B" = [brow 1 7, brow 3 4] from rfl] at hrow
      simp only [List.mem_cons, List.not_mem_nil, or_false] at hrow
      exact ⟨row, by rcases hrow with h | h <;> simp [h], rfl⟩
  · obtain ⟨r0, h0, hr⟩ := List.mem_flatMap.1 hr
    obtain ⟨e, he, rfl⟩ := List.mem_map.1 hr
    refine ⟨r0, h0, ?_⟩
    simp only [SqlJoin.cross, List.mem_flatMap, List.mem_map, List.mem_singleton] at he
    obtain ⟨e', ⟨row, hrow, rfl⟩, rfl⟩ := he
    rw [show db "B" = [brow 1 7, brow 3 4] from rfl] at hrow
    simp only [List.mem_cons, List.not_mem_nil, or_false] at hrow
    exact ⟨row, by rcases hrow with h | h <;> simp [h], rfl⟩

theorem agree : ∀ r ∈ joinedRows ops "t" db [joinB] rows ++ crossRows "t" db ["B"] rows, Agree text py calls ops "t" w r := by
  intro r hr
  obtain ⟨r0, h0, row, hrow, rfl⟩ := env_row r hr
  have h0' : ∃ a b, r0 = selRow a b := by
    simp only [rows, List.mem_cons, List.not_mem_nil, or_false] at h0
    rcases h0 with h | h | h | h <;> exact ⟨_, _, h⟩
  obtain ⟨a, b, rfl⟩ := h0'
  refine agree_row text py calls _ ?_ ⟨a, rfl⟩ ⟨b, rfl⟩
  rcases hrow with rfl | rfl | rfl
  · exact Or.inr ⟨1, rfl⟩
  · exact Or.inr ⟨3, rfl⟩
  · exact Or.inl rfl

theorem typed : ∀ r ∈ joinedRows ops "t" db [joinB] rows, ∀ c, r c = r (baseName c) := by
  intro r hr
  obtain ⟨r0, h0, row, hrow, rfl⟩ := env_row r (List.mem_append_left _ hr)
  refine joined_typed "t" _ (fun t c => ?_)
  unfold Join.upd
  split
  · rcases hrow with rfl | rfl | rfl
    · exact brow_typed _ _ c
    · exact brow_typed _ _ c
    · rfl
  · unfold start
    split
    · simp only [String.toList_ofList]
      simp only [rows, List.mem_cons, List.not_mem_nil, or_false] at h0
      rcases h0 with rfl | rfl | rfl | rfl <;> exact selRow_typed _ _ c
    · rfl

theorem whereOk {S : Type} (q : Query S) (h : q.cond = whereE "t" w) :
    WhereOk text py calls { q with prim := JoinSelect.isPrim } (joinedRows ops "t" db [joinB] rows) := by
  refine ⟨?_, ?_, ?_, typed⟩
  · intro e he; rw [show ({ q with prim := JoinSelect.isPrim } : Query S).cond = q.cond from rfl, h] at he; cases he; exact testsOk_noTests _ _ rfl
  · intro e he
    rw [show ({ q with prim := JoinSelect.isPrim } : Query S).cond = q.cond from rfl, h] at he; cases he
    refine ⟨rfl, rfl, ?_⟩
    show NoClash [['B', '.', 'i'], ['a'], ['b']]
    intro k hk k' hk' he
    simp only [List.mem_cons, List.not_mem_nil, or_false] at hk hk'
    rcases hk with rfl | rfl | rfl <;> rcases hk' with rfl | rfl | rfl <;> first | rfl | exact absurd he (by decide)
  · intro e he
    rw [show ({ q with prim := JoinSelect.isPrim } : Query S).cond = q.cond from rfl, h] at he; cases he
    intro r _
    exact ⟨fun _ h => (by cases h), trivial⟩

theorem opsSym (a b : Val) : ops.truthy (ops.cmp .eq a b) = ops.truthy (ops.cmp .eq b a) := by
  cases a <;> cases b <;> try rfl
  next x y =>
    show decide (ofBool (decide (ratCmp x y = .eq)) = .int 1) = decide (ofBool (decide (ratCmp y x = .eq)) = .int 1)
    rw [ratCmp_swap]
    cases ratCmp (y : Rat) x <;> rfl

/-- No functions. -/
def noCalls : Str → List Val → Val := fun _ _ => .null

/-- C147 on `q`: (3, 4), (1, 7). -/
example : ∃ p, compileFrom plainPy noCalls ops id 5 ["B"] [] w q = some p ∧
    JoinRowResult text plainPy.cmp noCalls rankLe q (crossRows "t" db ["B"] rows) (JoinSelect.run plainPy noCalls ops db (oneBatch plainPy) p rows) ∧
    JoinSelect.run plainPy noCalls ops db (oneBatch plainPy) p rows =
      [[(['a'], .int 3), (['v'], .int 4)], [(['a'], .int 1), (['v'], .int 7)]] := by
  refine ⟨_, rfl, ?_, by decide +kernel⟩
  apply C147_from_select_partial text plainPy noCalls ops opsSym id (fun l => List.Perm.refl l) 5 db (oneBatch plainPy) rankLe_total rankLe_trans
    (idealSrc_faithful plainPy) q ["B"] (by simp) w rfl (fromOk plainPy noCalls) _ rfl
  · intro c hc
    simp only [q, List.mem_cons, List.not_mem_nil, or_false] at hc
    rcases hc with rfl | rfl <;> exact ⟨_, rfl, rfl⟩
  · decide
  · rfl
  · rfl
  · intro h; cases h
  · exact one
  · exact whereOk text plainPy noCalls q rfl
  · exact agree text plainPy noCalls
  · intro e he; cases he
  · refine ⟨?_, ?_, ?_, ?_⟩
    · intro t n d h
      simp only [q, List.mem_singleton, Prod.mk.injEq, Order.Item.col.injEq] at h
      rw [h.1.2]; decide
    · intro n d h
      simp [q] at h
    · intro t n d h _
      simp only [q, List.mem_singleton, Prod.mk.injEq, Order.Item.col.injEq, Option.some.injEq] at h
      rw [h.1.1, h.1.2]
      simp [q]
    · intro n d h
      simp [q] at h

/-- `SELECT B.v AS v, COUNT(a) AS n FROM t, B WHERE … GROUP BY B.v`. -/
def qg : Query (Option (Option Int)) :=
  { cols := [(['v'], .expr (.col ['B', '.', 'v'])), (['n'], .agg [(countAggr, .col ['a'])] fun l => l.headD .null)],
    cond := whereE "t" w, group := [.expr (.col ['B', '.', 'v'])], table := ['t'], columns := [['a']] }

/-- C147 on `qg`. -/
example : ∃ p, compileFrom plainPy noCalls ops id 5 ["B"] [] w qg = some p ∧
    GroupResult text plainPy.cmp noCalls rankLe qg (crossRows "t" db ["B"] rows) (JoinSelect.run plainPy noCalls ops db (smallBatches plainPy) p rows) ∧
    JoinSelect.run plainPy noCalls ops db (smallBatches plainPy) p rows =
      [[(['v'], .int 7), (['n'], .int 1)], [(['v'], .int 4), (['n'], .int 1)]] := by
  refine ⟨_, rfl, ?_, by decide +kernel⟩
  apply C147_from_grouped_partial text plainPy noCalls ops opsSym id (fun l => List.Perm.refl l) 5 db (smallBatches plainPy) rankLe_total
    rankLe_trans (idealSrc_faithful plainPy) _ qg ["B"] (by simp) w rfl (fromOk plainPy noCalls) _ rfl
  · intro n e h
    simp [qg] at h
    rw [h.2]; rfl
  · intro n args final h a ha
    simp [qg] at h
    rw [h.2.1] at ha
    simp at ha
    rw [ha]; rfl
  · intro e h
    simp [qg] at h
    rw [h]; rfl
  · decide
  · simp [qg]
  · left; simp [qg]
  · intro c hc _
    simp [qg] at hc
  · decide
  · left; rfl
  · exact one
  · exact whereOk text plainPy noCalls qg rfl
  · exact agree text plainPy noCalls
  · intro e he; cases he
  · intro n args final h a ha
    simp [qg] at h
    rw [h.2.1] at ha
    simp at ha
    rw [ha]
    exact ⟨fun _ => True, total_law Agg.count _ fun l1 l2 _ _ => C20_count l1 l2, fun _ _ => trivial⟩
  · left; simp [qg]
  · intro h
    have := h (['n'], .agg [(countAggr, .col ['a'])] (fun l => l.headD .null)) (by simp [qg])
    simp [isAgg] at this
  · refine ⟨?_, ?_, ?_, ?_⟩ <;> intros <;> simp [qg] at *
  · intro l
    simp [smallBatches, List.flatMap_map]

/-- **C147 is violated** by `FROM t, B INNER JOIN C ON C.i = t.a` with an empty table C: two rows are returned, SQL has none. -/
theorem _root_.Verif.Props.C147_join_violated :
    let joinC : Join.Join Val := ⟨"C", .inner, [.cmp .eq (.col ⟨some "C", "i"⟩) (.col ⟨some "t", "a"⟩)]⟩
    (∃ p, compileFrom plainPy noCalls ops id 5 ["B"] [joinC] w q = some p ∧
      (JoinSelect.run plainPy noCalls ops db (oneBatch plainPy) p rows).length = 2) ∧
    ∀ e, SqlJoin.rows .null ops "t" db [joinC] e = [] := by
  refine ⟨⟨_, rfl, by decide +kernel⟩, fun e => ?_⟩
  rfl

end Verif.Props.FromCases
