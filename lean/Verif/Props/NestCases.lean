import Verif.Props.Nest
import Verif.Props.SelectCases
/-! Examples for C144, and statements that violate it. -/
namespace Verif.Props
open Verif.Val Verif.Expr Verif.Sql Verif.Where Verif.Order Verif.Select Verif.SqlSelect Verif.Nest Verif.SqlNest Verif.Reduce Verif.Props.Nested

section
variable (text : Str → Bool) (py : Py) (calls : Str → List Val → Val)

abbrev NS := Option (Option Int)

/-- `SELECT a, b FROM … WHERE b > 1`. -/
def nestInner : Query NS :=
  { cols := [(['a'], .expr (.col ['a'])), (['b'], .expr (.col ['b']))], cond := some (.cmp .gt (.col ['b']) (.lit (.int 1))),
    table := ['t'], columns := [['a'], ['b']] }

/-- `SELECT a, b FROM …`. -/
def nestAll : Query NS := { cols := [(['a'], .expr (.col ['a'])), (['b'], .expr (.col ['b']))], table := ['u'], columns := [['a'], ['b']] }

/-- `WITH w AS (SELECT a, b FROM t WHERE b > 1) SELECT a, COUNT(b) AS n FROM (SELECT a, b FROM w UNION ALL SELECT a, b FROM u) x
WHERE b > 1 GROUP BY a HAVING n > 1 ORDER BY n DESC`. -/
def nested : Rel NS :=
  .withq ['w'] (.select nestInner (.scan ['t'])) (.select q58 (.union (.select nestAll (.scan ['w'])) (.select nestAll (.scan ['u']))))

/-- The tables of the example. -/
def nestDb : Store := fun n =>
  if n = ['t'] then [[(['a'], .int 1), (['b'], .int 5)], [(['a'], .int 2), (['b'], .int 0)], [(['a'], .int 2), (['b'], .int 7)]]
  else if n = ['u'] then [[(['a'], .int 1), (['b'], .int 4)]] else []

theorem rowOfRecord_typed (rows : List Out) : ∀ r ∈ rows.map rowOfRecord, ∀ c, r c = r (baseName c) := by
  intro r hr c
  obtain ⟨o, _, rfl⟩ := List.mem_map.1 hr
  simp only [rowOfRecord, baseName_idem]

theorem whereOk_rec (S : Type) (q : Query S) (h : q.cond = some (.cmp .gt (.col ['b']) (.lit (.int 1)))) (rows : List Out) :
    WhereOk text py calls q (rows.map rowOfRecord) := by
  refine ⟨?_, ?_, ?_, rowOfRecord_typed rows⟩
  · intro e he; rw [h] at he; cases he; exact testsOk_noTests _ _ rfl
  · intro e he
    rw [h] at he; cases he
    refine ⟨rfl, rfl, ?_⟩
    intro k hk k' hk' _
    rw [show operandCols (tested (.cmp .gt (.col ['b']) (.lit (.int 1)))) = [['b']] from rfl] at hk hk'
    simp only [List.mem_singleton] at hk hk'
    rw [hk, hk']
  · intro e he
    rw [h] at he; cases he
    intro r _
    trivial

theorem whereOk_none (S : Type) (q : Query S) (h : q.cond = none) (rows : List Out) : WhereOk text py calls q (rows.map rowOfRecord) := by
  refine ⟨?_, ?_, ?_, rowOfRecord_typed rows⟩
  · intro e he; rw [h] at he; cases he
  · intro e he; rw [h] at he; cases he
  · intro e he; rw [h] at he; cases he

theorem level_inner (p : Plan NS) (rows : List Out) : LevelOk text py calls nestInner p (rows.map rowOfRecord) where
  names := by decide
  limit := by decide
  cond := whereOk_rec text py calls _ nestInner rfl rows
  having := by intro e he; cases he
  kind := by
    left
    refine ⟨rfl, rfl, ?_, ⟨by intro t n d h; simp [nestInner] at h, by intro n d h; simp [nestInner] at h⟩⟩
    intro c hc
    simp only [nestInner, List.mem_cons, List.not_mem_nil, or_false] at hc
    rcases hc with rfl | rfl <;> exact ⟨_, rfl, rfl⟩

theorem level_all (p : Plan NS) (rows : List Out) : LevelOk text py calls nestAll p (rows.map rowOfRecord) where
  names := by decide
  limit := by decide
  cond := whereOk_none text py calls _ nestAll rfl rows
  having := by intro e he; cases he
  kind := by
    left
    refine ⟨rfl, rfl, ?_, ⟨by intro t n d h; simp [nestAll] at h, by intro n d h; simp [nestAll] at h⟩⟩
    intro c hc
    simp only [nestAll, List.mem_cons, List.not_mem_nil, or_false] at hc
    rcases hc with rfl | rfl <;> exact ⟨_, rfl, rfl⟩

theorem level_58 (p : Plan NS) (rows : List Out) : LevelOk text py calls q58 p (rows.map rowOfRecord) where
  names := by decide
  limit := by decide
  cond := whereOk_rec text py calls _ q58 rfl rows
  having := by
    intro e he
    simp only [q58, Option.mem_def, Option.some.injEq] at he
    rw [← he]; rfl
  kind := by
    right; right
    refine ⟨Or.inl (by simp [q58]), rfl, by simp [q58], ⟨?_, ?_⟩, ?_, ?_, ?_, ?_, Or.inl rfl, ?_, Or.inl (by simp [q58]), ?_⟩
    · intro t n d h; simp [q58] at h
    · intro n d h
      simp only [q58, List.mem_singleton, Prod.mk.injEq, Order.Item.col.injEq, true_and] at h
      rw [h.1]
      exact ⟨by simp [q58], fun _ _ => Or.inl ⟨_, _, by simp [q58]; exact ⟨rfl, rfl⟩⟩⟩
    · intro n e h
      simp [q58] at h
      rw [h.2]; rfl
    · intro n args final h a ha
      simp [q58] at h
      rw [h.2.1] at ha
      simp at ha
      rw [ha]; rfl
    · intro e h; simp [q58] at h
    · intro c hc _
      simp [q58] at hc
      exact ⟨[], .col ['a'], _, by rw [hc]; rfl, Or.inr (by simp)⟩
    · intro n args final h a ha
      simp [q58] at h
      rw [h.2.1] at ha
      simp at ha
      rw [ha]
      exact ⟨fun _ => True, total_law Agg.count _ fun l1 l2 _ _ => C20_count l1 l2, fun _ _ => trivial⟩
    · intro h
      have := h (['n'], .agg [(countAggr, .col ['b'])] (fun l => l.headD .null)) (by simp [q58])
      simp [isAggregate] at this

/-- The columns `a` and `b` of a record. -/
def abSchema : List (Str × (Out → Val)) := [(['a'], field ['a']), (['b'], field ['b'])]

/-- A record of the examples. -/
def ab (a b : Int) : Out := [(['a'], .int a), (['b'], .int b)]

theorem exec_t : exec py calls (smallBatches py) nestDb (.select nestInner (.scan ['t'])) = some (nestDb, [⟨abSchema, [ab 1 5, ab 2 7]⟩]) := rfl
theorem exec_t' : exec py calls (oneBatch py) nestDb (.select nestInner (.scan ['t'])) = some (nestDb, [⟨abSchema, [ab 1 5, ab 2 7]⟩]) := rfl

theorem nested_result : Nest.result py calls (smallBatches py) nestDb nested = some [[(['a'], .int 1), (['n'], .int 2)]] := by
  rw [Nest.result, nested, exec, if_neg (by decide), exec_t, Option.bind_some]
  have hc : collect (.select nestInner (.scan ['t'])) [⟨abSchema, [ab 1 5, ab 2 7]⟩] = [ab 1 5, ab 2 7] := rfl
  simp only
  rw [hc, exec, exec]
  have hw : exec py calls (smallBatches py) (append nestDb ['w'] [ab 1 5, ab 2 7]) (.select nestAll (.scan ['w']))
      = some (append nestDb ['w'] [ab 1 5, ab 2 7], [⟨abSchema, [ab 1 5, ab 2 7]⟩]) := rfl
  have hu : exec py calls (smallBatches py) (append nestDb ['w'] [ab 1 5, ab 2 7]) (.select nestAll (.scan ['u']))
      = some (append nestDb ['w'] [ab 1 5, ab 2 7], [⟨abSchema, [ab 1 4]⟩]) := rfl
  rw [hw, Option.bind_some]
  simp only
  rw [hu, Option.map_some, Option.bind_some]
  simp only
  have hx : collect (.union (.select nestAll (.scan ['w'])) (.select nestAll (.scan ['u'])))
      ([⟨abSchema, [ab 1 5, ab 2 7]⟩] ++ [⟨abSchema, [ab 1 4]⟩]) = [ab 1 5, ab 2 7, ab 1 4] := rfl
  rw [hx]
  rfl

/-- C144 on `nested`: of `a = 1` there is one row in `w` and one in `u`, of `a = 2` only one. -/
example : ∃ out, Nest.result py calls (smallBatches py) nestDb nested = some out ∧ Means text py.cmp calls rankLe nestDb nested out ∧
    out = [[(['a'], .int 1), (['n'], .int 2)]] := by
  refine ⟨_, nested_result py calls, ?_, rfl⟩
  apply C144_nested_partial text py calls (smallBatches py) rankLe_total rankLe_trans (idealSrc_faithful py) ?_ nested nestDb _ (nested_result py calls)
  · exact ⟨trivial, ⟨trivial, trivial, by simp [bound]⟩, by simp [bound], by simp [bound], by simp [bound]⟩
  · exact ⟨trivial, trivial, trivial, rfl, rfl, rfl⟩
  · exact ⟨⟨trivial, fun rows p _ _ => level_inner text py calls p rows⟩, fun _ _ =>
      ⟨⟨⟨trivial, fun rows p _ _ => level_all text py calls p rows⟩, ⟨trivial, fun rows p _ _ => level_all text py calls p rows⟩⟩,
        fun rows p _ _ => level_58 text py calls p rows⟩⟩
  · intro n hn
    simp [nested, bound] at hn
    rw [hn]; rfl
  · intro l
    simp [smallBatches, List.flatMap_map]

/-- `WITH n AS (WITH m AS (SELECT a, b FROM t WHERE b > 1) SELECT a, b FROM m) SELECT a, b FROM m`. -/
def leaking : Rel NS :=
  .withq ['n'] (.withq ['m'] (.select nestInner (.scan ['t'])) (.select nestAll (.scan ['m']))) (.select nestAll (.scan ['m']))

theorem leaking_result : Nest.result py calls (oneBatch py) nestDb leaking = some [ab 1 5, ab 2 7] := by
  rw [Nest.result, leaking, exec, if_neg (by decide), exec, if_neg (by decide), exec_t', Option.bind_some]
  have hc : collect (.select nestInner (.scan ['t'])) [⟨abSchema, [ab 1 5, ab 2 7]⟩] = [ab 1 5, ab 2 7] := rfl
  simp only
  rw [hc]
  have hm : exec py calls (oneBatch py) (append nestDb ['m'] [ab 1 5, ab 2 7]) (.select nestAll (.scan ['m']))
      = some (append nestDb ['m'] [ab 1 5, ab 2 7], [⟨abSchema, [ab 1 5, ab 2 7]⟩]) := rfl
  rw [hm, Option.bind_some]
  rfl

/-- **C144 is violated by names read outside of their scope**: in `leaking` the outer `m` is a table without rows, but the statement
returns the rows of the named query of another part. -/
theorem C144_scope_violated : ∃ out, Nest.result py calls (oneBatch py) nestDb leaking = some out ∧ out.length = 2 ∧
    ∀ out', Means text py.cmp calls rankLe nestDb leaking out' → out' = [] := by
  refine ⟨_, leaking_result py calls, rfl, ?_⟩
  rintro out' ⟨rows, _, rows', rfl, h⟩
  have hn : (¬ (nestAll.group ≠ [] ∨ ∃ c ∈ nestAll.cols, isAggregate c.2 = true)) := by
    simp [nestAll, isAggregate]
  unfold QueryResult at h
  rw [if_neg hn, if_neg (by decide)] at h
  obtain ⟨sorted, hs, rfl⟩ := h
  have := hs.1
  have h0 : sorted = [] := by simpa [nestDb] using this
  rw [h0]; rfl

end
end Verif.Props
