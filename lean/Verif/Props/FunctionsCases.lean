import Verif.Props.Functions
import Verif.Props.NestCases
/-! Examples for C185, and statements that violate it. -/
namespace Verif.Props
open Verif.Val Verif.Expr Verif.Sql Verif.Where Verif.Select Verif.SqlSelect Verif.Nest Verif.SqlNest Verif.Props.Nested Verif.Text
  Verif.SqlFunctions Verif.Props.FunctionsLemmas

section
variable (py : Py) (other : Str → List Val → Val) (text : Str → Bool)

/-- Characters are equal when they are the same. -/
abbrev sameChar (c d : Char) : Bool := decide (c = d)

/-- `c LIKE 'a%'`. -/
def likeA : E := .call "like".toList (.cons (.col ['c']) (.cons (.lit (.str ['a', '%'])) .nil))
/-- `CONCAT(LEFT(c, 1), '!')`. -/
def initial : E :=
  .call "concat".toList (.cons (.call "left".toList (.cons (.col ['c']) (.cons (.lit (.int 1)) .nil))) (.cons (.lit (.str ['!'])) .nil))

/-- `SELECT a, CONCAT(LEFT(c, 1), '!') AS x FROM t WHERE c LIKE 'a%'`. -/
def q185 : Query NS :=
  { cols := [(['a'], .expr (.col ['a'])), (['x'], .expr initial)], cond := some likeA, table := ['t'], columns := [['a'], ['c']] }

/-- A table with a text, another one and NULL. -/
def db185 : Store := fun n =>
  if n = ['t'] then [[(['a'], .int 1), (['c'], .str ['a', 'b', 'c'])], [(['a'], .int 2), (['c'], .str ['x', 'a'])], [(['a'], .int 3), (['c'], .null)]]
  else []

theorem like_notText (h : ∀ args, NotText (other "like".toList args)) (args : List Val) :
    NotText (Call.sqlCalls py sameChar other "like".toList args) := by
  have hv : ∀ s r t, NotText (Option.getD ((Call.likeFn sameChar).body [s, r, t]) .null) := by
    intro s r t
    cases t with
    | null =>
      show NotText (Option.getD (Str.likeRaw sameChar s r) .null)
      unfold Str.likeRaw
      split
      · trivial
      · split <;> trivial
    | _ => trivial
  match args with
  | [] => exact hv .null .null .null
  | [a] => exact hv a .null .null
  | [a, b] => exact hv a b .null
  | [a, b, c] => exact hv a b c
  | a :: b :: c :: d :: l =>
    have : Call.sqlCalls py sameChar other "like".toList (a :: b :: c :: d :: l) = other "like".toList (a :: b :: c :: d :: l) := by
      show (match Call.calculate Val.null (Call.likeFn sameChar) (a :: b :: c :: d :: l) with
        | .value v => v
        | .raised => other "like".toList (a :: b :: c :: d :: l)) = _
      unfold Call.calculate
      rw [if_pos (by rfl), if_pos (by simp [Call.likeFn])]
    rw [this]
    exact h _

theorem level_185 (ho : ∀ args, NotText (other "like".toList args)) (p : Plan NS) (rows : List Out) :
    LevelOk text py (Call.sqlCalls py sameChar other) q185 p (rows.map rowOfRecord) where
  names := by decide
  limit := by decide
  cond := by
    refine ⟨?_, ?_, ?_, rowOfRecord_typed rows⟩
    · intro e he; cases he; exact like_notText py other ho
    · intro e he; cases he
      exact ⟨by decide, by decide, by intro k hk; cases hk⟩
    · intro e he; cases he
      intro r _
      trivial
  having := by intro e he; cases he
  kind := by
    left
    refine ⟨rfl, rfl, ?_, ⟨by intro t n d h; simp [q185] at h, by intro n d h; simp [q185] at h⟩⟩
    intro c hc
    simp only [q185, List.mem_cons, List.not_mem_nil, or_false] at hc
    rcases hc with rfl | rfl
    · exact ⟨_, rfl, rfl⟩
    · exact ⟨_, rfl, by decide⟩

theorem within_185 (sql : Str → List Val → Val) (hsql : Implements sameChar sql) (cmp : Cmp → Val → Val → Val) (le : Val → Val → Bool) :
    StatementWithin sameChar text cmp sql le db185 (.select q185 (.scan ['t'])) := by
  refine ⟨trivial, ?_⟩
  rintro rows rfl
  have hc : ∀ r ∈ (db185 ['t']).map rowOfRecord, r ['c'] = .str ['a', 'b', 'c'] ∨ r ['c'] = .str ['x', 'a'] ∨ r ['c'] = .null := by
    intro r hr
    simp only [db185, if_true, List.map_cons, List.map_nil, List.mem_cons, List.not_mem_nil, or_false] at hr
    rcases hr with rfl | rfl | rfl
    · exact Or.inl rfl
    · exact Or.inr (Or.inl rfl)
    · exact Or.inr (Or.inr rfl)
  have hlike : ∀ r ∈ (db185 ['t']).map rowOfRecord, Within sameChar text cmp sql r likeA := by
    intro r hr
    have hs : Simple ['a', '%'] := by simp [Simple]
    refine ⟨⟨trivial, trivial, trivial⟩, ?_⟩
    simp only [semL, sem]
    rcases hc r hr with e | e | e <;> rw [e]
    · exact ⟨_, .like_yes hs (by decide) ⟨'a', ['b', 'c'], rfl, rfl, ['b', 'c'], [], rfl, rfl⟩⟩
    · refine ⟨_, .like_no hs (by decide) ?_⟩
      rintro ⟨d, t, e, h, -⟩
      injection e with e _
      subst e
      exact absurd h (by decide)
    · exact ⟨_, .binary_null (by simp) (Or.inl rfl)⟩
  have hinit : ∀ r ∈ (db185 ['t']).map rowOfRecord, Within sameChar text cmp sql r initial := by
    intro r hr
    have hl : ∃ v, Std sameChar "left".toList [r ['c'], .int 1] v ∧ (v = .null ∨ ∃ t, v = .str t) := by
      rcases hc r hr with e | e | e <;> rw [e]
      · exact ⟨_, .left _ 1, Or.inr ⟨_, rfl⟩⟩
      · exact ⟨_, .left _ 1, Or.inr ⟨_, rfl⟩⟩
      · exact ⟨_, .first_null (by simp), Or.inl rfl⟩
    obtain ⟨v, hv, hv'⟩ := hl
    refine ⟨⟨⟨⟨trivial, trivial, trivial⟩, v, by simpa only [semL, sem] using hv⟩, trivial, trivial⟩, ?_⟩
    simp only [semL, sem]
    rw [hsql _ _ _ hv]
    rcases hv' with rfl | ⟨t, rfl⟩
    · exact ⟨_, .concat_null (by simp)⟩
    · exact ⟨_, .concat [t, ['!']]⟩
  constructor
  · intro e he r hr
    cases he with
    | column h =>
      simp only [q185, List.mem_cons, List.not_mem_nil, or_false, Prod.mk.injEq, Select.Item.expr.injEq] at h
      rcases h with ⟨-, rfl⟩ | ⟨-, rfl⟩
      · trivial
      · exact hinit r hr
    | arg h ha => simp [q185] at h
    | key h => simp [q185] at h
    | name h => simp [q185] at h
    | cond h => cases h; exact hlike r hr
  · intro e he; cases he

theorem like_abc : Call.sqlCalls py sameChar other "like".toList [.str ['a', 'b', 'c'], .str ['a', '%']] = .int 1 :=
  C185_function py sameChar other (.like_yes (by simp [Simple]) (by decide) ⟨'a', ['b', 'c'], rfl, rfl, ['b', 'c'], [], rfl, rfl⟩)
theorem like_xa : Call.sqlCalls py sameChar other "like".toList [.str ['x', 'a'], .str ['a', '%']] = .int 0 :=
  C185_function py sameChar other (.like_no (by simp [Simple]) (by decide) (by
    rintro ⟨d, t, e, h, -⟩
    injection e with e _
    subst e
    exact absurd h (by decide)))
theorem like_none : Call.sqlCalls py sameChar other "like".toList [.null, .str ['a', '%']] = .null := rfl

/-- The records of the example whose test holds, as the select list makes them. -/
def chosen (calls : Str → List Val → Val) : List Out :=
  List.filter (fun _ => true) ((((db185 ['t']).map asRow).filter fun r => truthy (calls "like".toList [r ['c'], .str ['a', '%']])).map
    fun r => [(['a'], r ['a']), (['x'], calls "concat".toList [calls "left".toList [r ['c'], .int 1], .str ['!']])]) ++ []

theorem chosen_185 (calls : Str → List Val → Val) :
    Nest.result py calls (oneBatch py) db185 (.select q185 (.scan ['t'])) = some (chosen calls) := rfl

theorem result_185 : Nest.result py (Call.sqlCalls py sameChar other) (oneBatch py) db185 (.select q185 (.scan ['t'])) =
    some [[(['a'], .int 1), (['x'], .str ['a', '!'])]] := by
  rw [chosen_185]
  have h1 : ((db185 ['t']).map asRow).filter
      (fun r => truthy (Call.sqlCalls py sameChar other "like".toList [r ['c'], .str ['a', '%']])) =
      [asRow [(['a'], .int 1), (['c'], .str ['a', 'b', 'c'])]] := by
    show List.filter _ [_, _, _] = _
    rw [List.filter_cons_of_pos, List.filter_cons_of_neg, List.filter_cons_of_neg, List.filter_nil]
    · exact fun h => by cases h
    · show ¬ truthy (Call.sqlCalls py sameChar other "like".toList [.str ['x', 'a'], .str ['a', '%']]) = true
      rw [like_xa]; decide
    · show truthy (Call.sqlCalls py sameChar other "like".toList [.str ['a', 'b', 'c'], .str ['a', '%']]) = true
      rw [like_abc]; decide
  rw [chosen, h1]
  rfl

/-- C185 on `q185`: of the three rows only the first has a text that begins with `a`. -/
example (cmp : Cmp → Val → Val → Val) (hcmp : ImplementsCmp cmp) (sql : Str → List Val → Val) (hsql : Implements sameChar sql) (ho : ∀ args, NotText (other "like".toList args)) :
    ∃ out, Nest.result py (Call.sqlCalls py sameChar other) (oneBatch py) db185 (.select q185 (.scan ['t'])) = some out ∧
      Means text cmp sql rankLe db185 (.select q185 (.scan ['t'])) out ∧ out = [[(['a'], .int 1), (['x'], .str ['a', '!'])]] := by
  refine ⟨_, result_185 py other, ?_, rfl⟩
  apply C185_statement_partial py sameChar other text cmp hcmp sql hsql (oneBatch py) rankLe_total rankLe_trans (idealSrc_faithful py) ?_
    (.select q185 (.scan ['t'])) db185 _ (result_185 py other)
  · trivial
  · trivial
  · exact ⟨trivial, fun rows p _ _ => level_185 py other text ho p rows⟩
  · intro n hn; simp [bound] at hn
  · exact within_185 text sql hsql cmp rankLe
  · intro l; simp [oneBatch]

/-- `SELECT a FROM t WHERE c LIKE 'a'`. -/
def q185exact : Query NS :=
  { cols := [(['a'], .expr (.col ['a']))], cond := some (.call "like".toList (.cons (.col ['c']) (.cons (.lit (.str ['a'])) .nil))),
    table := ['t'], columns := [['a'], ['c']] }

theorem exact_185 (calls : Str → List Val → Val) : Nest.result py calls (oneBatch py) db185 (.select q185exact (.scan ['t'])) =
    some (List.filter (fun _ => true) ((((db185 ['t']).map asRow).filter fun r => truthy (calls "like".toList [r ['c'], .str ['a']])).map
      fun r => [(['a'], r ['a'])]) ++ []) := rfl

/-- **C185 is violated**: `SELECT a FROM t WHERE c LIKE 'a'` returns the row with `'abc'`; SQL, where `'abc' LIKE 'a'` is false, does
not. -/
theorem C185_like_violated : ∃ out, Nest.result py (Call.sqlCalls py sameChar other) (oneBatch py) db185 (.select q185exact (.scan ['t'])) = some out ∧
    out = [[(['a'], .int 1)]] ∧ ¬ Like sameChar ['a'] ['a', 'b', 'c'] ∧
    ∀ sql, sql "like".toList [.str ['a', 'b', 'c'], .str ['a']] = .int 0 →
      ¬ Means text py.cmp sql rankLe db185 (.select q185exact (.scan ['t'])) out := by
  have l1 : Call.sqlCalls py sameChar other "like".toList [.str ['a', 'b', 'c'], .str ['a']] = .int 1 :=
    (C36_like_computed sameChar ['a'] ['a', 'b', 'c'] (by simp [NoDouble]) (by decide) (by decide)).2
      ⟨['a'], ⟨['b', 'c'], rfl⟩, 'a', [], rfl, rfl, rfl⟩
  have l2 : Call.sqlCalls py sameChar other "like".toList [.str ['x', 'a'], .str ['a']] = .int 0 := by
    refine (like_bool sameChar ['a'] ['x', 'a']).resolve_left fun h => ?_
    obtain ⟨x, ⟨y, hx⟩, d, t, rfl, hd, ht⟩ := (C36_like_computed sameChar ['a'] ['x', 'a'] (by simp [NoDouble]) (by decide) (by decide)).1 h
    injection hx with hx _
    subst hx
    exact absurd hd (by decide)
  refine ⟨_, ?_, rfl, ?_, ?_⟩
  · rw [exact_185]
    have h1 : ((db185 ['t']).map asRow).filter
        (fun r => truthy (Call.sqlCalls py sameChar other "like".toList [r ['c'], .str ['a']])) =
        [asRow [(['a'], .int 1), (['c'], .str ['a', 'b', 'c'])]] := by
      show List.filter _ [_, _, _] = _
      rw [List.filter_cons_of_pos, List.filter_cons_of_neg, List.filter_cons_of_neg, List.filter_nil]
      · exact fun h => by cases h
      · show ¬ truthy (Call.sqlCalls py sameChar other "like".toList [.str ['x', 'a'], .str ['a']]) = true
        rw [l2]; decide
      · show truthy (Call.sqlCalls py sameChar other "like".toList [.str ['a', 'b', 'c'], .str ['a']]) = true
        rw [l1]; decide
    rw [h1]
    rfl
  · rintro ⟨d, t, h, -, rfl⟩
    cases h
  · rintro sql hsql ⟨rows, rfl, h⟩
    obtain ⟨sorted, hs, h⟩ : RowResult text py.cmp sql rankLe q185exact ((db185 ['t']).map rowOfRecord) [[(['a'], .int 1)]] := by
      unfold QueryResult at h
      rw [if_neg (by simp [q185exact, isAggregate]), if_neg (by decide)] at h
      exact h
    have hpg : pageOf q185exact.limit q185exact.offset (sorted.map fun r => project text py.cmp sql q185exact.cols [r]) =
        sorted.map fun r => project text py.cmp sql q185exact.cols [r] := rfl
    simp only [hpg] at h
    match sorted, h, hs with
    | [], h, _ => cases h
    | r :: _, h, hs =>
      have hr := (hs.perm.mem_iff (a := r)).1 (by simp)
      simp only [List.mem_filter, Bool.and_eq_true] at hr
      obtain ⟨hr, hc, -⟩ := hr
      have ha : r ['a'] = .int 1 := by
        rw [List.map_cons] at h
        injection h with h _
        have : [(['a'], Val.int 1)] = [(['a'], r ['a'])] := h.trans rfl
        injection this with this _
        injection this with _ this
        exact this.symm
      simp only [db185, if_true, List.map_cons, List.map_nil, List.mem_cons, List.not_mem_nil, or_false] at hr
      rcases hr with rfl | rfl | rfl
      · have hc' : tv text (sql "like".toList [.str ['a', 'b', 'c'], .str ['a']]) = some true := of_decide_eq_true hc
        rw [hsql] at hc'
        cases hc'
      · cases ha
      · cases ha

end
end Verif.Props
