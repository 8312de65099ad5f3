import Verif.Spec.UserVar
/-!
C148: variables in a select list.  C149: variables in a WHERE.
-/
namespace Verif.Props.UserVar
open Verif.Val Verif.UserVar

variable (calls : Str → List Val → Val)

/-- A name as the parser gives it: without its `@`. -/
def UserName (n : Str) : Prop := n.head? ≠ some '@'

mutual
/-- The expression assigns to no variable. -/
def Reads : X → Prop
  | .lit _ => True
  | .col _ => True
  | .var _ => True
  | .assign _ _ => False
  | .neg a => Reads a
  | .call _ l => ReadsL l
  | .ite c t f => Reads c ∧ Reads t ∧ Reads f
  | .and a b => Reads a ∧ Reads b
  | .or a b => Reads a ∧ Reads b
  | .ifnull a b => Reads a ∧ Reads b
def ReadsL : XL → Prop
  | .nil => True
  | .cons e l => Reads e ∧ ReadsL l
end

mutual
/-- The first argument of every `IFNULL` assigns nothing; all names are names. -/
def Once : X → Prop
  | .lit _ => True
  | .col _ => True
  | .var n => UserName n
  | .assign n e => UserName n ∧ Once e
  | .neg a => Once a
  | .call _ l => OnceL l
  | .ite c t f => Once c ∧ Once t ∧ Once f
  | .and a b => Once a ∧ Once b
  | .or a b => Once a ∧ Once b
  | .ifnull a b => Reads a ∧ Once a ∧ Once b
def OnceL : XL → Prop
  | .nil => True
  | .cons e l => Once e ∧ OnceL l
end

/-- The column is not the negation of a variable or of a literal (`-5` is the literal −5). -/
def NoSign (e : X) : Prop := (∀ n, e ≠ .neg (.var n)) ∧ ∀ v, e ≠ .neg (.lit v)

/-- The store an environment stands for. -/
def Holds (env : Env) (s : Spec.UserVar.Store) : Prop :=
  env ≠ [] ∧ ∀ n, UserName n → s n = getVar env ('@' :: n)

theorem holds_set {env : Env} {s : Spec.UserVar.Store} (h : Holds env s) {n : Str} (_hn : UserName n) (v : Val) :
    Holds (setVar env ('@' :: n) v) (Spec.UserVar.assign s n v) := by
  obtain ⟨h0, h⟩ := h
  cases env with
  | nil => exact absurd rfl h0
  | cons d ds =>
    refine ⟨by simp [setVar], fun m hm => ?_⟩
    simp only [setVar, getVar, Env.getValue_cons, Spec.UserVar.assign]
    by_cases e : m = n
    · subst e; simp
    · have e' : ('@' :: n) ≠ ('@' :: m) := by intro x; injection x with _ x; exact e x.symm
      have e2 : ('@' :: n) ≠ m := by intro x; apply hm; rw [← x]; rfl
      rw [if_neg e, Dict.get?_set_ne _ _ e', Dict.get?_set_ne _ _ e2]
      have := h m hm
      simp only [getVar, Env.getValue_cons] at this
      exact this

mutual
theorem eval_eq (row : Str → Val) : ∀ (e : X), Once e → ∀ {env : Env} {s : Spec.UserVar.Store}, Holds env s →
    (eval calls row (compile e) env).1 = (Spec.UserVar.value calls row e s).1 ∧
    Holds (eval calls row (compile e) env).2 (Spec.UserVar.value calls row e s).2 ∧
    (Reads e → (eval calls row (compile e) env).2 = env) ∧
    (eval calls row (compile e) env).2.tail = env.tail
  | .lit v, _, env, s, h => by simp [compile, eval, Spec.UserVar.value, h]
  | .col c, _, env, s, h => by simp [compile, eval, Spec.UserVar.value, h]
  | .var n, hn, env, s, h => by
      simp only [compile, eval, Spec.UserVar.value, h, and_self, and_true, implies_true]
      exact (h.2 n hn).symm
  | .assign n e, hn, env, s, h => by
      obtain ⟨h1, h2, h3, h4⟩ := eval_eq row e hn.2 h
      simp only [compile, eval, Spec.UserVar.value]
      refine ⟨h1, ?_, fun x => absurd x (by simp [Reads]), ?_⟩
      · rw [← h1]; exact holds_set h2 hn.1 _
      · rw [← h4]
        cases (eval calls row (compile e) env).2 <;> rfl
  | .neg a, hn, env, s, h => by
      obtain ⟨h1, h2, h3, h4⟩ := eval_eq row a hn h
      simp only [compile, eval, evalL, Spec.UserVar.value]
      exact ⟨by rw [h1], h2, h3, h4⟩
  | .call f l, hn, env, s, h => by
      obtain ⟨h1, h2, h3, h4⟩ := evalL_eq row l hn h
      simp only [compile, eval, Spec.UserVar.value]
      exact ⟨by rw [h1], h2, h3, h4⟩
  | .ite c t f, hn, env, s, h => by
      obtain ⟨h1, h2, h3, h4⟩ := eval_eq row c hn.1 h
      simp only [compile, eval, Spec.UserVar.value]
      rw [← h1]
      split
      · obtain ⟨g1, g2, g3, g4⟩ := eval_eq row t hn.2.1 h2
        exact ⟨g1, g2, fun r => by rw [g3 r.2.1, h3 r.1], by rw [g4, h4]⟩
      · obtain ⟨g1, g2, g3, g4⟩ := eval_eq row f hn.2.2 h2
        exact ⟨g1, g2, fun r => by rw [g3 r.2.2, h3 r.1], by rw [g4, h4]⟩
  | .and a b, hn, env, s, h => by
      obtain ⟨h1, h2, h3, h4⟩ := eval_eq row a hn.1 h
      simp only [compile, eval, Spec.UserVar.value]
      rw [← h1]
      split
      · obtain ⟨g1, g2, g3, g4⟩ := eval_eq row b hn.2 h2
        exact ⟨g1, g2, fun r => by rw [g3 r.2, h3 r.1], by rw [g4, h4]⟩
      · exact ⟨rfl, h2, fun r => h3 r.1, h4⟩
  | .or a b, hn, env, s, h => by
      obtain ⟨h1, h2, h3, h4⟩ := eval_eq row a hn.1 h
      simp only [compile, eval, Spec.UserVar.value]
      rw [← h1]
      split
      · exact ⟨rfl, h2, fun r => h3 r.1, h4⟩
      · obtain ⟨g1, g2, g3, g4⟩ := eval_eq row b hn.2 h2
        exact ⟨g1, g2, fun r => by rw [g3 r.2, h3 r.1], by rw [g4, h4]⟩
  | .ifnull a b, hn, env, s, h => by
      obtain ⟨h1, h2, h3, h4⟩ := eval_eq row a hn.2.1 h
      have h3' := h3 hn.1
      simp only [compile, eval, Spec.UserVar.value]
      by_cases e : (Spec.UserVar.value calls row a s).1 = .null
      · have ea : (eval calls row (compile a) env).1 = .null := h1.trans e
        simp only [e, ea, decide_true, truthy, if_true]
        obtain ⟨g1, g2, g3, g4⟩ := eval_eq row b hn.2.2 h2
        exact ⟨g1, g2, fun r => by rw [g3 r.2, h3'], by rw [g4, h4]⟩
      · have ea : ¬ (eval calls row (compile a) env).1 = .null := fun x => e (h1.symm.trans x)
        simp only [e, ea, decide_false, truthy, if_false, Bool.false_eq_true]
        rw [h3']
        exact ⟨h1, h2, fun _ => h3', h4⟩
theorem evalL_eq (row : Str → Val) : ∀ (l : XL), OnceL l → ∀ {env : Env} {s : Spec.UserVar.Store}, Holds env s →
    (evalL calls row (compileL l) env).1 = (Spec.UserVar.values calls row l s).1 ∧
    Holds (evalL calls row (compileL l) env).2 (Spec.UserVar.values calls row l s).2 ∧
    (ReadsL l → (evalL calls row (compileL l) env).2 = env) ∧
    (evalL calls row (compileL l) env).2.tail = env.tail
  | .nil, _, env, s, h => by simp [compileL, evalL, Spec.UserVar.values, h]
  | .cons e l, hn, env, s, h => by
      obtain ⟨h1, h2, h3, h4⟩ := eval_eq row e hn.1 h
      obtain ⟨g1, g2, g3, g4⟩ := evalL_eq row l hn.2 h2
      simp only [compileL, evalL, Spec.UserVar.values]
      exact ⟨by rw [h1, g1], g2, fun r => by rw [g3 r.2, h3 r.1], by rw [g4, h4]⟩
end

theorem compileItem_eq {e : X} (h : NoSign e) : compileItem e = compile e := by
  unfold compileItem
  split
  · next hc =>
    cases e with
    | neg a =>
      cases a with
      | var n => exact absurd rfl (h.1 n)
      | lit v => exact absurd rfl (h.2 v)
      | _ => simp [isConst] at hc
    | _ => first | rfl | simp [isConst] at hc
  · rfl

theorem evalRow_eq (row : Str → Val) : ∀ (is : List (Str × X)), (∀ i ∈ is, Once i.2 ∧ NoSign i.2) →
    ∀ {env : Env} {s : Spec.UserVar.Store}, Holds env s →
    (evalRow calls row (is.map fun i => (i.1, compileItem i.2)) env).1 = (Spec.UserVar.rowOut calls row is s).1 ∧
    Holds (evalRow calls row (is.map fun i => (i.1, compileItem i.2)) env).2 (Spec.UserVar.rowOut calls row is s).2 ∧
    (evalRow calls row (is.map fun i => (i.1, compileItem i.2)) env).2.tail = env.tail
  | [], _, env, s, h => ⟨rfl, h, rfl⟩
  | (n, e) :: is, hi, env, s, h => by
      obtain ⟨h1, h2, _, h4⟩ := eval_eq calls row e (hi (n, e) (List.mem_cons_self ..)).1 h
      obtain ⟨g1, g2, g4⟩ := evalRow_eq row is (fun i hm => hi i (List.mem_cons_of_mem _ hm)) h2
      simp only [List.map_cons, evalRow, Spec.UserVar.rowOut, compileItem_eq (hi (n, e) (List.mem_cons_self ..)).2]
      exact ⟨by rw [h1, g1], g2, by rw [g4, h4]⟩

theorem evalRows_eq (is : List (Str × X)) (hi : ∀ i ∈ is, Once i.2 ∧ NoSign i.2) : ∀ (rows : List (Str → Val))
    {env : Env} {s : Spec.UserVar.Store}, Holds env s →
    (UserVar.select calls is rows env).1 = (Spec.UserVar.select calls is rows s).1 ∧
    Holds (UserVar.select calls is rows env).2 (Spec.UserVar.select calls is rows s).2 ∧
    (UserVar.select calls is rows env).2.tail = env.tail
  | [], env, s, h => ⟨rfl, h, rfl⟩
  | r :: rows, env, s, h => by
      obtain ⟨h1, h2, h4⟩ := evalRow_eq calls r is hi h
      obtain ⟨g1, g2, g4⟩ := evalRows_eq is hi rows h2
      simp only [UserVar.select] at g1 g2 g4
      simp only [UserVar.select, evalRows, Spec.UserVar.select]
      exact ⟨by rw [h1, g1], g2, by rw [g4, h4]⟩

/-- **C148** (full statement: for every select list, the rows printed and the values of all variables after the query are those
of evaluating every expression once, row by row and from left to right, each assignment taking effect at once; the variables of
enclosing contexts are not changed.  False: see the two `C148_…_violated`).  Proved: it holds if no column is just the negation
of a variable and nothing is assigned in the first argument of an `IFNULL`.  `s` gives the values before the query, whatever
context they come from. -/
theorem C148_variables_in_select_partial (items : List (Str × X)) (rows : List (Str → Val))
    (own : Dict Env.Key Val) (parents : Env) (s : Spec.UserVar.Store)
    (hi : ∀ i ∈ items, Once i.2 ∧ NoSign i.2)
    (hs : ∀ n, UserName n → s n = getVar (own :: parents) ('@' :: n)) :
    ∃ own', UserVar.select calls items rows (own :: parents) =
        ((Spec.UserVar.select calls items rows s).1, own' :: parents) ∧
      ∀ n, UserName n → getVar (own' :: parents) ('@' :: n) = (Spec.UserVar.select calls items rows s).2 n := by
  obtain ⟨h1, h2, h3⟩ := evalRows_eq calls items hi rows (env := own :: parents) (s := s) ⟨by simp, hs⟩
  obtain ⟨h0, h2⟩ := h2
  rcases hq : UserVar.select calls items rows (own :: parents) with ⟨o, env'⟩
  rw [hq] at h1 h2 h3 h0
  cases env' with
  | nil => exact absurd rfl h0
  | cons d ds =>
    simp only [List.tail_cons] at h3
    subst h3
    exact ⟨d, by rw [← h1], fun n hn => (h2 n hn).symm⟩

/-- `SELECT @n := @n + 1 AS r FROM t`. -/
def counter (n r : Str) : List (Str × X) :=
  [(r, .assign n (.call "add".toList (.cons (.var n) (.cons (.lit (.int 1)) .nil))))]

theorem counter_spec (hadd : ∀ a b : Int, calls "add".toList [.int a, .int b] = .int (a + b)) (n r : Str) :
    ∀ (rows : List (Str → Val)) (s : Spec.UserVar.Store) (k : Int), s n = .int k →
    (Spec.UserVar.select calls (counter n r) rows s).1 =
        (List.range rows.length).map (fun (i : Nat) => [(r, Val.int (k + i + 1))]) ∧
      (Spec.UserVar.select calls (counter n r) rows s).2 n = .int (k + rows.length)
  | [], s, k, h => by simp [Spec.UserVar.select, h]
  | row :: rows, s, k, h => by
      have e : Spec.UserVar.rowOut calls row (counter n r) s = ([(r, .int (k + 1))], Spec.UserVar.assign s n (.int (k + 1))) := by
        simp only [counter, Spec.UserVar.rowOut, Spec.UserVar.value, Spec.UserVar.values, h, hadd]
      obtain ⟨h1, h2⟩ := counter_spec hadd n r rows (Spec.UserVar.assign s n (.int (k + 1))) (k + 1)
        (by simp [Spec.UserVar.assign])
      simp only [Spec.UserVar.select, e, h1, h2]
      refine ⟨?_, ?_⟩
      · rw [List.length_cons, List.range_succ_eq_map]
        simp only [List.map_cons, List.map_map, Nat.cast_zero, Int.add_zero]
        congr 1
        apply List.map_congr_left
        intro i _
        simp only [Function.comp, Nat.succ_eq_add_one]
        congr 3
        simp only [Int.natCast_add]
        omega
      · rw [List.length_cons]; congr 1; push_cast; omega

/-- **C148**, the running counter: `SELECT @n := @n + 1 AS r FROM t`, run in any context where `@n` is the number `k`, numbers the
rows `k+1, k+2, …` in their order, and leaves `@n` at `k` plus the number of rows. -/
theorem C148_running_counter (hadd : ∀ a b : Int, calls "add".toList [.int a, .int b] = .int (a + b)) (n r : Str)
    (hn : UserName n) (own : Dict Env.Key Val) (parents : Env) (k : Int)
    (hk : getVar (own :: parents) ('@' :: n) = .int k) (rows : List (Str → Val)) :
    ∃ own', UserVar.select calls (counter n r) rows (own :: parents) =
        ((List.range rows.length).map (fun (i : Nat) => [(r, Val.int (k + i + 1))]), own' :: parents) ∧
      getVar (own' :: parents) ('@' :: n) = .int (k + rows.length) := by
  obtain ⟨own', h1, h2⟩ := C148_variables_in_select_partial calls (counter n r) rows own parents
    (fun m => getVar (own :: parents) ('@' :: m))
    (by intro i hi
        simp only [counter, List.mem_singleton] at hi
        subst hi
        exact ⟨⟨hn, hn, trivial, trivial⟩, by constructor <;> simp⟩)
    (fun _ _ => rfl)
  obtain ⟨g1, g2⟩ := counter_spec calls hadd n r rows (fun m => getVar (own :: parents) ('@' :: m)) k hk
  exact ⟨own', by rw [h1, g1], by rw [h2 n hn, g2]⟩

/-- A meaning of the functions for the examples. -/
def addCalls : Str → List Val → Val := fun f vs =>
  match vs with
  | [.int a, .int b] => if f = "add".toList then .int (a + b) else .null
  | [.int a] => if f = "neg".toList then .int (-a) else .null
  | _ => .null

/-- The hypotheses of `C148_variables_in_select_partial` hold of
`SELECT @a AS x, IF(c, @a := @a + 1, IFNULL(@b, 7)) AS y, -(@a + 1) AS z`, in a context whose parent has `@a = 3`; the query on a
row with `c = 1` and one with `c = 0` prints (3,4,-5), (4,7,-5), sets `@a` to 4 in the context and leaves the parent alone. -/
example :
    let a := "a".toList
    let items : List (Str × X) := [("x".toList, .var a),
      ("y".toList, .ite (.col "c".toList)
        (.assign a (.call "add".toList (.cons (.var a) (.cons (.lit (.int 1)) .nil)))) (.ifnull (.var "b".toList) (.lit (.int 7)))),
      ("z".toList, .neg (.call "add".toList (.cons (.var a) (.cons (.lit (.int 1)) .nil))))]
    (∀ i ∈ items, Once i.2 ∧ NoSign i.2) ∧
    UserVar.select addCalls items [fun _ => .int 1, fun _ => .int 0] [[], [("@a".toList, .int 3)]] =
      ([[("x".toList, .int 3), ("y".toList, .int 4), ("z".toList, .int (-5))],
        [("x".toList, .int 4), ("y".toList, .int 7), ("z".toList, .int (-5))]],
       [[("@a".toList, .int 4)], [("@a".toList, .int 3)]]) := by
  refine ⟨?_, by decide +kernel⟩
  intro i hi
  simp only [List.mem_cons, List.not_mem_nil, or_false] at hi
  rcases hi with e | e | e <;> subst e <;> simp [Once, OnceL, NoSign, UserName, Reads]

/-- The hypotheses of `C148_running_counter`. -/
example : (∀ a b : Int, addCalls "add".toList [.int a, .int b] = .int (a + b)) ∧ UserName "n".toList ∧
    getVar [[], [("@n".toList, .int 10)]] ('@' :: "n".toList) = .int 10 := by
  refine ⟨fun a b => ?_, by simp [UserName], by decide⟩
  simp only [addCalls, if_true]

/-- **C148 is violated**: `SELECT -@a AS x` prints the value of `@a`, without the sign; `SELECT -(@a) AS x` prints -3. -/
theorem C148_neg_violated :
    let env : Env := [[("@a".toList, .int 3)]]
    UserVar.select addCalls [("x".toList, .neg (.var "a".toList))] [fun _ => .null] env = ([[("x".toList, .int 3)]], env) ∧
    (Spec.UserVar.select addCalls [("x".toList, .neg (.var "a".toList))] [fun _ => .null]
      (fun m => getVar env ('@' :: m))).1 = [[("x".toList, .int (-3))]] := by
  decide +kernel

/-- **C148 is violated**: `SELECT IFNULL(@a := @a + 1, 0) AS x` with `@a = 3` prints 5 and leaves `@a` at 5: the assignment is
evaluated twice. -/
theorem C148_ifnull_violated :
    let env : Env := [[("@a".toList, .int 3)]]
    let items : List (Str × X) := [("x".toList,
      .ifnull (.assign "a".toList (.call "add".toList (.cons (.var "a".toList) (.cons (.lit (.int 1)) .nil)))) (.lit (.int 0)))]
    UserVar.select addCalls items [fun _ => .null] env = ([[("x".toList, .int 5)]], [[("@a".toList, .int 5)]]) ∧
    (Spec.UserVar.select addCalls items [fun _ => .null] (fun m => getVar env ('@' :: m))).1 = [[("x".toList, .int 4)]] := by
  decide +kernel

/-! ### C149 -/

/-- **C149**: the value of `col op e` in a WHERE (`e` any expression without columns, such as `-@v` or `@v + 1`) is that of `e`
with the values the variables have when the query runs. -/
theorem C149_where_value (e : X) (he : Once e) (env : Env) (henv : env ≠ []) :
    whereValue calls env e = (Spec.UserVar.value calls (fun _ => .null) e (fun m => getVar env ('@' :: m))).1 :=
  (eval_eq calls (fun _ => .null) e he (env := env) ⟨henv, fun _ _ => rfl⟩).1

theorem evalVals_eq (row : Str → Val) : ∀ (l : List X), (∀ e ∈ l, Once e ∧ Reads e) → ∀ {env : Env}, env ≠ [] →
    (evalVals calls row (compileVals l) env).1 =
      l.map fun e => (Spec.UserVar.value calls row e (fun m => getVar env ('@' :: m))).1
  | [], _, env, _ => rfl
  | e :: l, hl, env, h => by
      obtain ⟨h1, _, h3, _⟩ := eval_eq calls row e (hl e (List.mem_cons_self ..)).1 (env := env)
        (s := fun m => getVar env ('@' :: m)) ⟨h, fun _ _ => rfl⟩
      have h3' := h3 (hl e (List.mem_cons_self ..)).2
      have := evalVals_eq row l (fun e hm => hl e (List.mem_cons_of_mem _ hm)) h
      simp only [compileVals] at this
      simp only [compileVals, List.map_cons, evalVals, h1, h3', this]

/-- **C149** (full statement: the values of `col IN (e₁, …)` in a WHERE are those of the expressions with the values the
variables have when the query runs.  False: see `C149_where_in_violated`).  Proved: it holds if some expression of the list is
not a constant or a variable, or all are literals or variables that still have the value they had when the statement was compiled.  `now` is the environment when the statement is compiled. -/
theorem C149_where_in_partial (now env : Env) (henv : env ≠ []) (l : List X) (hl : ∀ e ∈ l, Once e ∧ Reads e)
    (h : (∃ e ∈ l, isConst e = false) ∨
      (∀ e ∈ l, (∃ v, e = .lit v) ∨ ∃ n, e = .var n ∧ getVar now ('@' :: n) = getVar env ('@' :: n))) :
    (whereIn now l).values calls env =
      l.map fun e => (Spec.UserVar.value calls (fun _ => .null) e (fun m => getVar env ('@' :: m))).1 := by
  unfold whereIn
  split
  · next hc =>
    rcases h with ⟨e, he, h⟩ | h
    · rw [List.all_eq_true] at hc
      rw [hc e he] at h; cases h
    · simp only [Q.values]
      apply List.map_congr_left
      intro e he
      rcases h e he with ⟨v, rfl⟩ | ⟨n, rfl, hn⟩
      · rfl
      · exact hn
  · exact evalVals_eq calls _ l hl henv

/-- **C149 is violated**: `WHERE c IN (@a, 1)` uses the value `@a` has when the statement is compiled, before any statement of the
same script has run; `WHERE c IN (@a + 0, 1)` the one it has when the query runs. -/
theorem C149_where_in_violated :
    let now : Env := [[("@a".toList, .null)]]
    let env : Env := [[("@a".toList, .int 3)]]
    (whereIn now [.var "a".toList, .lit (.int 1)]).values addCalls env = [.null, .int 1] ∧
    (whereIn now [.call "add".toList (.cons (.var "a".toList) (.cons (.lit (.int 0)) .nil)), .lit (.int 1)]).values addCalls env =
      [.int 3, .int 1] := by
  decide +kernel

/-- **C149 is violated**: `WHERE c IN (-@a)` looks for the value without its sign. -/
theorem C149_where_in_neg_violated :
    let env : Env := [[("@a".toList, .int 3)]]
    (whereIn env [.neg (.var "a".toList)]).values addCalls env = [.int 3] ∧ whereValue addCalls env (.neg (.var "a".toList)) = .int (-3) := by
  decide +kernel

/-- A list that meets the hypotheses of `C149_where_in_partial`: `(@a + 0, 1)`. -/
example :
    let l : List X := [.call "add".toList (.cons (.var "a".toList) (.cons (.lit (.int 0)) .nil)), .lit (.int 1)]
    (∀ e ∈ l, Once e ∧ Reads e) ∧ ∃ e ∈ l, isConst e = false := by
  refine ⟨?_, _, List.mem_cons_self .., rfl⟩
  intro e he
  simp only [List.mem_cons, List.not_mem_nil, or_false] at he
  rcases he with e | e <;> subst e <;> simp [Once, OnceL, Reads, ReadsL, UserName]

end Verif.Props.UserVar
