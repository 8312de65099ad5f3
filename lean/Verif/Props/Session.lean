import Verif.Props.TreeCases
import Verif.Props.Literal
import Verif.Props.Where
import Verif.Spec.Session
/-! C164: scripts. -/
namespace Verif.Props.SessionLemmas
open Verif.Val Verif.Expr Verif.Sql Verif.Where Verif.Select Verif.Tree Verif.SqlTree Verif.Session Verif.SqlSession Verif.Literal
open Verif.Nest (Store append asRow)
open Verif.SqlNest (rowOfRecord)
open Verif.Props.TreeLemmas (Ok exec_means kept)
open Verif.Props.Nested (asRow_eq)

section
variable {S : Type} (text : Str → Bool) (py : Py) (calls : Str → List Val → Val) (o : Join.Ops Val)
  (order : List Join.Name → List Join.Name) (fuel : Nat) (en : Engine) (filter : Ty → Val → Val) (prim : Str → Bool) (minus : Val → Val)

/-- A constant that C68 covers. -/
inductive PlainConst : CE → Prop where
  | int (n : Nat) : PlainConst (.int n)
  | negInt (n : Nat) : PlainConst (.neg (.int n))
  | float (q : Rat) : PlainConst (.float q)
  | negFloat (q : Rat) : PlainConst (.neg (.float q))
  | bool (b : Bool) : PlainConst (.bool b)
  | null : PlainConst .null
  | param (name : Str) : PlainConst (.param name)
  | text (s : Str) : (∀ c ∈ s, c ≠ '\\' ∧ c.toNat < 128) → PlainConst (.text s)

theorem plain_value (env : Str → Option Val) (c : CE) (h : PlainConst c) : parseConst env c = SqlLiteral.value env minus c := by
  cases h with
  | text s hs =>
    show Val.str (textValue s) = Val.str s
    rw [(C68_text s fun c hc => (hs c hc).1).2 fun c hc => Or.inl (hs c hc).2]
  | _ => rfl

/-- What the properties of the statements ask, in the state `s`: C155 for SELECT and INSERT … SELECT, C69 for INSERT … VALUES, C43 for
DELETE. -/
def StmtOk (s : SqlSession.State) : Stmt S → Prop
  | .query e => SqlTree.Scoped e ∧ Aligned e ∧ Ok text py calls o order fuel en s.tables e
  | .insert t e => isQuery e = true ∧ t ∉ bound e ∧ SqlTree.Scoped e ∧ Aligned e ∧ Ok text py calls o order fuel en s.tables e
  | .values _ cols rows => cols ≠ [] ∧ (cols.map Prod.fst).Nodup ∧ (∀ r ∈ rows, r.length ≤ cols.length) ∧
      (∀ r ∈ rows, ∀ c ∈ r, PlainConst c) ∧
      ∀ (j : Nat) (t : Ty), ((∃ n, cols[j]? = some (n, some t)) ∨
          ∃ r ∈ rows, ∃ e, r[j]? = some e ∧ tyOf (SqlLiteral.value s.env minus e) = some t) →
        ∀ r ∈ rows, filter t ((r[j]?.map (SqlLiteral.value s.env minus)).getD .null) = (r[j]?.map (SqlLiteral.value s.env minus)).getD .null
  | .delete t (some e) => condOk e = true ∧ inListsConst e = true ∧ NoClash (operandCols e) ∧
      ∀ r ∈ s.tables t, swapsHarmless text py calls (rowOfRecord r) prim e
  | .delete _ none => True
  | .set _ _ => True

/-! ### Compiling does not depend on the tables -/

theorem compilesFilled_run (rows : List Row) (others : List (List Row)) (k : Kind S) :
    (runKind py calls o order fuel en rows others k).isSome = compilesFilled py calls o order fuel k := by
  cases k <;> simp [runKind, compilesFilled]

theorem compilesFilled_like {e e' : E} (h : TreeLemmas.Like e e') (k : Kind S) :
    compilesFilled py calls o order fuel (k.withCond e) = compilesFilled py calls o order fuel (k.withCond e') := by
  induction k with
  | plain q => exact TreeLemmas.select_cond q _ _
  | joined joins q => exact TreeLemmas.joins_like py calls o order fuel joins q h
  | comma ts w q => exact TreeLemmas.from_like py calls o order fuel ts w q h
  | windowed q => exact TreeLemmas.win_cond q _ _
  | sub w k ih => exact ih
  | hav h k ih => rfl

theorem compilesFilled_having {e e' : E} (h : TreeLemmas.Like e e') (k : Kind S) :
    compilesFilled py calls o order fuel (k.withHaving e) = compilesFilled py calls o order fuel (k.withHaving e') := by
  cases k with
  | plain q => exact TreeLemmas.select_having q h
  | joined joins q => exact TreeLemmas.joins_having py calls o order fuel joins q h
  | comma ts w q => exact TreeLemmas.from_having py calls o order fuel ts w q h
  | windowed q => exact TreeLemmas.win_having q h
  | sub w k => rfl
  | hav h k => rfl

theorem compilesKind_run (rows : List Row) (heads : List (List Str)) (others : List (List Row)) (k : Kind S) :
    (runKind py calls o order fuel en rows others (k.fill heads others)).isSome = compilesKind py calls o order fuel k := by
  rw [compilesFilled_run, compilesKind]
  cases k with
  | sub w k => exact compilesFilled_like py calls o order fuel (TreeLemmas.asE_like _ _ w) k
  | hav h k =>
    rw [Kind.fill, Kind.fill, compilesFilled_having py calls o order fuel (TreeLemmas.asH_like _
      (fun i => subOf [] [] (k.joins.length + k.subs + i)) h)]
    cases k with
    | sub w k =>
      rw [Kind.fillWhere, Kind.fillWhere, TreeLemmas.having_cond, TreeLemmas.having_cond]
      exact compilesFilled_like py calls o order fuel (TreeLemmas.asE_like _ _ w) _
    | _ => rfl
  | _ => rfl

mutual
theorem exec_some (e : Tree.Rel S) (h : compiles py calls o order fuel e = true) (st : Store) :
    ∃ x, exec py calls o order fuel en st e = some x := by
  match e with
  | .scan t => exact ⟨_, by rw [exec]⟩
  | .select k src more =>
    simp only [compiles, Bool.and_eq_true, decide_eq_true_eq] at h
    obtain ⟨⟨⟨h1, h2⟩, h3⟩, h4⟩ := h
    obtain ⟨x, hx⟩ := exec_some src h1 st
    obtain ⟨y, hy⟩ := execs_some more h2 x.1
    have := compilesKind_run py calls o order fuel en ((collect y.1 src x.2).map asRow) (headsOf more) ((collects y.1 more y.2).map (·.map asRow)) k
    rw [h4] at this
    obtain ⟨z, hz⟩ := Option.isSome_iff_exists.1 this
    exact ⟨_, by simp only [exec, hx, Option.bind_some, hy, h3, if_true, hz, Option.map_some]; rfl⟩
  | .union l r =>
    simp only [compiles, Bool.and_eq_true] at h
    obtain ⟨x, hx⟩ := exec_some l h.1 st
    obtain ⟨y, hy⟩ := exec_some r h.2 x.1
    exact ⟨_, by simp only [exec, hx, Option.bind_some, hy, Option.map_some]; rfl⟩
  | .withq n d b =>
    simp only [compiles, Bool.and_eq_true, Bool.not_eq_true'] at h
    obtain ⟨x, hx⟩ := exec_some d h.1.2 st
    obtain ⟨y, hy⟩ := exec_some b h.2 (append x.1 n (collect x.1 d x.2))
    exact ⟨y, by simp only [exec, h.1.1, Bool.false_eq_true, if_false, hx, Option.bind_some, hy]⟩
theorem execs_some (l : Rels S) (h : compileds py calls o order fuel l = true) (st : Store) :
    ∃ x, execs py calls o order fuel en st l = some x := by
  match l with
  | .nil => exact ⟨_, by rw [execs]⟩
  | .cons e l =>
    simp only [compileds, Bool.and_eq_true] at h
    obtain ⟨x, hx⟩ := exec_some e h.1 st
    obtain ⟨y, hy⟩ := execs_some l h.2 x.1
    exact ⟨_, by simp only [execs, hx, Option.bind_some, hy, Option.map_some]; rfl⟩
end

/-- The variables after the script has been compiled. -/
def envAfter (env : Str → Option Val) : List (Stmt S) → Str → Option Val
  | [] => env
  | .set n v :: ss => envAfter (fun m => if m = n then some v else env m) ss
  | _ :: ss => envAfter env ss

/-- What the script queues. -/
def jobsOf (env : Str → Option Val) : List (Stmt S) → Option (List (Job S))
  | [] => some []
  | s :: ss =>
    match start py calls o order fuel filter prim s ⟨env, fun _ => [], []⟩ with
    | (w, some ts) => (jobsOf w.env ss).map (ts ++ ·)
    | (_, none) => none

theorem run_jobs (ss : List (Stmt S)) (w : World) (q : List (Job S)) (l) (x : Exec.State World (Job S))
    (h : Exec.run (machine py calls o order fuel en filter prim) ⟨w, q, l⟩ ss = (x, true)) :
    ∃ ts, jobsOf py calls o order fuel filter prim w.env ss = some ts ∧ x = ⟨{ w with env := envAfter w.env ss }, q ++ ts, l⟩ := by
  induction ss generalizing w q with
  | nil =>
    simp only [Exec.run, Prod.mk.injEq, and_true] at h
    exact ⟨[], rfl, by subst h; simp [envAfter]⟩
  | cons s ss ih =>
    cases s with
    | query e =>
      cases hc : compiles py calls o order fuel e <;> simp only [Exec.run, machine, start, hc, Bool.false_eq_true, if_false, if_true] at h
      · cases h
      · obtain ⟨ts, h1, h2⟩ := ih _ _ h
        refine ⟨.query e :: ts, ?_, by rw [h2]; simp [envAfter]⟩
        simp only [jobsOf, start, hc, if_true, h1]; rfl
    | insert t e =>
      cases hc : compiles py calls o order fuel (dropWith e) <;>
        simp only [Exec.run, machine, start, hc, Bool.false_eq_true, if_false, if_true] at h
      · cases h
      · obtain ⟨ts, h1, h2⟩ := ih _ _ h
        refine ⟨.insert t (dropWith e) :: ts, ?_, by rw [h2]; simp [envAfter]⟩
        simp only [jobsOf, start, hc, if_true, h1]; rfl
    | values t cols rows =>
      cases hc : insertValues filter w.env cols rows <;> simp only [Exec.run, machine, start, hc, Option.map_none, Option.map_some] at h
      · cases h
      · obtain ⟨ts, h1, h2⟩ := ih _ _ h
        rename_i r
        refine ⟨.records t r :: ts, ?_, by rw [h2]; simp [envAfter]⟩
        simp only [jobsOf, start, hc, Option.map_some, h1]; rfl
    | delete t cond =>
      cases hc : compileDelete prim cond <;> simp only [Exec.run, machine, start, hc, Option.map_none, Option.map_some] at h
      · cases h
      · obtain ⟨ts, h1, h2⟩ := ih _ _ h
        rename_i r
        refine ⟨.delete t r :: ts, ?_, by rw [h2]; simp [envAfter]⟩
        simp only [jobsOf, start, hc, Option.map_some, h1]; rfl
    | set n v =>
      simp only [Exec.run, machine, start] at h
      obtain ⟨ts, h1, h2⟩ := ih _ _ h
      refine ⟨ts, ?_, by rw [h2]; simp [envAfter]⟩
      simp only [jobsOf, start, h1]; rfl

theorem dropWith_query (e : Tree.Rel S) (h : isQuery e = true) : dropWith e = e := by
  cases e with
  | withq n d b => cases h
  | _ => rfl

/-- What the states have in common. -/
def Agree (ss : List (Stmt S)) (st : Store) (tables : Str → List Out) : Prop :=
  ∀ s ∈ ss, (∀ n ∈ uses s, st n = tables n) ∧ ∀ n ∈ binds s, st n = []

/-- Every name of WITH is used in one statement only, and is no table. -/
def Separate (ss : List (Stmt S)) : Prop := ss.Pairwise fun s s' => Apart (binds s) (uses s) (binds s') (uses s')

theorem jobs_run (hsym : ∀ a b, o.truthy (o.cmp .eq a b) = o.truthy (o.cmp .eq b a)) (hperm : ∀ l, (order l).Perm l)
    (ht : ∀ x y, en.le x y = true ∨ en.le y x = true)
    (htr : ∀ x y z, en.le x y = true → en.le y z = true → en.le x z = true) (hf : Faithful py en.src)
    (hchunk : ∀ l, (en.chunk l).flatMap (·.1) = l) (ss : List (Stmt S)) (s : SqlSession.State) (st : Store) (ts : List (Job S))
    (hts : jobsOf py calls o order fuel filter prim s.env ss = some ts)
    (hok : ∀ pre x post, ss = pre ++ x :: post → ∀ s', Steps text py.cmp calls en.le o minus s pre s' →
      StmtOk text py calls o order fuel en filter prim minus s' x)
    (hsep : Separate ss) (hag : Agree ss st s.tables) (E : Str → Option Val) (l) (n : Nat) (hn : ts.length < n) :
    ∃ s' st' l', Steps text py.cmp calls en.le o minus s ss s' ∧ s'.env = envAfter s.env ss ∧
      Exec.execute (machine py calls o order fuel en filter prim) n ⟨⟨E, st, s.shown⟩, ts, l⟩ = (⟨⟨E, st', s'.shown⟩, [], l'⟩, .returned) ∧
      ∀ k, (∀ x ∈ ss, k ∉ binds x) → st k = s.tables k → st' k = s'.tables k := by
  induction ss generalizing s st ts l n with
  | nil =>
    simp only [jobsOf, Option.some.injEq] at hts
    subst hts
    obtain ⟨n, rfl⟩ : ∃ m, n = m + 1 := ⟨n - 1, by simp at hn; omega⟩
    exact ⟨s, st, l, .nil s, rfl, rfl, fun _ _ h => h⟩
  | cons x ss ih =>
    have hx := hok [] x ss rfl s (.nil s)
    obtain ⟨hsx, hss⟩ := List.pairwise_cons.1 hsep
    have hagx := hag x (by simp)
    -- the rest, after one step
    have next : ∀ (s1 : SqlSession.State) (st1 : Store) (ts1 : List (Job S)) (n1 : Nat), Step text py.cmp calls en.le o minus s x s1 →
        jobsOf py calls o order fuel filter prim s1.env ss = some ts1 → ts1.length < n1 →
        (∀ k, k ∉ binds x → st k = s.tables k → st1 k = s1.tables k) → (∀ k, k ∉ binds x → k ∉ uses x → st1 k = st k) →
        envAfter s1.env ss = envAfter s.env (x :: ss) →
        (∃ l0, Exec.execute (machine py calls o order fuel en filter prim) n ⟨⟨E, st, s.shown⟩, ts, l⟩ =
          Exec.execute (machine py calls o order fuel en filter prim) n1 ⟨⟨E, st1, s1.shown⟩, ts1, l0⟩) →
        ∃ s' st' l', Steps text py.cmp calls en.le o minus s (x :: ss) s' ∧ s'.env = envAfter s.env (x :: ss) ∧
          Exec.execute (machine py calls o order fuel en filter prim) n ⟨⟨E, st, s.shown⟩, ts, l⟩ = (⟨⟨E, st', s'.shown⟩, [], l'⟩, .returned) ∧
          ∀ k, (∀ y ∈ x :: ss, k ∉ binds y) → st k = s.tables k → st' k = s'.tables k := by
      intro s1 st1 ts1 n1 hstep hj hlen hkeep hsame henv ⟨l0, hexec⟩
      obtain ⟨s', st', l', h1, h2, h3, h4⟩ := ih s1 st1 ts1 hj (by
          intro pre y post he s' hs'
          exact hok (x :: pre) y post (by rw [he]; rfl) s' (.cons s s1 s' x pre hstep hs')) hss (by
          intro y hy
          obtain ⟨ha, hb⟩ := hag y (by simp [hy])
          obtain ⟨a1, a2⟩ := hsx y hy
          refine ⟨fun k hk => hkeep k (fun hc => (a1 k hc).1 hk) (ha k hk), fun k hk => ?_⟩
          rw [hsame k (a2 k hk).2 (a2 k hk).1]
          exact hb k hk) l0 n1 hlen
      refine ⟨s', st', l', .cons s s1 s' x ss hstep h1, by rw [h2, henv], by rw [hexec, h3], fun k hk hst => ?_⟩
      exact h4 k (fun y hy => hk y (by simp [hy])) (hkeep k (hk x (by simp)) hst)
    cases x with
    | query e =>
      cases hc : compiles py calls o order fuel e with
      | false => simp [jobsOf, start, hc] at hts
      | true =>
        simp only [jobsOf, start, hc, if_true, Option.map_eq_some_iff] at hts
        obtain ⟨ts1, hj, rfl⟩ := hts
        obtain ⟨n, rfl⟩ : ∃ m, n = m + 1 := ⟨n - 1, by simp at hn; omega⟩
        obtain ⟨⟨st1, bs⟩, he⟩ := exec_some py calls o order fuel en e hc st
        obtain ⟨m, hk, _⟩ := exec_means text py calls o order fuel en hsym hperm ht htr hf hchunk e s.tables st st1 bs he hx.1 hx.2.1 hx.2.2
          hagx.1 hagx.2
        refine next { s with shown := s.shown ++ [collect st1 e bs] } st1 ts1 n (.query s e _ (m st1 fun _ _ => rfl)) hj
          (by simp at hn; omega) (fun k h1 h2 => by rw [hk k h1]; exact h2) (fun k h1 _ => hk k h1) rfl
          ⟨l ++ [(.query e, .done)], ?_⟩
        simp only [List.cons_append, List.nil_append, Exec.execute, Exec.step, machine, runJob, he]
    | insert t e =>
      obtain ⟨hq, hte, hsc, hal, hokk⟩ := hx
      have hdw := dropWith_query e hq
      cases hc : compiles py calls o order fuel e with
      | false => simp [jobsOf, start, hdw, hc] at hts
      | true =>
        simp only [jobsOf, start, hdw, hc, if_true, Option.map_eq_some_iff] at hts
        obtain ⟨ts1, hj, rfl⟩ := hts
        obtain ⟨n, rfl⟩ : ∃ m, n = m + 1 := ⟨n - 1, by simp at hn; omega⟩
        obtain ⟨⟨st1, bs⟩, he⟩ := exec_some py calls o order fuel en e hc st
        obtain ⟨m, hk, _⟩ := exec_means text py calls o order fuel en hsym hperm ht htr hf hchunk e s.tables st st1 bs he hsc hal hokk
          (fun k hk => hagx.1 k (by simp [uses, hk])) hagx.2
        refine next { s with tables := fun n => if n = t then s.tables n ++ collect st1 e bs else s.tables n } (append st1 t (collect st1 e bs))
          ts1 n (.insert s t e _ (m st1 fun _ _ => rfl)) hj (by simp at hn; omega) ?_ ?_ rfl ⟨l ++ [(.insert t e, .done)], ?_⟩
        · intro k h1 h2
          simp only [append]
          by_cases hkt : k = t
          · subst hkt; rw [if_pos rfl, if_pos rfl, hk k h1, h2]
          · rw [if_neg hkt, if_neg hkt, hk k h1, h2]
        · intro k h1 h2
          simp only [append]
          rw [if_neg (fun e => h2 (by simp [uses, e]))]
          exact hk k h1
        · simp only [List.cons_append, List.nil_append, Exec.execute, Exec.step, machine, runJob, he]
    | values t cols rows =>
      obtain ⟨h1, h2, h3, h4, h5⟩ := hx
      have hrow : ∀ r ∈ rows, r.map (parseConst s.env) = r.map (SqlLiteral.value s.env minus) := fun r hr =>
        List.map_congr_left fun c hc => plain_value minus s.env c (h4 r hr c hc)
      have hget : ∀ r ∈ rows, ∀ j : Nat, r[j]?.map (parseConst s.env) = r[j]?.map (SqlLiteral.value s.env minus) := fun r hr j => by
        rw [← List.getElem?_map, ← List.getElem?_map, hrow r hr]
      have hv := C69_values filter s.env cols rows h1 h2 h3 (by
        intro j t ht r hr
        rw [hget r hr]
        refine h5 j t ?_ r hr
        rcases ht with ht | ⟨r', hr', e, he, hte⟩
        · exact .inl ht
        · refine .inr ⟨r', hr', e, he, ?_⟩
          rw [← plain_value minus s.env e (h4 r' hr' e (List.mem_of_getElem? he))]
          exact hte)
      rw [List.map_congr_left hrow] at hv
      simp only [jobsOf, start, hv, Option.map_some, Option.map_eq_some_iff] at hts
      obtain ⟨ts1, hj, rfl⟩ := hts
      obtain ⟨n, rfl⟩ : ∃ m, n = m + 1 := ⟨n - 1, by simp at hn; omega⟩
      refine next _ (append st t (SqlLiteral.records (cols.map Prod.fst) (rows.map fun r => r.map (SqlLiteral.value s.env minus)))) ts1 n
        (.values s t cols rows) hj (by simp at hn; omega) ?_ ?_ rfl ⟨l ++ [(.records t
          (SqlLiteral.records (cols.map Prod.fst) (rows.map fun r => r.map (SqlLiteral.value s.env minus))), .done)], ?_⟩
      · intro k _ h
        simp only [append]
        by_cases hkt : k = t
        · subst hkt; rw [if_pos rfl, if_pos rfl, h]
        · rw [if_neg hkt, if_neg hkt, h]
      · intro k _ h
        simp only [append]
        rw [if_neg (fun e => h (by simp [uses, e]))]
      · simp only [List.cons_append, List.nil_append, Exec.execute, Exec.step, machine, runJob]
    | delete t cond =>
      cases hc : compileDelete prim cond with
      | none => simp [jobsOf, start, hc] at hts
      | some qs =>
        simp only [jobsOf, start, hc, Option.map_some, Option.map_eq_some_iff] at hts
        obtain ⟨ts1, hj, rfl⟩ := hts
        obtain ⟨n, rfl⟩ : ∃ m, n = m + 1 := ⟨n - 1, by simp at hn; omega⟩
        have hsel : ∀ r ∈ s.tables t, ((!matchRow py calls en.src (asRow r) qs) = true ↔
            ¬ Selected text py.cmp calls cond (rowOfRecord r)) := by
          intro r hr
          rw [Bool.not_eq_true', ← Bool.not_eq_true, not_congr]
          rw [asRow_eq]
          cases cond with
          | none =>
            simp only [compileDelete, Option.some.injEq] at hc
            subst hc
            simp [matchRow, Selected]
          | some e =>
            obtain ⟨g1, g2, g3, g4⟩ := hx
            rw [C43_delete_partial text py calls (rowOfRecord r) en.src prim hf (fun c => by
              simp only [rowOfRecord, baseName_idem]) e g1 g2 g3 (g4 r hr) qs hc]
            simp [Selected]
        refine next _ (fun n => if n = t then (st n).filter fun r => !matchRow py calls en.src (asRow r) qs else st n) ts1 n
          (.delete s t cond _ hsel) hj (by simp at hn; omega) ?_ ?_ rfl ⟨l ++ [(.delete t qs, .done)], ?_⟩
        · intro k _ h
          by_cases hkt : k = t
          · subst hkt; simp only [if_true, h]
          · simp only [if_neg hkt, h]
        · intro k _ h
          simp only [if_neg (fun e : k = t => h (by simp [uses, e]))]
        · simp only [List.cons_append, List.nil_append, Exec.execute, Exec.step, machine, runJob]
    | set m v =>
      simp only [jobsOf, start, Option.map_eq_some_iff] at hts
      obtain ⟨ts1, hj, rfl⟩ := hts
      exact next { s with env := fun k => if k = m then some v else s.env k } st ts1 n (.set s m v) hj hn (fun _ _ h => h)
        (fun _ _ _ => rfl) rfl ⟨l, rfl⟩

/-- Compiling a statement touches neither tables nor results. -/
theorem start_keeps (x : Stmt S) (w : World) : (start py calls o order fuel filter prim x w).1.store = w.store ∧
    (start py calls o order fuel filter prim x w).1.printed = w.printed := by
  cases x <;> exact ⟨rfl, rfl⟩

theorem run_keeps (ss : List (Stmt S)) (x y : Exec.State World (Job S)) (b : Bool)
    (h : Exec.run (machine py calls o order fuel en filter prim) x ss = (y, b)) :
    y.world.store = x.world.store ∧ y.world.printed = x.world.printed := by
  induction ss generalizing x with
  | nil =>
    simp only [Exec.run, Prod.mk.injEq] at h
    rw [← h.1]; exact ⟨rfl, rfl⟩
  | cons s ss ih =>
    rw [Exec.run] at h
    have hk := start_keeps py calls o order fuel filter prim s x.world
    have hm : (machine py calls o order fuel en filter prim).start s x.world = start py calls o order fuel filter prim s x.world := rfl
    rw [hm] at h
    match hs : start py calls o order fuel filter prim s x.world, h with
    | (w, some ts), h =>
      rw [hs] at hk
      obtain ⟨h1, h2⟩ := ih _ h
      exact ⟨h1.trans hk.1, h2.trans hk.2⟩
    | (w, none), h =>
      rw [hs] at hk
      simp only [Prod.mk.injEq] at h
      rw [← h.1]
      exact hk

end
end Verif.Props.SessionLemmas

namespace Verif.Props
open Verif.Val Verif.Expr Verif.Sql Verif.Where Verif.Select Verif.Tree Verif.SqlTree Verif.Session Verif.SqlSession Verif.Literal
open Verif.Props.SessionLemmas

section
variable {S : Type} (text : Str → Bool) (py : Py) (calls : Str → List Val → Val) (o : Join.Ops Val)
  (order : List Join.Name → List Join.Name) (fuel : Nat) (en : Engine) (filter : Ty → Val → Val) (prim : Str → Bool) (minus : Val → Val)

/-- C164: when a whole script compiles, executing it ends normally, whatever the number of statements, and does what SQL says when the
statements are done one after the other: the same variables, the same shown results in the same order, and the same rows in every table
(except those the engine keeps for the names of WITH, C115).  The statements need satisfy what C155, C69 and C43 ask of them in the state in
which they are reached.  Missing (`_partial`): names of WITH must be used by one statement only (`C164_with_violated`), and the
hypotheses of the properties quoted. -/
theorem C164_script_partial (hsym : ∀ a b, o.truthy (o.cmp .eq a b) = o.truthy (o.cmp .eq b a)) (hperm : ∀ l, (order l).Perm l)
    (ht : ∀ x y, en.le x y = true ∨ en.le y x = true)
    (htr : ∀ x y z, en.le x y = true → en.le y z = true → en.le x z = true) (hf : Faithful py en.src)
    (hchunk : ∀ l, (en.chunk l).flatMap (·.1) = l) (ss : List (Stmt S)) (w : World) (x : Exec.State World (Job S))
    (hrun : Exec.run (machine py calls o order fuel en filter prim) ⟨w, [], []⟩ ss = (x, true))
    (hok : ∀ pre st post, ss = pre ++ st :: post → ∀ s', Steps text py.cmp calls en.le o minus ⟨w.env, w.store, w.printed⟩ pre s' →
      StmtOk text py calls o order fuel en filter prim minus s' st)
    (hsep : Separate ss) (hnew : ∀ st ∈ ss, ∀ n ∈ binds st, w.store n = []) :
    ∃ s', Steps text py.cmp calls en.le o minus ⟨w.env, w.store, w.printed⟩ ss s' ∧
      ∀ n, x.runners.length < n → ∃ y, Exec.execute (machine py calls o order fuel en filter prim) n x = (y, .returned) ∧
        y.runners = [] ∧ y.world.env = s'.env ∧ y.world.printed = s'.shown ∧
        ∀ k, (∀ st ∈ ss, k ∉ binds st) → y.world.store k = s'.tables k := by
  obtain ⟨ts, hts, rfl⟩ := run_jobs py calls o order fuel en filter prim ss w [] [] x hrun
  have key := fun n hn => jobs_run text py calls o order fuel en filter prim minus hsym hperm ht htr hf hchunk ss
    ⟨w.env, w.store, w.printed⟩ w.store ts hts hok hsep (fun s hs => ⟨fun _ _ => rfl, fun k hk => hnew s hs k hk⟩)
    (envAfter w.env ss) [] n hn
  obtain ⟨s', st', l', h1, h2, h3, h4⟩ := key (ts.length + 1) (by omega)
  refine ⟨s', h1, fun n hn => ⟨⟨⟨envAfter w.env ss, st', s'.shown⟩, [], l'⟩, ?_, rfl, h2.symm, rfl, fun k hk => h4 k hk rfl⟩⟩
  have hn : ts.length < n := by simpa using hn
  have mono : ∀ (m : Nat) (z : Exec.State World (Job S)) (r), Exec.execute (machine py calls o order fuel en filter prim) m z = (r, .returned) →
      ∀ d, Exec.execute (machine py calls o order fuel en filter prim) (m + d) z = (r, .returned) := by
    intro m
    induction m with
    | zero => intro z r h; simp [Exec.execute] at h
    | succ m ih =>
      intro z r h d
      rw [Nat.add_right_comm, Exec.execute]
      rw [Exec.execute] at h
      match hs : Exec.step (machine py calls o order fuel en filter prim) z, h with
      | (y, .running), h => exact ih y r h d
      | (y, .returned), h => exact h
      | (y, .raised), h => exact h
  have := mono _ _ _ h3 (n - (ts.length + 1))
  rw [show ts.length + 1 + (n - (ts.length + 1)) = n by omega] at this
  exact this

/-- C164: while a script is compiled no table and no result changes; so a script one statement of which is refused changes no table and
shows nothing, not even for the statements before it. -/
theorem C164_refused_does_nothing (ss : List (Stmt S)) (w : World) (x : Exec.State World (Job S)) (b : Bool)
    (h : Exec.run (machine py calls o order fuel en filter prim) ⟨w, [], []⟩ ss = (x, b)) :
    x.world.store = w.store ∧ x.world.printed = w.printed :=
  run_keeps py calls o order fuel en filter prim ss ⟨w, [], []⟩ x b h

end
end Verif.Props
