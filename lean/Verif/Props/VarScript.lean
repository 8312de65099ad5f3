import Verif.Proofs.VarScript
import Verif.Props.Into
/-! C175: scripts with variables. -/
namespace Verif.Props.VarLemmas
open Verif.Val Verif.Expr Verif.Sql Verif.Where Verif.Select Verif.Tree Verif.SqlTree Verif.VarScript Verif.SqlVarScript
open Verif.Into (Stored shape selectInto)
open Verif.Nest (Store append asRow)
open Verif.Literal (CE parseConst insertValues Ty)
open Verif.Props.SessionLemmas (exec_some PlainConst)

/-- The variables of a dictionary. -/
def vars (env : Vars) : Str → Option (Stored Val) := fun n => env.get? n

section
variable {S : Type} (image : Stored Val → Val) (two : Tree.Rel S → Bool) (text : Str → Bool) (py : Py) (calls : Str → List Val → Val)
  (o : Join.Ops Val) (order : List Join.Name → List Join.Name) (fuel : Nat) (en : Engine) (filter : Ty → Val → Val) (prim : Str → Bool)
  (minus : Val → Val)

/-- What is asked of a statement in the state `s`: of SELECT … INTO what is asked of a SELECT, that it has columns and makes one pass. -/
def StmtOk (s : SqlVarScript.State) : Stmt S → Prop
  | .plain x => SessionLemmas.StmtOk text py (functions image calls s.env) o order fuel en filter prim minus (seen image s) x
  | .into e _ => isAnswer e = true ∧ header e ≠ [] ∧ two e = false ∧ SqlTree.Scoped e ∧ Aligned e ∧
      TreeLemmas.Ok text py (functions image calls s.env) o order fuel en s.tables e

theorem funcs_eq (himage : ∀ v, image (.scalar v) = v) (env : Vars) (env' : Str → Option (Stored Val))
    (h : ∀ k, held (vars env) k = held env' k) : withVars image calls env = functions image calls env' := by
  funext f args
  simp only [withVars, functions]
  split
  · have key : ∀ k, lookup image env k = image (held env' k) := by
      intro k
      rw [← h k, lookup, held, vars]
      cases env.get? k with
      | none => rw [Option.getD_none, himage]
      | some x => rfl
    match args with
    | [.str k] => exact key k
    | [] | [.null] | [.int _] | [.flt _] | [.bool _] => rfl
    | a :: _ :: _ => cases a <;> rfl
  · rfl

theorem not_again (j : Session.Job S) (w : Session.World) : (Session.runJob py calls o order fuel en j w).2 ≠ .again := by
  cases j <;> simp only [Session.runJob] <;> (try split) <;> simp

theorem start_env (x : Session.Stmt S) (E1 E2 : Str → Option Val) (st st' : Store) (p p' : List (List Out))
    (h : ∀ t cols rows, x = .values t cols rows → ∀ r ∈ rows, ∀ c ∈ r, parseConst E1 c = parseConst E2 c) :
    (Session.start py calls o order fuel filter prim x ⟨E1, st, p⟩).2 = (Session.start py calls o order fuel filter prim x ⟨E2, st', p'⟩).2 := by
  cases x with
  | values t cols rows =>
    simp only [Session.start, insertValues]
    rw [List.map_congr_left fun r hr => List.map_congr_left fun c hc => h t cols rows rfl r hr c hc]
  | _ => rfl

theorem plain_run (hsym : ∀ a b, o.truthy (o.cmp .eq a b) = o.truthy (o.cmp .eq b a)) (hperm : ∀ l, (order l).Perm l)
    (ht : ∀ x y, en.le x y = true ∨ en.le y x = true)
    (htr : ∀ x y z, en.le x y = true → en.le y z = true → en.le x z = true) (hf : Faithful py en.src)
    (hchunk : ∀ l, (en.chunk l).flatMap (·.1) = l) (x : Session.Stmt S) (hx : ∀ n v, x ≠ .set n v) (s : SqlSession.State) (st : Store)
    (ts : List (Session.Job S)) (hts : (Session.start py calls o order fuel filter prim x ⟨s.env, fun _ => [], []⟩).2 = some ts)
    (hok : SessionLemmas.StmtOk text py calls o order fuel en filter prim minus s x)
    (hag : (∀ n ∈ SqlSession.uses x, st n = s.tables n) ∧ ∀ n ∈ SqlSession.binds x, st n = []) (E : Str → Option Val) :
    ∃ j s' st', ts = [j] ∧ SqlSession.Step text py.cmp calls en.le o minus s x s' ∧
      Session.runJob py calls o order fuel en j ⟨E, st, s.shown⟩ = (⟨E, st', s'.shown⟩, .done) ∧
      (∀ k, k ∉ SqlSession.binds x → st k = s.tables k → st' k = s'.tables k) ∧
      ∀ k, k ∉ SqlSession.binds x → k ∉ SqlSession.uses x → st' k = st k := by
  have hone : ∃ j, ts = [j] ∧ ∀ k, k ∉ SqlSession.binds x → k ∉ SqlSession.uses x →
      (Session.runJob py calls o order fuel en j ⟨E, st, s.shown⟩).1.store k = st k := by
    cases x with
    | query e =>
      simp only [Session.start] at hts
      split at hts <;> cases hts
      refine ⟨_, rfl, fun k hk _ => ?_⟩
      simp only [Session.runJob]
      split
      · rename_i h
        exact TreeLemmas.kept py calls o order fuel en e st _ _ h k hk
      · rfl
    | insert t e =>
      rw [Session.start, SessionLemmas.dropWith_query e hok.1] at hts
      simp only at hts
      split at hts <;> cases hts
      refine ⟨_, rfl, fun k hk hu => ?_⟩
      simp only [Session.runJob]
      split
      · rename_i h
        simp only [append]
        rw [if_neg (fun e => hu (by simp [SqlSession.uses, e]))]
        exact TreeLemmas.kept py calls o order fuel en e st _ _ h k hk
      · rfl
    | values t cols rows =>
      simp only [Session.start, Option.map_eq_some_iff] at hts
      obtain ⟨r, _, rfl⟩ := hts
      refine ⟨_, rfl, fun k _ hu => ?_⟩
      simp only [Session.runJob, append]
      rw [if_neg (fun e => hu (by simp [SqlSession.uses, e]))]
    | delete t c =>
      simp only [Session.start, Option.map_eq_some_iff] at hts
      obtain ⟨r, _, rfl⟩ := hts
      refine ⟨_, rfl, fun k _ hu => ?_⟩
      simp only [Session.runJob]
      rw [if_neg (fun e => hu (by simp [SqlSession.uses, e]))]
    | set n v => exact absurd rfl (hx n v)
  obtain ⟨j, rfl, hkeep⟩ := hone
  have hj : SessionLemmas.jobsOf py calls o order fuel filter prim s.env [x] = some [j] := by
    rw [SessionLemmas.jobsOf]
    rcases hst : Session.start py calls o order fuel filter prim x ⟨s.env, fun _ => [], []⟩ with ⟨w, r⟩
    rw [hst] at hts
    simp only at hts
    subst hts
    rfl
  obtain ⟨s', st', l', h1, _, h3, h4⟩ := SessionLemmas.jobs_run text py calls o order fuel en filter prim minus hsym hperm ht htr hf hchunk [x] s st
    [j] hj (by
      intro pre y post he s' hs'
      cases pre with
      | nil =>
        simp only [List.nil_append, List.cons.injEq] at he
        cases hs'
        rw [← he.1]
        exact hok
      | cons _ pre => simp at he) (by simp [SessionLemmas.Separate]) (by
      intro y hy
      rw [List.mem_singleton.1 hy]
      exact hag) E [] 2 (by simp)
  have hrun : Session.runJob py calls o order fuel en j ⟨E, st, s.shown⟩ = (⟨E, st', s'.shown⟩, .done) := by
    simp only [Exec.execute, Exec.step, Session.machine] at h3
    rcases hr : Session.runJob py calls o order fuel en j ⟨E, st, s.shown⟩ with ⟨w, b⟩
    have hna := not_again py calls o order fuel en j ⟨E, st, s.shown⟩
    rw [hr] at h3 hna
    cases b with
    | done =>
      simp only [Prod.mk.injEq, Exec.State.mk.injEq, and_true] at h3
      rw [h3.1]
    | again => exact absurd rfl hna
    | fail => simp at h3
  refine ⟨j, s', st', rfl, ?_, hrun, fun k hk => h4 k (by simpa using hk), fun k hk hu => ?_⟩
  · cases h1 with
    | cons _ s1 _ _ _ hstep hrest => cases hrest; exact hstep
  · have := hkeep k hk hu
    rwa [hrun] at this

/-! ### What INTO stores -/

theorem get_eq (r : Out) (n : Str) (v : Val) : Verif.Dict.get? ((n, v) :: r : Verif.Dict Str Val) n = some v := by simp [Verif.Dict.get?]

theorem project_self (r : Out) (h : (r.map (·.1)).Nodup) : Into.project .null (r.map (·.1)) r = r := by
  have key : ∀ (l r : Out), (∀ x ∈ l, Verif.Dict.get? (r : Verif.Dict Str Val) x.1 = some x.2) → Into.project .null (l.map (·.1)) r = l := by
    intro l r h
    induction l with
    | nil => rfl
    | cons x l ih =>
      simp only [Into.project, List.map_cons] at ih ⊢
      rw [h x (by simp), ih fun y hy => h y (by simp [hy])]
      rfl
  refine key r r ?_
  clear key
  induction r with
  | nil => simp
  | cons y r ih =>
    intro x hx
    simp only [List.map_cons, List.nodup_cons] at h
    rcases List.mem_cons.1 hx with rfl | hx
    · exact get_eq r x.1 x.2
    · have hne : y.1 ≠ x.1 := fun e => h.1 (by rw [e]; exact List.mem_map_of_mem hx)
      have := ih h.2 x hx
      obtain ⟨yn, yv⟩ := y
      simp only [Verif.Dict.get?] at this ⊢
      rw [if_neg hne]
      exact this

theorem shape_stored (ns : List Str) (hne : ns ≠ []) (hnd : ns.Nodup) (out : List Out) (h : ∀ r ∈ out, r.map (·.1) = ns) :
    shape Val.null ns true out = stored ns out := by
  have hproj : ∀ r ∈ out, Into.project .null ns r = r := fun r hr => by
    have := h r hr
    subst this
    exact project_self r hnd
  match ns, hne with
  | [k], _ =>
    have hr : ∀ r ∈ out, ∃ v, r = [(k, v)] := by
      intro r hr
      have := h r hr
      match r, this with
      | [(k', v)], h => simp at h; exact ⟨v, by rw [h]⟩
    match out with
    | [r] =>
      obtain ⟨v, rfl⟩ := hr r (by simp)
      simp [shape, stored, Verif.Dict.get?]
    | [] => rfl
    | a :: b :: l =>
      have hs : ∀ l : List Out, (∀ r ∈ l, ∃ v, r = [(k, v)]) →
          l.filterMap (fun r => Verif.Dict.get? (r : Verif.Dict Str Val) k) = l.flatMap fun r => r.map (·.2) := by
        intro l hl
        induction l with
        | nil => rfl
        | cons r l ih =>
          obtain ⟨v, rfl⟩ := hl r (by simp)
          simp [Verif.Dict.get?, ih fun r hr => hl r (by simp [hr])]
      have := hs _ hr
      simp only [shape, stored, List.length_singleton, if_true]
      exact congrArg Stored.column this
  | k :: k' :: ks, _ =>
    match out with
    | [r] =>
      have h1 := hproj r (by simp)
      have h2 := h r (by simp)
      simp only [shape, h1, stored]
      match r, h2 with
      | [_], h2 => simp at h2
      | _ :: _ :: _, _ => rfl
    | [] => simp [shape, stored]
    | a :: b :: l =>
      simp only [shape, stored, List.length_cons]
      rw [if_neg (by omega)]
      congr 1
      exact (List.map_congr_left hproj).trans (List.map_id' _)

/-! ### Compiling -/

/-- What a script queues. -/
def jobsOf (C : Vars) : List (Stmt S) → Option (List (Job S))
  | [] => some []
  | x :: ss =>
    match VarScript.start image py calls o order fuel filter prim x ⟨C, fun _ => [], []⟩ with
    | (w, some ts) => (jobsOf w.env ss).map (ts ++ ·)
    | (_, none) => none

/-- The variables after a script has been compiled. -/
def envAfter (C : Vars) : List (Stmt S) → Vars
  | [] => C
  | x :: ss => envAfter (VarScript.start image py calls o order fuel filter prim x ⟨C, fun _ => [], []⟩).1.env ss

theorem start_world (x : Stmt S) (w : World) : VarScript.start image py calls o order fuel filter prim x w =
    ({ w with env := (VarScript.start image py calls o order fuel filter prim x ⟨w.env, fun _ => [], []⟩).1.env },
      (VarScript.start image py calls o order fuel filter prim x ⟨w.env, fun _ => [], []⟩).2) := by
  cases x with
  | plain x => cases x <;> rfl
  | into e v =>
    simp only [VarScript.start]
    split <;> rfl

theorem run_jobs (ss : List (Stmt S)) (w : World) (q : List (Job S)) (l) (x : Exec.State World (Job S))
    (h : Exec.run (machine image two py calls o order fuel en filter prim) ⟨w, q, l⟩ ss = (x, true)) :
    ∃ ts, jobsOf image py calls o order fuel filter prim w.env ss = some ts ∧
      x = ⟨{ w with env := envAfter image py calls o order fuel filter prim w.env ss }, q ++ ts, l⟩ := by
  induction ss generalizing w q with
  | nil =>
    simp only [Exec.run, Prod.mk.injEq, and_true] at h
    exact ⟨[], rfl, by subst h; simp [envAfter]⟩
  | cons s ss ih =>
    rw [Exec.run] at h
    have hw := start_world image py calls o order fuel filter prim s w
    rw [show (machine image two py calls o order fuel en filter prim).start s w = VarScript.start image py calls o order fuel filter prim s w
      from rfl, hw] at h
    simp only [jobsOf, envAfter]
    generalize VarScript.start image py calls o order fuel filter prim s ⟨w.env, fun _ => [], []⟩ = r at h ⊢
    obtain ⟨w', r⟩ := r
    cases r with
    | none => simp at h
    | some ts =>
      obtain ⟨ts', h1, h2⟩ := ih _ _ h
      exact ⟨ts ++ ts', by simp only [h1, Option.map_some], by rw [h2]; simp⟩

theorem start_held (C : Vars) (v k : Str) : held (vars (Into.start .null [v] C)) k = held (vars C) k := by
  simp only [Into.start, List.foldl_cons, List.foldl_nil, held, vars]
  split
  · rfl
  · rename_i h
    rw [Verif.Dict.get?_set]
    split
    · rename_i e
      subst e
      cases hc : C.get? v with
      | none => rfl
      | some x => rw [hc] at h; simp at h
    · rfl

theorem envAfter_held (ss : List (Stmt S)) (hno : ∀ x ∈ ss, isSet x = false) (C : Vars) (k : Str) :
    held (vars (envAfter image py calls o order fuel filter prim C ss)) k = held (vars C) k := by
  induction ss generalizing C with
  | nil => rfl
  | cons x ss ih =>
    rw [envAfter, ih fun y hy => hno y (by simp [hy])]
    cases x with
    | plain x =>
      cases x with
      | set n v =>
        have := hno (.plain (.set n v)) List.mem_cons_self
        simp [isSet] at this
      | _ => rfl
    | into e v =>
      simp only [VarScript.start]
      split
      · exact start_held C v k
      · rfl

theorem const_eq (himage : ∀ v, image (.scalar v) = v) (C : Vars) (env : Str → Option (Stored Val)) (t : Str)
    (cols : List (Str × Option Ty)) (rows : List (List CE)) (hp : ∀ r ∈ rows, ∀ c ∈ r, PlainConst c)
    (h : ∀ k ∈ reads (.plain (.values t cols rows) : Stmt S), held (vars C) k = held env k) :
    ∀ r ∈ rows, ∀ c ∈ r, parseConst (fun n => (C.get? n).map image) c = parseConst (fun n => (env n).map image) c := by
  intro r hr c hc
  cases hp r hr c hc with
  | param name =>
    have hk := h ('@' :: name) (by
      simp only [reads, List.mem_flatMap, List.mem_filterMap]
      exact ⟨r, hr, _, hc, rfl⟩)
    simp only [held, vars] at hk
    simp only [parseConst, Literal.bare]
    have hm : ∀ x : Option (Stored Val), (x.map image).getD .null = image (x.getD (.scalar .null)) := by
      intro x
      cases x with
      | none => exact (himage _).symm
      | some x => rfl
    rw [hm, hm, hk]
  | _ => rfl

/-! ### Running -/

/-- What the states have in common. -/
def Agree (ss : List (Stmt S)) (st : Store) (tables : Str → List Out) : Prop :=
  ∀ s ∈ ss, (∀ n ∈ uses s, st n = tables n) ∧ ∀ n ∈ binds s, st n = []

/-- Every name of WITH is used in one statement only, and is no table. -/
def Separate (ss : List (Stmt S)) : Prop := ss.Pairwise fun s s' => Apart (binds s) (uses s) (binds s') (uses s')

/-- What is asked of the rest of the statements, and of the world, in a state. -/
structure Ready (ss : List (Stmt S)) (s : SqlVarScript.State) (w : World) : Prop where
  ok : ∀ pre x post, ss = pre ++ x :: post → ∀ s', Steps image text py.cmp calls en.le o minus s pre s' →
    StmtOk image two text py calls o order fuel en filter prim minus s' x
  separate : Separate ss
  agree : Agree ss w.store s.tables
  shown : w.printed = s.shown

/-- What has been done in the end. -/
def Done (ss : List (Stmt S)) (s : SqlVarScript.State) (w : World) (s' : SqlVarScript.State) (w' : World) : Prop :=
  Steps image text py.cmp calls en.le o minus s ss s' ∧ w'.printed = s'.shown ∧ (∀ k, held (vars w'.env) k = held s'.env k) ∧
    (∀ k, (∀ x ∈ ss, k ∉ binds x) → w.store k = s.tables k → w'.store k = s'.tables k) ∧
    ∀ k, (∀ x ∈ ss, k ∉ binds x ∧ k ∉ uses x) → w'.store k = w.store k

theorem Ready.next {x : Stmt S} {ss : List (Stmt S)} {s s1 : SqlVarScript.State} {w w1 : World}
    (h : Ready image two text py calls o order fuel en filter prim minus (x :: ss) s w)
    (hstep : Step image text py.cmp calls en.le o minus s x s1)
    (hkeep : ∀ k, k ∉ binds x → w.store k = s.tables k → w1.store k = s1.tables k)
    (hsame : ∀ k, k ∉ binds x → k ∉ uses x → w1.store k = w.store k) (hshown : w1.printed = s1.shown) :
    Ready image two text py calls o order fuel en filter prim minus ss s1 w1 where
  ok := fun pre y post he s' hs' => h.ok (x :: pre) y post (by rw [he]; rfl) s' (.cons s s1 s' x pre hstep hs')
  separate := (List.pairwise_cons.1 h.separate).2
  agree := by
    intro y hy
    obtain ⟨ha, hb⟩ := h.agree y (by simp [hy])
    obtain ⟨a1, a2⟩ := (List.pairwise_cons.1 h.separate).1 y hy
    refine ⟨fun k hk => hkeep k (fun hc => (a1 k hc).1 hk) (ha k hk), fun k hk => ?_⟩
    rw [hsame k (a2 k hk).2 (a2 k hk).1]
    exact hb k hk
  shown := hshown

theorem Done.cons {x : Stmt S} {ss : List (Stmt S)} {s s1 s' : SqlVarScript.State} {w w1 w' : World}
    (hstep : Step image text py.cmp calls en.le o minus s x s1)
    (hkeep : ∀ k, k ∉ binds x → w.store k = s.tables k → w1.store k = s1.tables k)
    (hsame : ∀ k, k ∉ binds x → k ∉ uses x → w1.store k = w.store k)
    (h : Done image text py calls o en minus ss s1 w1 s' w') : Done image text py calls o en minus (x :: ss) s w s' w' := by
  obtain ⟨h1, h2, h3, h4, h5⟩ := h
  refine ⟨.cons s s1 s' x ss hstep h1, h2, h3, fun k hk hst => ?_, fun k hk => ?_⟩
  · exact h4 k (fun y hy => hk y (by simp [hy])) (hkeep k (hk x (by simp)) hst)
  · rw [h5 k fun y hy => hk y (by simp [hy])]
    exact hsame k (hk x (by simp)).1 (hk x (by simp)).2

/-- A plain statement that is no SET, run with the variables of the state. -/
theorem plain_step (himage : ∀ v, image (.scalar v) = v)
    (hsym : ∀ a b, o.truthy (o.cmp .eq a b) = o.truthy (o.cmp .eq b a)) (hperm : ∀ l, (order l).Perm l)
    (ht : ∀ x y, en.le x y = true ∨ en.le y x = true)
    (htr : ∀ x y z, en.le x y = true → en.le y z = true → en.le x z = true) (hf : Faithful py en.src)
    (hchunk : ∀ l, (en.chunk l).flatMap (·.1) = l) (x : Session.Stmt S) (hx : ∀ n v, x ≠ .set n v) (ss : List (Stmt S))
    (s : SqlVarScript.State) (w : World) (hr : Ready image two text py calls o order fuel en filter prim minus (.plain x :: ss) s w)
    (C : Vars) (hC : ∀ k ∈ reads (.plain x : Stmt S), held (vars C) k = held s.env k)
    (hF : isValues (.plain x : Stmt S) = true ∨ ∀ k, held (vars w.env) k = held s.env k) (ts : List (Job S))
    (hts : jobsOf image py calls o order fuel filter prim C (.plain x :: ss) = some ts) :
    ∃ j ts' s1 w1, ts = j :: ts' ∧ jobsOf image py calls o order fuel filter prim C ss = some ts' ∧
      VarScript.runJob image two py calls o order fuel en j w = (w1, .done) ∧ w1.env = w.env ∧ s1.env = s.env ∧
      Step image text py.cmp calls en.le o minus s (.plain x) s1 ∧
      (∀ k, k ∉ binds (.plain x : Stmt S) → w.store k = s.tables k → w1.store k = s1.tables k) ∧
      (∀ k, k ∉ binds (.plain x : Stmt S) → k ∉ uses (.plain x : Stmt S) → w1.store k = w.store k) ∧ w1.printed = s1.shown := by
  have hok : StmtOk image two text py calls o order fuel en filter prim minus s (.plain x) := hr.ok [] (.plain x) ss rfl s (.nil s)
  have hag := hr.agree (.plain x) (by simp)
  have hst : VarScript.start image py calls o order fuel filter prim (.plain x) ⟨C, fun _ => [], []⟩ =
      (⟨C, fun _ => [], []⟩, (Session.start py (functions image calls s.env) o order fuel filter prim x
        ⟨(seen image s).env, fun _ => [], []⟩).2.map (·.map .plain)) := by
    have h1 : VarScript.start image py calls o order fuel filter prim (.plain x) ⟨C, fun _ => [], []⟩ =
        (⟨C, fun _ => [], []⟩, (Session.start py calls o order fuel filter prim x ⟨fun n => (C.get? n).map image, fun _ => [], []⟩).2.map
          (·.map .plain)) := by
      cases x with
      | set n v => exact absurd rfl (hx n v)
      | _ => rfl
    rw [h1, start_calls py calls (functions image calls s.env)]
    rw [start_env py _ o order fuel filter prim x _ (seen image s).env (fun _ => []) (fun _ => []) [] []]
    intro t cols rows he
    subst he
    exact const_eq (S := S) image himage C s.env t cols rows hok.2.2.2.1 hC
  rw [jobsOf, hst] at hts
  cases hs0 : (Session.start py (functions image calls s.env) o order fuel filter prim x ⟨(seen image s).env, fun _ => [], []⟩).2 with
  | none => rw [hs0] at hts; simp at hts
  | some js =>
    rw [hs0] at hts
    simp only [Option.map_some, Option.map_eq_some_iff] at hts
    obtain ⟨ts', hj, rfl⟩ := hts
    obtain ⟨j, s1, st1, rfl, hstep, hrun, hk, hs⟩ := plain_run text py (functions image calls s.env) o order fuel en filter prim minus hsym hperm
      ht htr hf hchunk x hx (seen image s) w.store js hs0 hok hag (fun n => (w.env.get? n).map image)
    have hjob : Session.runJob py (withVars image calls w.env) o order fuel en j (w.view image) =
        (⟨fun n => (w.env.get? n).map image, st1, s1.shown⟩, .done) := by
      rw [show w.view image = ⟨fun n => (w.env.get? n).map image, w.store, (seen image s).shown⟩ by
        simp only [World.view, hr.shown, seen]]
      rcases hF with hv | hF
      · cases x with
        | values t cols rows =>
          simp only [Session.start, Option.map_eq_some_iff] at hs0
          obtain ⟨r, _, hj'⟩ := hs0
          simp only [List.cons.injEq, and_true] at hj'
          subst hj'
          exact hrun
        | _ => simp [isValues] at hv
      · rw [funcs_eq image calls himage w.env s.env hF]
        exact hrun
    refine ⟨.plain j, ts', ⟨s.env, s1.tables, s1.shown⟩, ⟨w.env, st1, s1.shown⟩, rfl, hj, ?_, rfl, rfl, .other s x s1 hx hstep, hk, hs, rfl⟩
    simp only [VarScript.runJob, hjob]

theorem isUnion_iff (e : Tree.Rel S) : isUnion e = true ↔ IsUnion e := by
  match e with
  | .scan t => exact ⟨(nomatch ·), (nomatch ·)⟩
  | .select k s m => exact ⟨(nomatch ·), (nomatch ·)⟩
  | .union l r => exact ⟨fun _ => .here l r, fun _ => rfl⟩
  | .withq n d b => exact ⟨fun h => .under n d b ((isUnion_iff b).1 h), fun h => by cases h with | under _ _ _ h => exact (isUnion_iff b).2 h⟩

theorem head_eq (e : Tree.Rel S) (hq : isAnswer e = true) (hu : isUnion e = false) : headOf e = header e := by
  match e with
  | .scan t => cases hq
  | .select k s m => rfl
  | .union l r => cases hu
  | .withq n d b => exact head_eq b hq hu

/-- SELECT … INTO, run with the variables of the state. -/
theorem into_step (himage : ∀ v, image (.scalar v) = v)
    (hsym : ∀ a b, o.truthy (o.cmp .eq a b) = o.truthy (o.cmp .eq b a)) (hperm : ∀ l, (order l).Perm l)
    (ht : ∀ x y, en.le x y = true ∨ en.le y x = true)
    (htr : ∀ x y z, en.le x y = true → en.le y z = true → en.le x z = true) (hf : Faithful py en.src)
    (hchunk : ∀ l, (en.chunk l).flatMap (·.1) = l) (e : Tree.Rel S) (v : Str) (ss : List (Stmt S))
    (s : SqlVarScript.State) (w : World) (hr : Ready image two text py calls o order fuel en filter prim minus (.into e v :: ss) s w)
    (C : Vars) (hF : ∀ k, held (vars w.env) k = held s.env k) (ts : List (Job S))
    (hts : jobsOf image py calls o order fuel filter prim C (.into e v :: ss) = some ts) :
    ∃ j ts' s1 w1, ts = j :: ts' ∧ jobsOf image py calls o order fuel filter prim (Into.start .null [v] C) ss = some ts' ∧
      VarScript.runJob image two py calls o order fuel en j w = (w1, .done) ∧ (∀ k, held (vars w1.env) k = held s1.env k) ∧
      (∀ k, k ≠ v → s1.env k = s.env k) ∧ Step image text py.cmp calls en.le o minus s (.into e v) s1 ∧
      (∀ k, k ∉ binds (.into e v : Stmt S) → w.store k = s.tables k → w1.store k = s1.tables k) ∧
      (∀ k, k ∉ binds (.into e v : Stmt S) → k ∉ uses (.into e v : Stmt S) → w1.store k = w.store k) ∧ w1.printed = s1.shown := by
  obtain ⟨hq, hne, htwo, hsc, hal, hokk⟩ := hr.ok [] (.into e v) ss rfl s (.nil s)
  have hag := hr.agree (.into e v) (by simp)
  simp only [jobsOf, VarScript.start] at hts
  by_cases hc : (Session.compiles py calls o order fuel e && !isUnion e) = true
  · simp only [hc, if_true, Option.map_eq_some_iff] at hts
    obtain ⟨ts', hj, rfl⟩ := hts
    simp only [Bool.and_eq_true, Bool.not_eq_true'] at hc
    obtain ⟨hc, hu⟩ := hc
    rw [compiles_calls py calls (functions image calls s.env)] at hc
    obtain ⟨⟨st1, bs⟩, he⟩ := exec_some py (functions image calls s.env) o order fuel en e hc w.store
    obtain ⟨m, hk, hb⟩ := TreeLemmas.exec_means text py (functions image calls s.env) o order fuel en hsym hperm ht htr hf hchunk e s.tables
      w.store st1 bs he hsc hal hokk hag.1 hag.2
    have m := m st1 fun _ _ => rfl
    obtain ⟨hbne, hbr⟩ := hb hq
    have hrows : headOf e = header e ∧ (header e).Nodup ∧ ∀ r ∈ collect st1 e bs, r.map (·.1) = header e := by
      obtain ⟨b, hbm⟩ := List.exists_mem_of_ne_nil bs hbne
      have hnd := (hbr b hbm).2.1
      rw [TreeLemmas.collect_answer st1 e bs hq hbne hbr]
      refine ⟨?_, hnd, ?_⟩
      · exact head_eq e hq hu
      · intro r hr
        obtain ⟨b, hb, hr⟩ := List.mem_flatMap.1 hr
        exact (hbr b hb).2.2 r hr
    obtain ⟨env', h1, h2, h3⟩ := into_single Val.null (headOf e) v (collect st1 e bs) w.env
    rw [hrows.1, shape_stored _ hne hrows.2.1 _ hrows.2.2] at h2
    refine ⟨.into e v, ts', { s with env := assign s.env v (stored (header e) (collect st1 e bs)) }, { w with env := env', store := st1 }, rfl, hj,
      ?_, ?_, ?_, .into s e v _ m, ?_, ?_, hr.shown⟩
    · simp only [VarScript.runJob, funcs_eq image calls himage w.env s.env hF, he, htwo, Bool.false_eq_true, if_false, h1]
    · intro k
      by_cases hkv : k = v
      · subst hkv
        simp only [held, vars, h2, assign, if_true]
      · have := hF k
        simp only [held, vars, assign, if_neg hkv] at this ⊢
        rw [h3 k hkv]
        exact this
    · intro k hkv
      simp only [assign, if_neg hkv]
    · intro k hk1 hst
      show st1 k = s.tables k
      rw [hk k hk1, hst]
    · intro k hk1 _
      exact hk k hk1
  · simp [hc] at hts

theorem execute_step {n : Nat} {w w1 : World} {j : Job S} {ts : List (Job S)} {l}
    (h : VarScript.runJob image two py calls o order fuel en j w = (w1, .done)) :
    Exec.execute (machine image two py calls o order fuel en filter prim) (n + 1) ⟨w, j :: ts, l⟩ =
      Exec.execute (machine image two py calls o order fuel en filter prim) n ⟨w1, ts, l ++ [(j, .done)]⟩ := by
  simp only [Exec.execute, Exec.step, machine, h]

/-- Statements without SET. -/
theorem tail_run (himage : ∀ v, image (.scalar v) = v)
    (hsym : ∀ a b, o.truthy (o.cmp .eq a b) = o.truthy (o.cmp .eq b a)) (hperm : ∀ l, (order l).Perm l)
    (ht : ∀ x y, en.le x y = true ∨ en.le y x = true)
    (htr : ∀ x y z, en.le x y = true → en.le y z = true → en.le x z = true) (hf : Faithful py en.src)
    (hchunk : ∀ l, (en.chunk l).flatMap (·.1) = l) (ss : List (Stmt S)) (hno : ∀ x ∈ ss, isSet x = false) (hord : Ordered ss)
    (s : SqlVarScript.State) (w : World) (hr : Ready image two text py calls o order fuel en filter prim minus ss s w)
    (C : Vars) (hF : ∀ k, held (vars w.env) k = held s.env k) (hC : ∀ x ∈ ss, ∀ k ∈ reads x, held (vars C) k = held s.env k)
    (ts : List (Job S)) (hts : jobsOf image py calls o order fuel filter prim C ss = some ts) (l) (n : Nat) (hn : ts.length < n) :
    ∃ s' w' l', Done image text py calls o en minus ss s w s' w' ∧
      Exec.execute (machine image two py calls o order fuel en filter prim) n ⟨w, ts, l⟩ = (⟨w', [], l'⟩, .returned) := by
  induction ss generalizing s w C ts l n with
  | nil =>
    simp only [jobsOf, Option.some.injEq] at hts
    subst hts
    obtain ⟨n, rfl⟩ : ∃ m, n = m + 1 := ⟨n - 1, by simp at hn; omega⟩
    exact ⟨s, w, l, ⟨.nil s, hr.shown, hF, fun _ _ h => h, fun _ _ => rfl⟩, rfl⟩
  | cons x ss ih =>
    obtain ⟨hox, hos⟩ := List.pairwise_cons.1 hord
    cases x with
    | plain x =>
      have hx : ∀ n v, x ≠ .set n v := fun n v e => by
        have := hno (.plain x) (by simp)
        rw [e] at this
        simp [isSet] at this
      obtain ⟨j, ts', s1, w1, rfl, hj, hrun, hw, hs, hstep, hk, hsm, hsh⟩ := plain_step image two text py calls o order fuel en filter prim minus
        himage hsym hperm ht htr hf hchunk x hx ss s w hr C (hC _ (by simp)) (.inr hF) ts hts
      obtain ⟨n, rfl⟩ : ∃ m, n = m + 1 := ⟨n - 1, by simp at hn; omega⟩
      obtain ⟨s', w', l', hd, he⟩ := ih (fun y hy => hno y (by simp [hy])) hos s1 w1
        (hr.next image two text py calls o order fuel en filter prim minus hstep hk hsm hsh) C
        (by rw [hw, hs]; exact hF) (fun y hy k hk => by rw [hs]; exact hC y (by simp [hy]) k hk) ts' hj (l ++ [(j, .done)]) n
        (by simp at hn; omega)
      exact ⟨s', w', l', hd.cons image text py calls o en minus hstep hk hsm,
        by rw [execute_step image two py calls o order fuel en filter prim hrun]; exact he⟩
    | into e v =>
      obtain ⟨j, ts', s1, w1, rfl, hj, hrun, hF1, hs1, hstep, hk, hsm, hsh⟩ := into_step image two text py calls o order fuel en filter prim minus
        himage hsym hperm ht htr hf hchunk e v ss s w hr C hF ts hts
      obtain ⟨n, rfl⟩ : ∃ m, n = m + 1 := ⟨n - 1, by simp at hn; omega⟩
      obtain ⟨s', w', l', hd, he⟩ := ih (fun y hy => hno y (by simp [hy])) hos s1 w1
        (hr.next image two text py calls o order fuel en filter prim minus hstep hk hsm hsh) (Into.start .null [v] C) hF1
        (fun y hy k hk => by
          have hkv : k ≠ v := fun e => (hox y hy).2 v (by simp [fills]) (e ▸ hk)
          rw [start_held, hC y (by simp [hy]) k hk, held, held, hs1 k hkv]) ts' hj (l ++ [(j, .done)]) n
        (by simp at hn; omega)
      exact ⟨s', w', l', hd.cons image text py calls o en minus hstep hk hsm,
        by rw [execute_step image two py calls o order fuel en filter prim hrun]; exact he⟩

theorem set_held (C : Vars) (env : Str → Option (Stored Val)) (h : ∀ k, held (vars C) k = held env k) (m : Str) (x : Stored Val) (k : Str) :
    held (vars (C.set m x)) k = held (assign env m x) k := by
  simp only [held, vars, assign, Verif.Dict.get?_set]
  by_cases hk : k = m
  · subst hk; simp
  · rw [if_neg (fun e => hk e.symm), if_neg hk]
    exact h k

/-- A script. -/
theorem script_run (himage : ∀ v, image (.scalar v) = v)
    (hsym : ∀ a b, o.truthy (o.cmp .eq a b) = o.truthy (o.cmp .eq b a)) (hperm : ∀ l, (order l).Perm l)
    (ht : ∀ x y, en.le x y = true ∨ en.le y x = true)
    (htr : ∀ x y z, en.le x y = true → en.le y z = true → en.le x z = true) (hf : Faithful py en.src)
    (hchunk : ∀ l, (en.chunk l).flatMap (·.1) = l) (ss : List (Stmt S)) (hord : Ordered ss)
    (s : SqlVarScript.State) (w : World) (hr : Ready image two text py calls o order fuel en filter prim minus ss s w)
    (C : Vars) (hC : ∀ k, held (vars C) k = held s.env k) (hw : w.env = envAfter image py calls o order fuel filter prim C ss)
    (ts : List (Job S)) (hts : jobsOf image py calls o order fuel filter prim C ss = some ts) (l) (n : Nat) (hn : ts.length < n) :
    ∃ s' w' l', Done image text py calls o en minus ss s w s' w' ∧
      Exec.execute (machine image two py calls o order fuel en filter prim) n ⟨w, ts, l⟩ = (⟨w', [], l'⟩, .returned) := by
  induction ss generalizing s w C ts l n with
  | nil =>
    exact tail_run image two text py calls o order fuel en filter prim minus himage hsym hperm ht htr hf hchunk [] (by simp) hord s w hr C
      (by rw [hw]; exact hC) (by simp) ts hts l n hn
  | cons x ss ih =>
    obtain ⟨hox, hos⟩ := List.pairwise_cons.1 hord
    by_cases hset : isSet x = true
    · match x, hset with
      | .plain (.set m v), _ =>
        simp only [jobsOf, VarScript.start, Option.map_eq_some_iff, List.nil_append] at hts
        obtain ⟨ts', hj, rfl⟩ := hts
        have hstep := Step.set (S := S) (image := image) (text := text) (cmp := py.cmp) (calls := calls) (le := en.le) (o := o) (minus := minus) s m v
        have hk : ∀ k, k ∉ binds (.plain (.set m v) : Stmt S) → w.store k = s.tables k → w.store k = s.tables k := fun _ _ h => h
        obtain ⟨s', w', l', hd, he⟩ := ih hos _ w
          (hr.next image two text py calls o order fuel en filter prim minus hstep hk (fun _ _ _ => rfl) hr.shown)
          (C.set m (.scalar v)) (set_held C s.env hC m (.scalar v)) hw ts' hj l n hn
        exact ⟨s', w', l', hd.cons image text py calls o en minus hstep hk (fun _ _ _ => rfl), he⟩
    · by_cases hval : isValues x = true
      · match x, hval with
        | .plain (.values t cols rows), hval =>
          obtain ⟨j, ts', s1, w1, rfl, hj, hrun, hw1, hs, hstep, hk, hsm, hsh⟩ := plain_step image two text py calls o order fuel en filter prim
            minus himage hsym hperm ht htr hf hchunk (.values t cols rows) (by intro n v e; cases e) ss s w hr C (fun k _ => hC k) (.inl hval) ts hts
          obtain ⟨n, rfl⟩ : ∃ m, n = m + 1 := ⟨n - 1, by simp at hn; omega⟩
          obtain ⟨s', w', l', hd, he⟩ := ih hos s1 w1
            (hr.next image two text py calls o order fuel en filter prim minus hstep hk hsm hsh) C
            (by rw [hs]; exact hC) (by rw [hw1, hw]; rfl) ts' hj (l ++ [(j, .done)]) n
            (by simp at hn; omega)
          exact ⟨s', w', l', hd.cons image text py calls o en minus hstep hk hsm,
            by rw [execute_step image two py calls o order fuel en filter prim hrun]; exact he⟩
      · have hno : ∀ y ∈ x :: ss, isSet y = false := by
          intro y hy
          rcases List.mem_cons.1 hy with rfl | hy
          · simpa using hset
          · cases h : isSet y with
            | false => rfl
            | true => rcases (hox y hy).1 h with h | h <;> contradiction
        exact tail_run image two text py calls o order fuel en filter prim minus himage hsym hperm ht htr hf hchunk (x :: ss) hno hord s w hr C
          (fun k => by rw [hw, envAfter_held image py calls o order fuel filter prim _ hno, hC]) (fun y _ k _ => hC k) ts hts l n hn

end
end Verif.Props.VarLemmas

namespace Verif.Props
open Verif.Val Verif.Expr Verif.Sql Verif.Where Verif.Select Verif.Tree Verif.SqlTree Verif.VarScript Verif.SqlVarScript
open Verif.Into (Stored)
open Verif.Props.VarLemmas

section
variable {S : Type} (image : Stored Val → Val) (two : Tree.Rel S → Bool) (text : Str → Bool) (py : Py) (calls : Str → List Val → Val)
  (o : Join.Ops Val) (order : List Join.Name → List Join.Name) (fuel : Nat) (en : Engine) (filter : Literal.Ty → Val → Val) (prim : Str → Bool)
  (minus : Val → Val)

/-- **C175**: SELECT … INTO is accepted just when the same SELECT is accepted by itself and is no UNION (142-143). -/
theorem C175_into_accepted (e : Tree.Rel S) (v : Str) (w : World) :
    (Exec.run (machine image two py calls o order fuel en filter prim) ⟨w, [], []⟩ [.into e v]).2 = true ↔
      ((Exec.run (machine image two py calls o order fuel en filter prim) ⟨w, [], []⟩ [.plain (.query e)]).2 = true ∧ ¬ IsUnion e) := by
  rw [← isUnion_iff, Bool.not_eq_true]
  simp only [Exec.run, machine, VarScript.start, Session.start]
  cases Session.compiles py calls o order fuel e <;> cases isUnion e <;> simp

/-- C175: a script whose statements read and assign variables: when the whole script compiles, executing it ends normally, whatever the
number of statements, and does what SQL says when the statements are done one after the other, each SELECT with the values the variables
have then: the same values in the variables, the same shown results, the same rows in the tables.  Missing (`_partial`): SETs must stand
before what reads variables when it runs (`C175_set_after_violated`), VALUES must not insert what an INTO before them assigns
(`C175_values_violated`), INTO needs queries of one pass (C174), names of WITH are used once (C164), and the hypotheses of C164. -/
theorem C175_script_partial (himage : ∀ v, image (.scalar v) = v)
    (hsym : ∀ a b, o.truthy (o.cmp .eq a b) = o.truthy (o.cmp .eq b a)) (hperm : ∀ l, (order l).Perm l)
    (ht : ∀ x y, en.le x y = true ∨ en.le y x = true)
    (htr : ∀ x y z, en.le x y = true → en.le y z = true → en.le x z = true) (hf : Faithful py en.src)
    (hchunk : ∀ l, (en.chunk l).flatMap (·.1) = l) (ss : List (Stmt S)) (w : World) (x : Exec.State World (Job S))
    (hrun : Exec.run (machine image two py calls o order fuel en filter prim) ⟨w, [], []⟩ ss = (x, true)) (hord : Ordered ss)
    (hok : ∀ pre st post, ss = pre ++ st :: post →
      ∀ s', Steps image text py.cmp calls en.le o minus ⟨fun n => w.env.get? n, w.store, w.printed⟩ pre s' →
        StmtOk image two text py calls o order fuel en filter prim minus s' st)
    (hsep : Separate ss) (hnew : ∀ st ∈ ss, ∀ n ∈ binds st, w.store n = []) (n : Nat) (hn : x.runners.length < n) :
    ∃ s' y, Steps image text py.cmp calls en.le o minus ⟨fun n => w.env.get? n, w.store, w.printed⟩ ss s' ∧
      Exec.execute (machine image two py calls o order fuel en filter prim) n x = (y, .returned) ∧ y.runners = [] ∧
      y.world.printed = s'.shown ∧ (∀ v, held (fun n => y.world.env.get? n) v = held s'.env v) ∧
      ∀ k, (∀ st ∈ ss, k ∉ binds st) → y.world.store k = s'.tables k := by
  obtain ⟨ts, hts, rfl⟩ := run_jobs image two py calls o order fuel en filter prim ss w [] [] x hrun
  obtain ⟨s', w', l', ⟨h1, h2, h3, h4, _⟩, he⟩ := script_run image two text py calls o order fuel en filter prim minus himage hsym hperm ht htr
    hf hchunk ss hord ⟨fun n => w.env.get? n, w.store, w.printed⟩
    { w with env := envAfter image py calls o order fuel filter prim w.env ss }
    ⟨hok, hsep, fun st hst => ⟨fun _ _ => rfl, hnew st hst⟩, rfl⟩ w.env (fun _ => rfl) rfl ts hts [] n (by simpa using hn)
  exact ⟨s', _, h1, he, rfl, h2, h3, fun k hk => h4 k hk rfl⟩

theorem VarLemmas.steps_append {ss rest : List (Stmt S)} {s s1 s2 : SqlVarScript.State}
    (h1 : Steps image text py.cmp calls en.le o minus s ss s1) (h2 : Steps image text py.cmp calls en.le o minus s1 rest s2) :
    Steps image text py.cmp calls en.le o minus s (ss ++ rest) s2 := by
  induction h1 with
  | nil s => exact h2
  | cons s s' s'' x xs hstep _ ih => exact .cons s s' s2 x _ hstep (ih h2)

theorem VarLemmas.runAll_run (himage : ∀ v, image (.scalar v) = v)
    (hsym : ∀ a b, o.truthy (o.cmp .eq a b) = o.truthy (o.cmp .eq b a)) (hperm : ∀ l, (order l).Perm l)
    (ht : ∀ x y, en.le x y = true ∨ en.le y x = true)
    (htr : ∀ x y z, en.le x y = true → en.le y z = true → en.le x z = true) (hf : Faithful py en.src)
    (hchunk : ∀ l, (en.chunk l).flatMap (·.1) = l) (scripts : List (List (Stmt S))) (hord : ∀ ss ∈ scripts, Ordered ss)
    (s : SqlVarScript.State) (w w' : World) (n : Nat)
    (hr : Ready image two text py calls o order fuel en filter prim minus scripts.flatten s w)
    (hF : ∀ k, held (vars w.env) k = held s.env k) (hrun : runAll image two py calls o order fuel en filter prim n w scripts = some w') :
    ∃ s', Done image text py calls o en minus scripts.flatten s w s' w' := by
  induction scripts generalizing s w with
  | nil =>
    simp only [runAll, Option.some.injEq] at hrun
    subst hrun
    exact ⟨s, .nil s, hr.shown, hF, fun _ _ h => h, fun _ _ => rfl⟩
  | cons ss rest ih =>
    rw [runAll] at hrun
    rcases hx : Exec.run (machine image two py calls o order fuel en filter prim) ⟨w, [], []⟩ ss with ⟨x, b⟩
    rw [hx] at hrun
    cases b with
    | false => simp at hrun
    | true =>
      simp only at hrun
      obtain ⟨ts, hts, rfl⟩ := run_jobs image two py calls o order fuel en filter prim ss w [] [] x hx
      simp only [List.flatten_cons] at hr ⊢
      have hsep := List.pairwise_append.1 hr.separate
      have hgo : ∀ m, ts.length < m → ∃ s1 w1 l1, Done image text py calls o en minus ss s
          { w with env := envAfter image py calls o order fuel filter prim w.env ss } s1 w1 ∧
          Exec.execute (machine image two py calls o order fuel en filter prim) m
            ⟨{ w with env := envAfter image py calls o order fuel filter prim w.env ss }, [] ++ ts, []⟩ = (⟨w1, [], l1⟩, .returned) :=
        fun m hm => script_run image two text py calls o order fuel en filter prim minus himage hsym hperm ht htr
          hf hchunk ss (hord ss (by simp)) s { w with env := envAfter image py calls o order fuel filter prim w.env ss }
          ⟨fun pre y post he s' hs' => hr.ok pre y (post ++ rest.flatten) (by rw [he]; simp) s' hs', hsep.1,
            fun y hy => hr.agree y (by simp [hy]), hr.shown⟩ w.env hF rfl ts hts [] m hm
      have hy : ∃ s1 w1 l1, Done image text py calls o en minus ss s
          { w with env := envAfter image py calls o order fuel filter prim w.env ss } s1 w1 ∧
          Exec.execute (machine image two py calls o order fuel en filter prim) n
            ⟨{ w with env := envAfter image py calls o order fuel filter prim w.env ss }, [] ++ ts, []⟩ = (⟨w1, [], l1⟩, .returned) := by
        by_cases hn : ts.length < n
        · exact hgo n hn
        · exfalso
          have few : ∀ (m : Nat) (z : Exec.State World (Job S)), m ≤ z.runners.length →
              (Exec.execute (machine image two py calls o order fuel en filter prim) m z).2 ≠ .returned := by
            intro m
            induction m with
            | zero => intro z _ h; simp [Exec.execute] at h
            | succ m ihm =>
              intro z hz
              rw [Exec.execute]
              rcases z with ⟨zw, zr, zl⟩
              cases zr with
              | nil => simp at hz
              | cons j zr =>
                simp only [Exec.step]
                rcases hz' : (machine image two py calls o order fuel en filter prim).run j zw with ⟨w2, out⟩
                cases out with
                | done => exact ihm _ (by simpa using hz)
                | again => exact ihm _ (by simp at hz ⊢; omega)
                | fail => simp
          have := few n ⟨{ w with env := envAfter image py calls o order fuel filter prim w.env ss }, [] ++ ts, []⟩ (by simpa using hn)
          rcases hz : Exec.execute (machine image two py calls o order fuel en filter prim) n
            ⟨{ w with env := envAfter image py calls o order fuel filter prim w.env ss }, [] ++ ts, []⟩ with ⟨z, st⟩
          rw [hz] at this hrun
          cases st <;> simp_all
      obtain ⟨s1, w1, l1, ⟨d1, d2, d3, d4, d5⟩, he⟩ := hy
      rw [he] at hrun
      have hagree : Agree rest.flatten w1.store s1.tables := by
        intro y hy
        obtain ⟨ha, hb⟩ := hr.agree y (by simp [hy])
        have hap := fun z hz => hsep.2.2 z hz y hy
        refine ⟨fun k hk => d4 k (fun z hz hc => ((hap z hz).1 k hc).1 hk) (ha k hk), fun k hk => ?_⟩
        rw [d5 k fun z hz => ⟨((hap z hz).2 k hk).2, ((hap z hz).2 k hk).1⟩]
        exact hb k hk
      obtain ⟨s', e1, e2, e3, e4, e5⟩ := ih (fun y hy => hord y (by simp [hy])) s1 w1
        ⟨fun pre y post hpre s' hs' => hr.ok (ss ++ pre) y post (by rw [hpre]; simp) s' (steps_append image text py calls o en minus d1 hs'),
          hsep.2.1, hagree, d2⟩ d3 hrun
      refine ⟨s', steps_append image text py calls o en minus d1 e1, e2, e3, fun k hk hst => ?_, fun k hk => ?_⟩
      · exact e4 k (fun y hy => hk y (by simp only [List.mem_append]; exact .inr hy)) (d4 k (fun y hy => hk y (by simp [hy])) hst)
      · rw [e5 k fun y hy => hk y (by simp only [List.mem_append]; exact .inr hy)]
        exact d5 k fun y hy => hk y (by simp [hy])

/-- C175: scripts given one after the other to the same executor (calls of `execute`, inputs at the prompt, files): when none fails, they
do what SQL says for all their statements in order.  Missing (`_partial`): as for `C175_script_partial`, within each script. -/
theorem C175_scripts_partial (himage : ∀ v, image (.scalar v) = v)
    (hsym : ∀ a b, o.truthy (o.cmp .eq a b) = o.truthy (o.cmp .eq b a)) (hperm : ∀ l, (order l).Perm l)
    (ht : ∀ x y, en.le x y = true ∨ en.le y x = true)
    (htr : ∀ x y z, en.le x y = true → en.le y z = true → en.le x z = true) (hf : Faithful py en.src)
    (hchunk : ∀ l, (en.chunk l).flatMap (·.1) = l) (scripts : List (List (Stmt S))) (w w' : World) (n : Nat)
    (hrun : runAll image two py calls o order fuel en filter prim n w scripts = some w') (hord : ∀ ss ∈ scripts, Ordered ss)
    (hok : ∀ pre st post, scripts.flatten = pre ++ st :: post →
      ∀ s', Steps image text py.cmp calls en.le o minus ⟨fun n => w.env.get? n, w.store, w.printed⟩ pre s' →
        StmtOk image two text py calls o order fuel en filter prim minus s' st)
    (hsep : Separate scripts.flatten) (hnew : ∀ st ∈ scripts.flatten, ∀ n ∈ binds st, w.store n = []) :
    ∃ s', Steps image text py.cmp calls en.le o minus ⟨fun n => w.env.get? n, w.store, w.printed⟩ scripts.flatten s' ∧
      w'.printed = s'.shown ∧ (∀ v, held (fun n => w'.env.get? n) v = held s'.env v) ∧
      ∀ k, (∀ st ∈ scripts.flatten, k ∉ binds st) → w'.store k = s'.tables k := by
  obtain ⟨s', h1, h2, h3, h4, _⟩ := runAll_run image two text py calls o order fuel en filter prim minus himage hsym hperm ht htr hf hchunk
    scripts hord ⟨fun n => w.env.get? n, w.store, w.printed⟩ w w' n
    ⟨hok, hsep, fun st hst => ⟨fun _ _ => rfl, hnew st hst⟩, rfl⟩ (fun _ => rfl) hrun
  exact ⟨s', h1, h2, h3, fun k hk => h4 k hk rfl⟩

/-- C175: statements given one at a time may stand in any order.  Missing (`_partial`): INTO needs queries of one pass (C174), names of
WITH are used once (C164), and the hypotheses of C164. -/
theorem C175_one_at_a_time_partial (himage : ∀ v, image (.scalar v) = v)
    (hsym : ∀ a b, o.truthy (o.cmp .eq a b) = o.truthy (o.cmp .eq b a)) (hperm : ∀ l, (order l).Perm l)
    (ht : ∀ x y, en.le x y = true ∨ en.le y x = true)
    (htr : ∀ x y z, en.le x y = true → en.le y z = true → en.le x z = true) (hf : Faithful py en.src)
    (hchunk : ∀ l, (en.chunk l).flatMap (·.1) = l) (ss : List (Stmt S)) (w w' : World) (n : Nat)
    (hrun : runAll image two py calls o order fuel en filter prim n w (ss.map ([·])) = some w')
    (hok : ∀ pre st post, ss = pre ++ st :: post →
      ∀ s', Steps image text py.cmp calls en.le o minus ⟨fun n => w.env.get? n, w.store, w.printed⟩ pre s' →
        StmtOk image two text py calls o order fuel en filter prim minus s' st)
    (hsep : Separate ss) (hnew : ∀ st ∈ ss, ∀ n ∈ binds st, w.store n = []) :
    ∃ s', Steps image text py.cmp calls en.le o minus ⟨fun n => w.env.get? n, w.store, w.printed⟩ ss s' ∧
      w'.printed = s'.shown ∧ (∀ v, held (fun n => w'.env.get? n) v = held s'.env v) ∧
      ∀ k, (∀ st ∈ ss, k ∉ binds st) → w'.store k = s'.tables k := by
  have hfl : (ss.map ([·])).flatten = ss := by
    have : ∀ l : List (Stmt S), (l.map ([·])).flatten = l := by
      intro l
      induction l with
      | nil => rfl
      | cons x l ih => rw [List.map_cons, List.flatten_cons, ih]; rfl
    exact this ss
  have := C175_scripts_partial image two text py calls o order fuel en filter prim minus himage hsym hperm ht htr hf hchunk (ss.map ([·])) w w' n hrun
    (by
      intro x hx
      obtain ⟨y, _, rfl⟩ := List.mem_map.1 hx
      simp [Ordered])
  rw [hfl] at this
  exact this hok hsep hnew

end
end Verif.Props
