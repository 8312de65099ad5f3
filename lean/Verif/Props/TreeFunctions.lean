import Verif.Props.Functions
import Verif.Props.Tree
import Verif.Spec.TreeFunctions
/-!
The functions of SQL in statements with joins, window functions and subqueries, C185.
-/
namespace Verif.Props
open Verif.Val Verif.Text Verif.SqlFunctions

namespace FunctionsLemmas
open Verif.Expr Verif.Sql Verif.Select Verif.SqlSelect Verif.WinSelect Verif.SqlWindow
variable {same : Char → Char → Bool} {text : Str → Bool} {cf cg : Cmp → Val → Val → Val} {f g : Str → List Val → Val}

theorem all_same {α : Type} {p p' : α → Bool} : ∀ (l : List α), (∀ x ∈ l, p x = p' x) → l.all p = l.all p'
  | [], _ => rfl
  | x :: l, h => by
    simp only [List.all_cons]
    rw [h x (by simp), all_same l fun y hy => h y (by simp [hy])]

theorem filterMap_same {α β : Type} {p p' : α → Option β} (l : List α) (h : ∀ x, p x = p' x) : l.filterMap p = l.filterMap p' := by
  rw [funext h]

section
variable {S : Type} {q : Select.Query S} {rows : List Row} (h : SameOn text cf cg f g q rows)
include h

theorem joinRows_same {le : Val → Val → Bool} {out : List Out} (hr : JoinRowResult text cf f le q rows out) :
    JoinRowResult text cg g le q rows out := by
  obtain ⟨sorted, hs, rfl⟩ := hr
  have hp : ∀ r ∈ rows, project text cf f q.cols [r] = project text cg g q.cols [r] := fun r hr =>
    project_same h [r] fun r' h' => by simp only [List.mem_singleton] at h'; subst h'; exact hr
  have hfil : (rows.filter fun r => satisfies text cf f q.cond r && satisfies text cf f q.having (fun n => colVal n (project text cf f q.cols [r]))) =
      rows.filter fun r => satisfies text cg g q.cond r && satisfies text cg g q.having (fun n => colVal n (project text cg g q.cols [r])) := by
    refine List.filter_congr fun r hr => ?_
    rw [cond_same h r hr, hp r hr, having_same h [r] fun r' h' => by simp only [List.mem_singleton] at h'; subst h'; exact hr]
  refine ⟨sorted, ?_, ?_⟩
  · simp only [hfil] at hs ⊢
    refine sorted_congr le q.order _ _ (fun i => i.2) _ sorted ?_ hs
    intro i _ a ha
    have ha' := (List.mem_filter.1 ha).1
    obtain ⟨i, d⟩ := i
    rcases i with ⟨_ | t, n⟩ | _ | c <;> simp only [SqlOrder.value, hp a ha']
  · congr 1
    refine List.map_congr_left fun r hr => (hp r ?_).symm ▸ rfl
    have := hs.perm.mem_iff.1 hr
    exact (List.mem_filter.1 this).1

theorem joinQuery_same {le : Val → Val → Bool} {out : List Out} (hr : SqlTree.JoinQueryResult text cf f le q rows out) :
    SqlTree.JoinQueryResult text cg g le q rows out := by
  unfold SqlTree.JoinQueryResult at hr ⊢
  split at hr
  · rename_i c; rw [if_pos c]; exact grouped_same h hr
  · rename_i c; rw [if_neg c]
    split at hr
    · rename_i c; rw [if_pos c]; exact distinct_same h hr
    · rename_i c; rw [if_neg c]; exact joinRows_same h hr
end

section
variable {S : Type} {q : WinSelect.Query S} {rows rows' : List Row} {le : Val → Val → Bool}

theorem key_same {r : Row} {k : GKey} (h : ∀ e, k = .expr e → sem text cf f r e = sem text cg g r e) :
    keyValue text cf f r k = keyValue text cg g r k := by
  cases k with
  | bare c => rfl
  | expr e => exact h e rfl

theorem argument_same {r : Row} : ∀ {a : Args}, (∀ l, a = .exprs l → ∀ e ∈ l, sem text cf f r e = sem text cg g r e) →
    argument text cf f r a = argument text cg g r a
  | .star, _ => rfl
  | .exprs [], _ => rfl
  | .exprs [e], h => by simp only [argument]; rw [h _ rfl e (by simp)]
  | .exprs (a :: b :: l), h => by
    simp only [argument]
    rw [List.map_congr_left (h _ rfl)]

theorem value_same {w : WinSelect.Win S} {i : Nat} {v : Val} {windows : List (Str × Over)} 
    (h : ∀ r ∈ rows', (∀ l, w.args = .exprs l → ∀ e ∈ l, sem text cf f r e = sem text cg g r e) ∧
      ∀ ov, windowOf windows w ov → (∀ e, GKey.expr e ∈ ov.part → sem text cf f r e = sem text cg g r e) ∧
        ∀ e d, (GKey.expr e, d) ∈ ov.order → sem text cf f r e = sem text cg g r e)
    (hv : WindowValue text cf f le windows w rows' i v) : WindowValue text cg g le windows w rows' i v := by
  obtain ⟨ov, part, pos, ho, hs, hp, hm⟩ := hv
  have hmem : ∀ {j : Nat} {r : Row}, rows'[j]? = some r → r ∈ rows' := fun h => List.mem_of_getElem? h
  have hord : ∀ k ∈ ov.order, ∀ r ∈ rows', keyValue text cf f r k.1 = keyValue text cg g r k.1 := by
    intro k hk r hr
    obtain ⟨k, d⟩ := k
    exact key_same fun e he => ((h r hr).2 ov ho).2 e d (by subst he; exact hk)
  have hpart : ∀ k ∈ ov.part, ∀ r ∈ rows', keyValue text cf f r k = keyValue text cg g r k := by
    intro k hk r hr
    exact key_same fun e he => ((h r hr).2 ov ho).1 e (by subst he; exact hk)
  have e1 : windowKeys text cf f ov rows' = windowKeys text cg g ov rows' := by
    unfold windowKeys
    refine List.map_congr_left fun k hk => ?_
    rw [Prod.mk.injEq]
    refine ⟨funext fun j => ?_, rfl⟩
    cases hj : rows'[j]? with
    | none => rfl
    | some r => exact hord k hk r (hmem hj)
  have e2 : partition text cf f ov rows' i = partition text cg g ov rows' i := by
    unfold partition
    refine List.filter_congr fun j _ => all_same _ fun k hk => ?_
    have e : ∀ j : Nat, (rows'[j]?).map (fun r => Agg.keyOf (keyValue text cf f r k)) =
        (rows'[j]?).map fun r => Agg.keyOf (keyValue text cg g r k) := fun j => by
      cases hj : rows'[j]? with
      | none => rfl
      | some r => exact congrArg (fun v => some (Agg.keyOf v)) (hpart k hk r (hmem hj))
    rw [e j, e i]
  have e3 : ∀ r ∈ rows', argument text cf f r w.args = argument text cg g r w.args := fun r hr => argument_same (h r hr).1
  have e4 : ∀ r ∈ rows', orderValues text cf f ov r = orderValues text cg g ov r := fun r hr => by
    unfold orderValues
    split
    · rfl
    · exact List.map_congr_left fun k hk => hord k hk r hr
  rw [e1, e2] at hs
  refine ⟨ov, part, pos, ho, hs, hp, ?_⟩
  cases hfn : w.fn with
  | win F =>
    rw [hfn] at hm
    simp only [] at hm ⊢
    rw [hm]
    congr 1
    refine filterMap_same _ fun j => ?_
    cases hj : rows'[j]? with
    | none => rfl
    | some r =>
      simp only [Option.map_some]
      rw [e3 r (hmem hj), e4 r (hmem hj)]
  | agg A =>
    rw [hfn] at hm
    simp only [] at hm ⊢
    obtain ⟨frame, h1, h2, h3⟩ := hm
    rw [e1] at h2
    refine ⟨frame, h1, h2, h3.trans ?_⟩
    congr 1
    refine filterMap_same _ fun j => ?_
    cases hj : rows'[j]? with
    | none => rfl
    | some r =>
      simp only [Option.map_some]
      rw [e3 r (hmem hj)]

theorem win_value (hf : Both same cf f) (hg : Both same cg g) (hq : WinWithin same text cg g le q rows)
    (hsub : ∀ r ∈ rows', r ∈ rows) {w : WinSelect.Win S} (hw : WinOf q w) {i : Nat} {v : Val}
    (hv : WindowValue text cf f le q.windows w rows' i v) : WindowValue text cg g le q.windows w rows' i v := by
  refine value_same (fun r hr => ⟨fun l hl e he => ?_, fun ov ho => ⟨fun e he => ?_, fun e d he => ?_⟩⟩) hv
  · exact sem_within hf hg r e (hq.window w hw e (.arg hl he) r (hsub r hr))
  · exact sem_within hf hg r e (hq.window w hw e (.part ho he) r (hsub r hr))
  · exact sem_within hf hg r e (hq.window w hw e (.order ho he) r (hsub r hr))

theorem isRow_within (hf : Both same cf f) (hg : Both same cg g) (hq : WinWithin same text cg g le q rows)
    (hsub : ∀ r ∈ rows', r ∈ rows) {i : Nat} {r : Row} {o : Out} (hi : rows'[i]? = some r) (h : IsRow text cf f le q rows' i r o) :
    IsRow text cg g le q rows' i r o := by
  refine ⟨h.names, fun c hc => ?_⟩
  have hv := h.values c hc
  obtain ⟨n, it⟩ := c
  simp only [] at hv ⊢
  have hr := hsub r (List.mem_of_getElem? hi)
  cases it with
  | expr e => exact hv.trans (sem_within hf hg r e (hq.column n e hc r hr))
  | win w => exact win_value hf hg hq hsub (.column hc) hv
  | «calc» ws e =>
    obtain ⟨vs, h1, h2, h3⟩ := hv
    have h2' : ∀ p ∈ List.zip ws vs, WindowValue text cg g le q.windows p.1.2 rows' i p.2.2 := fun p hp =>
      win_value hf hg hq hsub (.part (k := p.1.1) hc (List.of_mem_zip (a := p.1) (b := p.2) hp).1) (h2 p hp)
    exact ⟨vs, h1, h2', h3.trans (sem_within hf hg _ e (hq.calculation n ws e hc rows' i r vs hsub hi h1 h2'))⟩

theorem win_within {out : List Out} (hf : Both same cf f) (hg : Both same cg g) (hq : WinWithin same text cg g le q rows)
    (h : WinResult text cf f le q rows out) : WinResult text cg g le q rows out := by
  obtain ⟨rows', outs, sorted, h1, h2, h3, h4, h5, rfl⟩ := h
  have hc : rows.filter (satisfies text cf f q.cond) = rows.filter (satisfies text cg g q.cond) :=
    List.filter_congr fun r hr => by
      unfold satisfies
      split
      · rfl
      · rename_i e he
        rw [sem_within hf hg r e (hq.cond e he r hr)]
  rw [hc] at h1 h2
  have hsub : ∀ r ∈ rows', r ∈ rows := fun r hr => (List.mem_filter.1 (h1.mem_iff.1 hr)).1
  have h4' : ∀ (i : Nat) r o, rows'[i]? = some r → outs[i]? = some o → IsRow text cg g le q rows' i r o :=
    fun i r o hi ho => isRow_within hf hg hq hsub hi (h4 i r o hi ho)
  refine ⟨rows', outs, sorted, h1, h2, h3, h4', ?_, rfl⟩
  have e : ((List.range rows'.length).filter fun i => satisfies text cf f q.having fun n => colVal n (outs[i]?.getD [])) =
      (List.range rows'.length).filter fun i => satisfies text cg g q.having fun n => colVal n (outs[i]?.getD []) := by
    refine List.filter_congr fun i hi => ?_
    rw [List.mem_range] at hi
    have hi' : i < outs.length := by omega
    unfold satisfies
    split
    · rfl
    · rename_i e he
      rw [sem_within hf hg _ e (hq.having e he rows' i rows'[i] _ hsub (List.getElem?_eq_getElem hi)
        (h4' i rows'[i] _ (List.getElem?_eq_getElem hi) (by rw [List.getElem?_eq_getElem hi']; rfl)))]
  rw [e] at h5
  exact h5

end

section
variable {S : Type} {le : Val → Val → Bool} {o : Join.Ops Val}

theorem kind_within (hf : Both same cf f) (hg : Both same cg g) (rows : List Row) (others : List (List Row)) (out : List Out)
    (k : Tree.Kind S) (hk : KindWithin same text cg g le o rows others k) (h : SqlTree.KindResult text cf f le o rows others out k) :
    SqlTree.KindResult text cg g le o rows others out k := by
  cases k with
  | plain q => exact query_within hf hg hk h
  | joined joins q => exact joinQuery_same (within_same hf hg hk) h
  | comma ts w q => exact joinQuery_same (within_same hf hg hk) h
  | windowed q => exact win_within hf hg hk h
  | sub w k => exact h
  | hav w k => exact h

theorem select_within (hf : Both same cf f) (hg : Both same cg g) (rows : List Row) (heads : List (List Str))
    (others : List (List Row)) (out : List Out) (k : Tree.Kind S)
    (hk : KindWithin same text cg g le o rows others (filled heads others k))
    (h : SqlTree.SelectResult text cf f le o rows heads others out k) :
    SqlTree.SelectResult text cg g le o rows heads others out k := by
  cases k with
  | plain q => exact kind_within hf hg _ _ _ _ hk h
  | joined joins q => exact kind_within hf hg _ _ _ _ hk h
  | comma ts w q => exact kind_within hf hg _ _ _ _ hk h
  | windowed q => exact kind_within hf hg _ _ _ _ hk h
  | sub w k => exact ⟨h.1, kind_within hf hg _ _ _ _ hk h.2⟩
  | hav w k => exact ⟨h.1, h.2.1, kind_within hf hg _ _ _ _ hk h.2.2⟩

mutual
theorem means_within_tree (hf : Both same cf f) (hg : Both same cg g) (e : Tree.Rel S) (env : Str → List Out) (out : List Out)
    (hw : TreeWithin same text cg g le o env e) (h : SqlTree.Means text cf f le o env e out) :
    SqlTree.Means text cg g le o env e out := by
  match e with
  | .scan t => simpa only [SqlTree.Means] using h
  | .select k src more =>
    simp only [SqlTree.Means] at h ⊢
    simp only [TreeWithin] at hw
    obtain ⟨rows, others, h1, h2, h3⟩ := h
    have h1' := means_within_tree hf hg src env rows hw.1 h1
    have h2' := means_within_trees hf hg more env others hw.2.1 h2
    exact ⟨rows, others, h1', h2', select_within hf hg _ _ _ _ k (hw.2.2 rows others h1' h2') h3⟩
  | .union l r =>
    simp only [SqlTree.Means] at h ⊢
    simp only [TreeWithin] at hw
    obtain ⟨a, b, h1, h2, h3⟩ := h
    exact ⟨a, b, means_within_tree hf hg l env a hw.1 h1, means_within_tree hf hg r env b hw.2 h2, h3⟩
  | .withq n d b =>
    simp only [SqlTree.Means] at h ⊢
    simp only [TreeWithin] at hw
    obtain ⟨rows, h1, h2⟩ := h
    have h1' := means_within_tree hf hg d env rows hw.1 h1
    exact ⟨rows, h1', means_within_tree hf hg b _ out (hw.2 rows h1') h2⟩
theorem means_within_trees (hf : Both same cf f) (hg : Both same cg g) (l : Tree.Rels S) (env : Str → List Out)
    (outs : List (List Out)) (hw : TreesWithin same text cg g le o env l) (h : SqlTree.MeansAll text cf f le o env l outs) :
    SqlTree.MeansAll text cg g le o env l outs := by
  match l with
  | .nil => simpa only [SqlTree.MeansAll] using h
  | .cons e l =>
    simp only [SqlTree.MeansAll] at h ⊢
    simp only [TreesWithin] at hw
    obtain ⟨out, rest, h1, h2, h3⟩ := h
    exact ⟨out, rest, means_within_tree hf hg e env out hw.1 h1, means_within_trees hf hg l env rest hw.2 h2, h3⟩
end
end
end FunctionsLemmas

section
open Verif.Expr Verif.Sql Verif.Where Verif.Select Verif.SqlSelect Verif.Tree Verif.SqlTree FunctionsLemmas
open Verif.Nest (Store)
open Verif.Props.TreeLemmas (Ok)
variable (py : Py) (same : Char → Char → Bool) (other : Str → List Val → Val) {S : Type} (text : Str → Bool) (o : Join.Ops Val)
  (order : List Join.Name → List Join.Name) (fuel : Nat)

/-- **C185**: so does a statement with joins (and functions in WHERE and the select list there), window functions (in their arguments,
PARTITION BY, ORDER BY and around them), subqueries in FROM, WHERE and HAVING, UNION ALL and WITH, to any depth. -/
theorem C185_tree_partial (cmp : Cmp → Val → Val → Val) (hcmp : ImplementsCmp cmp) (sql : Str → List Val → Val) (hsql : Implements same sql)
    (hsym : ∀ a b, o.truthy (o.cmp .eq a b) = o.truthy (o.cmp .eq b a)) (hperm : ∀ l, (order l).Perm l)
    (en : Engine) (ht : ∀ x y, en.le x y = true ∨ en.le y x = true)
    (htr : ∀ x y z, en.le x y = true → en.le y z = true → en.le x z = true) (hf : Faithful py en.src)
    (hchunk : ∀ l, (en.chunk l).flatMap (·.1) = l) (e : Tree.Rel S) (db : Store) (out : List Out)
    (h : Tree.result py (Call.sqlCalls py same other) o order fuel en db e = some out) (hs : SqlTree.Scoped e) (ha : SqlTree.Aligned e)
    (hok : Ok text py (Call.sqlCalls py same other) o order fuel en db e) (hfresh : ∀ n ∈ SqlTree.bound e, db n = [])
    (hw : TreeWithin same text cmp sql en.le o db e) : SqlTree.Means text cmp sql en.le o db e out :=
  means_within_tree ⟨C185_implements py same other, C185_implements_comparisons py⟩ ⟨hsql, hcmp⟩ e db out hw
    (C155_statement_partial text py (Call.sqlCalls py same other) o order fuel hsym hperm en ht htr hf hchunk e db out h hs ha hok hfresh)

end
end Verif.Props
