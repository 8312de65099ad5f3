import Verif.Props.JoinInner
import Verif.Props.SelectDistinct
/-! C136: SELECT DISTINCT with joins as a whole. -/
namespace Verif.Props
open Verif.Val Verif.Expr Verif.Sql Verif.Where Verif.Order Verif.SqlOrder Verif.Select Verif.SqlSelect Verif.Proofs.JoinSelect

section
variable {S : Type} (text : Str → Bool) (py : Py) (calls : Str → List Val → Val)

/-- **C136**: SELECT DISTINCT with LEFT JOINs returns every row of the result once, in the order of ORDER BY, and of these the part LIMIT
and OFFSET ask for; when each row of the primary table has at most one match in each joined table. -/
theorem C136_left_distinct_partial (o : Join.Ops Val) (hsym : ∀ a b, o.truthy (o.cmp .eq a b) = o.truthy (o.cmp .eq b a))
    (order : List Join.Name → List Join.Name) (hperm : ∀ l, (order l).Perm l) (fuel : Nat) (db : Join.Name → List (Join.Row Val))
    (en : Engine) (ht : ∀ x y, en.le x y = true ∨ en.le y x = true)
    (htr : ∀ x y z, en.le x y = true → en.le y z = true → en.le x z = true) (hf : Faithful py en.src)
    (hchunk : ∀ l, (en.chunk l).flatMap (·.1) = l) (q : Query S)
    (joins : List (Join.Join Val)) (hj : JoinsOk o (String.ofList q.table) joins) (p : JoinSelect.Plan (Join.C Val) S)
    (hp : JoinSelect.compile py calls o order fuel joins q = some p) (hcols : ∀ c ∈ q.cols, ∃ e, c.2 = .expr e ∧ scalarOk e = true)
    (hnames : (q.cols.map (·.1)).Nodup) (hne : q.cols ≠ []) (hg : q.group = []) (hd : q.distinct = true) (hl : q.limit ≠ some 0)
    (hlim : q.limit = none ∨ p.predicate.isSome ∨ p.intercept.isSome ∨ p.sort.isSome) (rows : List Row)
    (h1 : OneMatch o (String.ofList q.table) db joins rows)
    (hw : WhereOk text py calls { q with prim := JoinSelect.isPrim } (joinedRows o (String.ofList q.table) db joins rows))
    (hh : ∀ e ∈ q.having, havingOk e = true)
    (hdist : Distinguishable text py calls q (joinedRows o (String.ofList q.table) db joins rows)) (ho : JoinGroupOrderOk q) :
    DistinctResult text py.cmp calls en.le q (joinedRows o (String.ofList q.table) db joins rows) (JoinSelect.run py calls o db en p rows) := by
  obtain ⟨p0, en', hp0, hsrc, hle, -, hch, ⟨e1, e2, e3⟩, hrun⟩ :=
    Proofs.JoinSelect.run_eq py calls o hsym order hperm fuel db en q joins hj p hp ho.plain rows
  rw [hrun]
  rw [joinedRows_eq o _ db joins hj.left rows h1] at hw hdist ⊢
  rw [e1, e2, e3] at hlim
  have hres := C59_distinct_partial text py calls en' (by rw [hle]; exact ht) (by rw [hle]; exact htr) (by rw [hsrc]; exact hf)
    (hch hchunk) (overJoined q) p0 hp0 hcols hnames hne hg hd hl hlim _ ⟨hw.tests, hw.shape, hw.swaps, hw.typed⟩ hh hdist
    ⟨fun t n d hm => by
        obtain ⟨⟨i, d'⟩, hi, he⟩ := List.mem_map.1 hm
        simp only [Prod.mk.injEq] at he
        obtain ⟨hc, hu⟩ := conv_col q.table i _ _ he.1
        rw [hc, hu t rfl] at hi
        exact ho.primary n d' hi,
      fun n d hm => by
        obtain ⟨⟨i, d'⟩, hi, he⟩ := List.mem_map.1 hm
        simp only [Prod.mk.injEq] at he
        obtain ⟨hc, -⟩ := conv_col q.table i _ _ he.1
        rw [hc] at hi
        exact ho.bare n d' hi⟩
  obtain ⟨sorted, m1, m2, m3, m4⟩ := hres
  refine ⟨sorted, m1, m2, ?_, m4⟩
  rw [hle] at m3
  simp only [overJoined, flat, List.map_map] at m3
  have hkeys : (q.order.map ((fun i => (outValue i.1, i.2)) ∘ fun i => (conv q.table i.1, i.2))) = q.order.map fun i => (outValue i.1, i.2) := by
    refine List.map_congr_left fun i _ => ?_
    obtain ⟨i, d⟩ := i
    refine Prod.ext ?_ rfl
    funext r
    cases i with
    | expr x => rfl
    | col t n =>
      cases t with
      | none => rfl
      | some t =>
        simp only [Function.comp, conv]
        split <;> rfl
  rw [← hkeys]
  exact m3

/-- **C136** for INNER JOINs. -/
theorem C136_inner_distinct_partial (o : Join.Ops Val) (hsym : ∀ a b, o.truthy (o.cmp .eq a b) = o.truthy (o.cmp .eq b a))
    (order : List Join.Name → List Join.Name) (hperm : ∀ l, (order l).Perm l) (fuel : Nat) (db : Join.Name → List (Join.Row Val))
    (en : Engine) (ht : ∀ x y, en.le x y = true ∨ en.le y x = true)
    (htr : ∀ x y z, en.le x y = true → en.le y z = true → en.le x z = true) (hf : Faithful py en.src)
    (hchunk : ∀ l, (en.chunk l).flatMap (·.1) = l) (q : Query S)
    (joins : List (Join.Join Val)) (hj : InnerOk o (String.ofList q.table) joins) (p : JoinSelect.Plan (Join.C Val) S)
    (hp : JoinSelect.compileJoins py calls o order fuel joins q = some p) (hcols : ∀ c ∈ q.cols, ∃ e, c.2 = .expr e ∧ scalarOk e = true)
    (hnames : (q.cols.map (·.1)).Nodup) (hne : q.cols ≠ []) (hg : q.group = []) (hd : q.distinct = true) (hl : q.limit ≠ some 0)
    (hlim : q.limit = none ∨ p.predicate.isSome ∨ p.intercept.isSome ∨ p.sort.isSome) (rows : List Row)
    (h1 : OneMatch o (String.ofList q.table) db (asLeft joins) rows)
    (hw : WhereOk text py calls { q with prim := JoinSelect.isPrim } (joinedRows o (String.ofList q.table) db (asLeft joins) rows))
    (hh : ∀ e ∈ q.having, havingOk e = true)
    (hdist : Distinguishable text py calls q (joinedRows o (String.ofList q.table) db (asLeft joins) rows)) (ho : JoinGroupOrderOk q) :
    DistinctResult text py.cmp calls en.le q (joinedRows o (String.ofList q.table) db joins rows) (JoinSelect.run py calls o db en p rows) := by
  rw [compile_inner py calls hj] at hp
  have hfilter := filter_joined o (String.ofList q.table) db joins hj.inner hj.linked hj.strict (innerOk_scoped (o := o) hj.left.names)
    (innerOk_known hj) hj.plain rows (satisfies text py.cmp calls q.cond)
  obtain ⟨sorted, m1, m2, m3, m4⟩ := C136_left_distinct_partial text py calls o hsym order hperm fuel db en ht htr hf hchunk
    { q with cond := JoinSelect.innerWhere q.cond (Join.innerFields (String.ofList q.table) joins) } (asLeft joins) hj.left p hp hcols hnames
    hne hg hd hl hlim rows h1 (whereOk_inner text py calls { q with prim := JoinSelect.isPrim } _ _ hw) hh hdist
    ⟨ho.plain, ho.primary, ho.joined, ho.bare⟩
  refine ⟨sorted, m1, fun out => (m2 out).trans ?_, m3, m4⟩
  have key : ∀ r, (r ∈ joinedRows o (String.ofList q.table) db (asLeft joins) rows ∧
      satisfies text py.cmp calls (JoinSelect.innerWhere q.cond (Join.innerFields (String.ofList q.table) joins)) r = true) ↔
      (r ∈ joinedRows o (String.ofList q.table) db joins rows ∧ satisfies text py.cmp calls q.cond r = true) := by
    intro r
    rw [← List.mem_filter (p := satisfies text py.cmp calls q.cond), ← hfilter, List.mem_filter,
      satisfies_inner text py calls q.cond _ (innerOk_fields hj)]
  constructor
  · rintro ⟨r, hr, hs, hrest⟩
    obtain ⟨k1, k2⟩ := (key r).1 ⟨hr, hs⟩
    exact ⟨r, k1, k2, hrest⟩
  · rintro ⟨r, hr, hs, hrest⟩
    obtain ⟨k1, k2⟩ := (key r).2 ⟨hr, hs⟩
    exact ⟨r, k1, k2, hrest⟩

end
end Verif.Props
