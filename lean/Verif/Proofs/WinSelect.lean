import Verif.Spec.WinSelect
import Verif.Proofs.Select
/-! Lemmas for C65: the value of a window function in a row. -/
namespace Verif.WinSelect
open Verif.Val Verif.Expr Verif.Sql Verif.Where Verif.Order Verif.Select Verif.Props Verif.SqlSelect Verif.SqlWindow Verif.GroupSpec Verif.SqlOrder

/-! ### An expression depends on its columns only -/

section
variable (text : Str → Bool) (cmp : Cmp → Val → Val → Val) (calls : Str → List Val → Val) (f g : Str → Val)

mutual
theorem sem_congr : ∀ (e : E), (∀ c ∈ colsE e, f c = g c) → sem text cmp calls f e = sem text cmp calls g e
  | .lit _, _ => by simp [sem]
  | .col c, h => by simp only [sem]; exact h c (by simp [colsE])
  | .cmp op a b, h => by
    simp only [colsE, List.mem_append] at h
    simp only [sem]; rw [sem_congr a fun c hc => h c (Or.inl hc), sem_congr b fun c hc => h c (Or.inr hc)]
  | .and a b, h => by
    simp only [colsE, List.mem_append] at h
    simp only [sem]; rw [sem_congr a fun c hc => h c (Or.inl hc), sem_congr b fun c hc => h c (Or.inr hc)]
  | .or a b, h => by
    simp only [colsE, List.mem_append] at h
    simp only [sem]; rw [sem_congr a fun c hc => h c (Or.inl hc), sem_congr b fun c hc => h c (Or.inr hc)]
  | .not a, h => by simp only [colsE] at h; simp only [sem]; rw [sem_congr a h]
  | .is a k, h => by simp only [colsE] at h; cases k <;> simp only [sem] <;> rw [sem_congr a h]
  | .inl a l, h => by
    simp only [colsE, List.mem_append] at h
    simp only [sem]; rw [sem_congr a fun c hc => h c (Or.inl hc), semL_congr l fun c hc => h c (Or.inr hc)]
  | .between a lo hi, h => by
    simp only [colsE, List.mem_append] at h
    simp only [sem]
    rw [sem_congr a fun c hc => h c (Or.inl (Or.inl hc)), sem_congr lo fun c hc => h c (Or.inl (Or.inr hc)),
      sem_congr hi fun c hc => h c (Or.inr hc)]
  | .paren a, h => by simp only [colsE] at h; simp only [sem]; rw [sem_congr a h]
  | .ite c t e, h => by
    simp only [colsE, List.mem_append] at h
    simp only [sem]
    rw [sem_congr c fun x hx => h x (Or.inl (Or.inl hx)), sem_congr t fun x hx => h x (Or.inl (Or.inr hx)),
      sem_congr e fun x hx => h x (Or.inr hx)]
  | .ifnull a b, h => by
    simp only [colsE, List.mem_append] at h
    simp only [sem]; rw [sem_congr a fun c hc => h c (Or.inl hc), sem_congr b fun c hc => h c (Or.inr hc)]
  | .coalesce a l, h => by
    simp only [colsE, List.mem_append] at h
    simp only [sem]; rw [sem_congr a fun c hc => h c (Or.inl hc), semL_congr l fun c hc => h c (Or.inr hc)]
  | .caseC ws, h => by simp only [colsE] at h; simp only [sem]; rw [semW_congr ws h]
  | .caseV a ws, h => by
    simp only [colsE, List.mem_append] at h
    simp only [sem]; rw [sem_congr a fun c hc => h c (Or.inl hc), semW_congr ws fun c hc => h c (Or.inr hc)]
  | .call n l, h => by simp only [colsE] at h; simp only [sem]; rw [semL_congr l h]
theorem semL_congr : ∀ (l : EL), (∀ c ∈ colsEL l, f c = g c) → semL text cmp calls f l = semL text cmp calls g l
  | .nil, _ => by simp [semL]
  | .cons e l, h => by
    simp only [colsEL, List.mem_append] at h
    simp only [semL]; rw [sem_congr e fun c hc => h c (Or.inl hc), semL_congr l fun c hc => h c (Or.inr hc)]
theorem semW_congr : ∀ (l : WL), (∀ c ∈ colsWL l, f c = g c) → ∀ {v}, semW text cmp calls f v l = semW text cmp calls g v l
  | .noElse, _, v => by simp [semW]
  | .els e, h, v => by simp only [colsWL] at h; simp only [semW]; rw [sem_congr e h]
  | .when c t ws, h, v => by
    simp only [colsWL, List.mem_append] at h
    simp only [semW]
    rw [sem_congr c fun x hx => h x (Or.inl (Or.inl hx)), sem_congr t fun x hx => h x (Or.inl (Or.inr hx)),
      semW_congr ws fun x hx => h x (Or.inr hx)]
end
end

/-! ### Putting values back -/

theorem valueAt_append (i : Nat) (a b : List (Nat × Val)) :
    valueAt i (a ++ b) = if i ∈ a.map (·.1) then valueAt i a else valueAt i b := by
  induction a with
  | nil => simp [valueAt]
  | cons e a ih =>
    obtain ⟨j, v⟩ := e
    rw [List.cons_append, valueAt]
    by_cases h : j = i
    · simp [h, valueAt]
    · have h' : ¬ i = j := fun e => h e.symm
      simp only [if_neg h, ih, List.map_cons, List.mem_cons, h', false_or, valueAt]

theorem valueAt_flatMap {κ : Type} (i : Nat) (ks : List κ) (f : κ → List (Nat × Val)) (k : κ) (hk : k ∈ ks)
    (h : ∀ k' ∈ ks, i ∈ (f k').map (·.1) → k' = k) (hi : i ∈ (f k).map (·.1)) :
    valueAt i (ks.flatMap f) = valueAt i (f k) := by
  induction ks with
  | nil => simp at hk
  | cons k' ks ih =>
    rw [List.flatMap_cons, valueAt_append]
    split
    · rename_i h'
      rw [h k' (by simp) h']
    · rename_i h'
      have hne : k ≠ k' := by
        rintro rfl
        exact h' hi
      exact ih ((List.mem_cons.1 hk).resolve_left hne) fun k'' hk'' => h k'' (by simp [hk''])

theorem valueAt_mem (l : List (Nat × Val)) (hn : (l.map (·.1)).Nodup) (i : Nat) (v : Val) (h : (i, v) ∈ l) : valueAt i l = v := by
  induction l with
  | nil => simp at h
  | cons e l ih =>
    obtain ⟨j, w⟩ := e
    simp only [List.map_cons, List.nodup_cons] at hn
    rw [valueAt]
    rcases List.mem_cons.1 h with h | h
    · cases h; simp
    · rw [if_neg]
      · exact ih hn.2 h
      · rintro rfl
        exact hn.1 (List.mem_map.2 ⟨_, h, rfl⟩)

variable {S : Type}

theorem map_fst_mapIdx {α : Type} (l : List (Nat × α)) (g : Nat → Nat × α → Val) :
    (l.mapIdx fun i c => (c.1, g i c)).map (·.1) = l.map (·.1) := by
  apply List.ext_getElem?
  intro i
  simp only [List.getElem?_map, List.getElem?_mapIdx, Option.map_map]
  rfl

theorem partValues_fst (fn : Fn S) (b : Bool) (cells : List Cell) : (partValues fn b cells).map (·.1) = cells.map (·.1) := by
  cases fn with
  | win f => simp only [partValues]; exact map_fst_mapIdx cells _
  | agg A =>
    simp only [partValues]
    split
    · exact map_fst_mapIdx cells _
    · rw [List.map_map]; rfl

/-! ### The partitions -/

section
variable (text : Str → Bool) (py : Py) (calls : Str → List Val → Val)

/-- A key as a column of the table. -/
def keyT0 : GKey → T
  | .bare c => .col c
  | .expr e => compile e

/-- The key is an expression in the scope of C31. -/
def keyOk : GKey → Bool
  | .bare _ => true
  | .expr e => scalarOk e

/-- `t` is `w` compiled as SQL reads it, `o` its window. -/
structure WinOk (windows : List (Str × Over)) (w : Win S) (o : Over) (t : WinT S) : Prop where
  fn : t.fn = w.fn
  over : windowOf windows w o
  part : t.part = o.part.map keyT0
  order : t.order = o.order.map fun k => (keyT0 k.1, k.2)
  args : t.args = argsT w.args
  partOk : ∀ k ∈ o.part, keyOk k = true
  orderOk : ∀ k ∈ o.order, keyOk k.1 = true
  argsOk : ∀ l, w.args = .exprs l → ∀ e ∈ l, scalarOk e = true

theorem eval_keyT0 (r : Row) (k : GKey) (h : keyOk k = true) : eval py calls r (keyT0 k) = keyValue text py.cmp calls r k := by
  cases k with
  | bare c => rfl
  | expr e => exact C31_value_partial text py calls r e h

variable {windows : List (Str × Over)} {w : Win S} {o : Over} {t : WinT S}

theorem keyVal_part (h : WinOk windows w o t) (r : Row) :
    keyVal py calls t.part r = o.part.map fun k => Agg.keyOf (keyValue text py.cmp calls r k) := by
  rw [keyVal, h.part, List.map_map]
  refine List.map_congr_left fun k hk => ?_
  simp only [Function.comp]
  rw [eval_keyT0 text py calls r k (h.partOk k hk)]

theorem orderOf_eq (h : WinOk windows w o t) (r : Row) : orderOf py calls t.order r = orderValues text py.cmp calls o r := by
  rw [orderOf, orderValues, h.order]
  by_cases he : o.order = []
  · simp [he]
  · rw [if_neg he, if_neg (by simpa using he), List.map_map]
    refine List.map_congr_left fun k hk => ?_
    simp only [Function.comp]
    rw [eval_keyT0 text py calls r k.1 (h.orderOk k hk)]

theorem argOf_eq (h : WinOk windows w o t) (r : Row) : argOf py calls t.args r = argument text py.cmp calls r w.args := by
  rw [h.args]
  cases ha : w.args with
  | star => rfl
  | exprs l =>
    have hl := h.argsOk l ha
    match l, hl with
    | [], _ => rfl
    | [e], hl =>
      simp only [argsT, List.map_cons, List.map_nil, argOf, argument]
      rw [C31_value_partial text py calls r e (hl e (by simp))]
    | e :: e' :: l, hl =>
      simp only [argsT, List.map_cons, argOf, argument]
      rw [C31_value_partial text py calls r e (hl e (by simp)), C31_value_partial text py calls r e' (hl e' (by simp)), List.map_map]
      congr 3
      refine List.map_congr_left fun x hx => ?_
      exact C31_value_partial text py calls r x (hl x (by simp [hx]))

/-- The cell of a position. -/
def cellAt (t : WinT S) (rows : List Row) (j : Nat) : Cell :=
  let r := rows[j]?.getD fun _ => .null
  (j, orderOf py calls t.order r, argOf py calls t.args r)

/-- The partition key of a position. -/
def keyAt (t : WinT S) (rows : List Row) (j : Nat) : List (Option Agg.Key) :=
  keyVal py calls t.part (rows[j]?.getD fun _ => .null)

theorem cells_eq (t : WinT S) (rows : List Row) :
    (rows.mapIdx fun i r => (keyVal py calls t.part r, i, orderOf py calls t.order r, argOf py calls t.args r)) =
      (List.range rows.length).map fun j => (keyAt py calls t rows j, cellAt py calls t rows j) := by
  apply List.ext_getElem?
  intro i
  simp only [List.getElem?_map, List.getElem?_mapIdx]
  by_cases hi : i < rows.length
  · simp [hi, keyAt, cellAt]
  · simp [hi]

theorem group_cells (t : WinT S) (rows : List Row) (k : List (Option Agg.Key)) :
    group k ((List.range rows.length).map fun j => (keyAt py calls t rows j, cellAt py calls t rows j)) =
      ((List.range rows.length).filter fun j => decide (keyAt py calls t rows j = k)).map (cellAt py calls t rows) := by
  rw [group, List.filter_map, List.map_map]
  rfl

theorem partition_eq (h : WinOk windows w o t) (rows : List Row) (i : Nat) (hi : i < rows.length) :
    ((List.range rows.length).filter fun j => decide (keyAt py calls t rows j = keyAt py calls t rows i)) =
      partition text py.cmp calls o rows i := by
  rw [partition]
  refine List.filter_congr fun j hj => ?_
  rw [List.mem_range] at hj
  rw [Bool.eq_iff_iff, decide_eq_true_iff, List.all_eq_true]
  simp only [keyAt, keyVal_part text py calls h, List.map_inj_left, decide_eq_true_eq]
  simp [hi, hj]

/-- `#partition`, as a table of groups. -/
theorem winValues_eq (le : Val → Val → Bool) (t : WinT S) (rows : List Row) :
    winValues py calls le t rows =
      (firsts ((List.range rows.length).map (keyAt py calls t rows))).flatMap fun k =>
        let cells := ((List.range rows.length).filter fun j => decide (keyAt py calls t rows j = k)).map (cellAt py calls t rows)
        partValues t.fn (!t.order.isEmpty)
          (if t.order.isEmpty then cells else isort (fun a b => leKeys le (t.order.map (·.2)) a.2.1 b.2.1) cells) := by
  have key : ∀ l : List (List (Option Agg.Key) × Cell),
      l.foldl (fun t c => Reduce.upsert [] (· ++ [c.2]) c.1 t) [] = (firsts (l.map (·.1))).map fun k => (k, group k l) := by
    intro l
    have hspec := Reduce.tableOf_spec (κ := List (Option Agg.Key)) ([] : List Cell) (fun s c => s ++ [c]) l
    have hfold : ∀ (m : List Cell) (a : List Cell), m.foldl (fun s c => s ++ [c]) a = a ++ m := by
      intro m
      induction m with
      | nil => simp
      | cons c m ih => intro a; rw [List.foldl_cons, ih]; simp
    have hext := Reduce.table_ext (Reduce.tableOf ([] : List Cell) (fun s c => s ++ [c]) l)
      (by rw [hspec.1]; exact Reduce.nodup_firsts _) (fun k => group k l) (by
        intro k hk
        rw [hspec.2 k, if_pos, hfold]
        · simp
        · rw [hspec.1, Reduce.mem_firsts] at hk; exact hk)
    rw [hspec.1] at hext
    exact hext
  simp only [winValues]
  rw [cells_eq, key, List.map_map]
  simp only [List.flatMap_map, Function.comp_def, group_cells]

theorem leKeys_iff (le : Val → Val → Bool) (ht : ∀ x y, le x y = true ∨ le y x = true) (h : WinOk windows w o t) (rows : List Row)
    (i j : Nat) (hi : i < rows.length) (hj : j < rows.length) (ho : o.order ≠ []) :
    leKeys le (t.order.map (·.2)) (cellAt py calls t rows i).2.1 (cellAt py calls t rows j).2.1 = true ↔
      Le le (windowKeys text py.cmp calls o rows) i j := by
  simp only [cellAt, orderOf_eq text py calls h, orderValues, if_neg ho]
  have ho2 : t.order.map (·.2) = o.order.map (·.2) := by rw [h.order, List.map_map]; rfl
  rw [ho2, windowKeys]
  simp only [List.getElem?_eq_getElem hi, List.getElem?_eq_getElem hj, Option.getD_some]
  generalize o.order = ks
  induction ks with
  | nil => simp [leKeys, Le]
  | cons k ks ih =>
    obtain ⟨g, d⟩ := k
    simp only [List.map_cons, leKeys, Le, Bool.or_eq_true, Bool.and_eq_true, ih, List.getElem?_eq_getElem hi,
      List.getElem?_eq_getElem hj]
    generalize keyValue text py.cmp calls rows[i] g = x
    generalize keyValue text py.cmp calls rows[j] g = y
    have := ht x y
    have := ht y x
    cases d
    · simp only [Bool.false_eq_true, if_false]
      cases h1 : le x y <;> cases h2 : le y x <;> simp_all
    · simp only [if_true]
      cases h1 : le x y <;> cases h2 : le y x <;> simp_all

end

/-- The stable sort by a relation that is the order of the keys sorts. -/
theorem isort_of_le {α V : Type} {le : V → V → Bool} (ht : ∀ x y, le x y = true ∨ le y x = true)
    (htr : ∀ x y z, le x y = true → le y z = true → le x z = true) (keys : List ((α → V) × Bool)) (r : α → α → Bool)
    (hr : ∀ a b, r a b = true ↔ Le le keys a b) (l : List α) : Sorted le keys l (isort r l) where
  perm := perm_isort _ _
  ascending := by
    refine (sorted_isort r (fun a b => ?_) (fun a b c h h' => ?_) l).imp fun h => (hr _ _).1 h
    · rw [hr, hr]; exact Verif.Props.le_total ht _ a b
    · rw [hr] at h h' ⊢
      exact Verif.Props.le_trans htr _ a b c h h'
  stable := fun p hp => filter_isort _ p (fun a b ha hb => (hr a b).2 (hp a b ha hb)) l

theorem isort_congr {α : Type} (r r' : α → α → Bool) (l : List α) (h : ∀ a ∈ l, ∀ b ∈ l, r a b = r' a b) : isort r l = isort r' l := by
  have ins : ∀ (a : α) (m : List α), (∀ b ∈ m, r a b = r' a b) → insertBy r a m = insertBy r' a m := by
    intro a m
    induction m with
    | nil => intro _; rfl
    | cons b m ih =>
      intro hm
      simp only [insertBy, hm b (by simp)]
      rw [ih fun c hc => hm c (by simp [hc])]
  induction l with
  | nil => rfl
  | cons a l ih =>
    rw [isort, isort, ih fun x hx y hy => h x (by simp [hx]) y (by simp [hy])]
    exact ins a _ fun b hb => h a (by simp) b (by simp [(perm_isort r' l).mem_iff.1 hb])


/-! ### The value of a window function in a row -/

section
variable (text : Str → Bool) (py : Py) (calls : Str → List Val → Val)
variable {windows : List (Str × Over)} {w : Win S} {o : Over} {t : WinT S}

/-- No two rows of the partition of `i` are peers, unless the window has no ORDER BY. -/
def NoPeers (cmp : Cmp → Val → Val → Val) (le : Val → Val → Bool) (o : Over) (rows : List Row) (i : Nat) : Prop :=
  o.order = [] ∨ ∀ j ∈ partition text cmp calls o rows i, Le le (windowKeys text cmp calls o rows) j i →
    Le le (windowKeys text cmp calls o rows) i j → j = i

/-- The positions of the partition of `i`, in the order of the window. -/
def sortedPart (le : Val → Val → Bool) (t : WinT S) (rows : List Row) (i : Nat) : List Nat :=
  let p := (List.range rows.length).filter fun j => decide (keyAt py calls t rows j = keyAt py calls t rows i)
  if t.order.isEmpty then p
  else isort (fun a b => leKeys le (t.order.map (·.2)) (cellAt py calls t rows a).2.1 (cellAt py calls t rows b).2.1) p

theorem sortedPart_perm (le : Val → Val → Bool) (t : WinT S) (rows : List Row) (i : Nat) :
    (sortedPart py calls le t rows i).Perm ((List.range rows.length).filter fun j => decide (keyAt py calls t rows j = keyAt py calls t rows i)) := by
  rw [sortedPart]
  split
  · exact List.Perm.refl _
  · exact perm_isort _ _

theorem sortedPart_nodup (le : Val → Val → Bool) (t : WinT S) (rows : List Row) (i : Nat) : (sortedPart py calls le t rows i).Nodup :=
  (sortedPart_perm py calls le t rows i).nodup_iff.2 (List.nodup_range.filter _)

theorem sortedPart_sorted (le : Val → Val → Bool) (ht : ∀ x y, le x y = true ∨ le y x = true)
    (htr : ∀ x y z, le x y = true → le y z = true → le x z = true) (h : WinOk windows w o t) (rows : List Row) (i : Nat)
    (hi : i < rows.length) :
    Sorted le (windowKeys text py.cmp calls o rows) (partition text py.cmp calls o rows i) (sortedPart py calls le t rows i) := by
  rw [sortedPart, ← partition_eq text py calls h rows i hi]
  by_cases ho : o.order = []
  · have : t.order.isEmpty = true := by rw [h.order, ho]; rfl
    rw [if_pos this, windowKeys, ho]
    refine ⟨List.Perm.refl _, ?_, fun _ _ => rfl⟩
    exact List.pairwise_of_forall (fun _ _ => by simp [Le])
  · have : ¬ t.order.isEmpty = true := by rw [h.order]; simpa using ho
    rw [if_neg this]
    classical
    rw [isort_congr _ (fun a b => decide (Le le (windowKeys text py.cmp calls o rows) a b))]
    · exact isort_of_le ht htr _ _ (fun a b => decide_eq_true_iff) _
    · intro a ha b hb
      rw [Bool.eq_iff_iff, decide_eq_true_iff]
      rw [List.mem_filter, List.mem_range] at ha hb
      exact leKeys_iff text py calls le ht h rows a b ha.1 hb.1 ho

theorem mem_sortedPart_self (le : Val → Val → Bool) (t : WinT S) (rows : List Row) (i : Nat) (hi : i < rows.length) :
    i ∈ sortedPart py calls le t rows i :=
  (sortedPart_perm py calls le t rows i).mem_iff.2 (by simp [hi])

theorem valueAt_winValues (le : Val → Val → Bool) (t : WinT S) (rows : List Row) (i : Nat) (hi : i < rows.length) :
    valueAt i (winValues py calls le t rows) =
      valueAt i (partValues t.fn (!t.order.isEmpty) ((sortedPart py calls le t rows i).map (cellAt py calls t rows))) := by
  rw [winValues_eq]
  have hfst : ∀ k, ((partValues t.fn (!t.order.isEmpty)
          (if t.order.isEmpty then ((List.range rows.length).filter fun j => decide (keyAt py calls t rows j = k)).map (cellAt py calls t rows)
            else isort (fun a b => leKeys le (t.order.map (·.2)) a.2.1 b.2.1)
              (((List.range rows.length).filter fun j => decide (keyAt py calls t rows j = k)).map (cellAt py calls t rows)))).map (·.1)).Perm
        ((List.range rows.length).filter fun j => decide (keyAt py calls t rows j = k)) := by
    intro k
    rw [partValues_fst]
    have h0 : (((List.range rows.length).filter fun j => decide (keyAt py calls t rows j = k)).map (cellAt py calls t rows)).map (·.1)
        = ((List.range rows.length).filter fun j => decide (keyAt py calls t rows j = k)) := by
      rw [List.map_map]
      exact List.map_id _
    split
    · rw [h0]
    · have := (perm_isort (fun a b => leKeys le (t.order.map (·.2)) a.2.1 b.2.1)
        (((List.range rows.length).filter fun j => decide (keyAt py calls t rows j = k)).map (cellAt py calls t rows))).map (·.1)
      rwa [h0] at this
  rw [valueAt_flatMap i _ _ (keyAt py calls t rows i)]
  · congr 2
    rw [sortedPart]
    dsimp only
    split
    · rfl
    · rw [← map_isort]
  · rw [Reduce.mem_firsts]
    exact List.mem_map.2 ⟨i, by simpa using hi, rfl⟩
  · intro k' _ hm
    have := (hfst k').mem_iff.1 hm
    simp only [List.mem_filter, decide_eq_true_eq] at this
    exact this.2.symm
  · exact (hfst _).mem_iff.2 (by simp [hi])

theorem window_value (le : Val → Val → Bool) (ht : ∀ x y, le x y = true ∨ le y x = true)
    (htr : ∀ x y z, le x y = true → le y z = true → le x z = true) (h : WinOk windows w o t) (rows : List Row) (i : Nat)
    (hi : i < rows.length) (hties : ∀ A, w.fn = .agg A → NoPeers text calls py.cmp le o rows i) :
    WindowValue text py.cmp calls le windows w rows i (valueAt i (winValues py calls le t rows)) := by
  rw [valueAt_winValues py calls le t rows i hi]
  have hS := sortedPart_sorted text py calls le ht htr h rows i hi
  have hnd := sortedPart_nodup py calls le t rows i
  have hrange : ∀ j ∈ sortedPart py calls le t rows i, j < rows.length := by
    intro j hj
    have := (sortedPart_perm py calls le t rows i).mem_iff.1 hj
    simp only [List.mem_filter, List.mem_range] at this
    exact this.1
  obtain ⟨pos, hpos⟩ := List.getElem?_of_mem (mem_sortedPart_self py calls le t rows i hi)
  generalize hpart : sortedPart py calls le t rows i = part at *
  refine ⟨o, part, pos, h.over, hS, hpos, ?_⟩
  have hposlt : pos < part.length := (List.getElem?_eq_some_iff.1 hpos).1
  have hcell : ∀ l : List Nat, (∀ j ∈ l, j < rows.length) →
      (l.map (cellAt py calls t rows)).map (·.2) = l.filterMap fun j => (rows[j]?).map fun r =>
        (orderValues text py.cmp calls o r, argument text py.cmp calls r w.args) := by
    intro l hl
    induction l with
    | nil => rfl
    | cons j l ih =>
      have hj := hl j (by simp)
      simp only [List.map_cons, List.filterMap_cons, List.getElem?_eq_getElem hj, Option.map_some]
      rw [ih fun x hx => hl x (by simp [hx])]
      simp only [cellAt, List.getElem?_eq_getElem hj, Option.getD_some, orderOf_eq text py calls h, argOf_eq text py calls h]
  have harg : ∀ l : List Nat, (∀ j ∈ l, j < rows.length) →
      (l.map (cellAt py calls t rows)).map (fun c => argVal c.2.2) = l.filterMap fun j => (rows[j]?).map fun r =>
        argVal (argument text py.cmp calls r w.args) := by
    intro l hl
    induction l with
    | nil => rfl
    | cons j l ih =>
      have hj := hl j (by simp)
      simp only [List.map_cons, List.filterMap_cons, List.getElem?_eq_getElem hj, Option.map_some]
      rw [ih fun x hx => hl x (by simp [hx])]
      simp only [cellAt, List.getElem?_eq_getElem hj, Option.getD_some, argOf_eq text py calls h]
  have hmem : ∀ v, (i, v) ∈ partValues t.fn (!t.order.isEmpty) (part.map (cellAt py calls t rows)) →
      valueAt i (partValues t.fn (!t.order.isEmpty) (part.map (cellAt py calls t rows))) = v := by
    intro v hv
    refine valueAt_mem _ ?_ i v hv
    rw [partValues_fst, List.map_map]
    have : ((fun x : Cell => x.1) ∘ cellAt py calls t rows) = id := rfl
    rw [this, List.map_id]
    exact hnd
  rw [h.fn] at hmem ⊢
  cases hfn : w.fn with
  | win f =>
    simp only
    rw [hfn] at hmem
    refine hmem _ ?_
    rw [← hcell part hrange]
    simp only [partValues]
    refine List.mem_of_getElem? (i := pos) ?_
    rw [List.getElem?_mapIdx, List.getElem?_map, hpos]
    rfl
  | agg A =>
    simp only
    rw [hfn] at hmem
    by_cases ho : o.order = []
    · have hoe : t.order.isEmpty = true := by rw [h.order, ho]; rfl
      refine ⟨part, List.Sublist.refl _, ?_, ?_⟩
      · intro j hj
        simp [hj, windowKeys, ho, Le]
      · refine hmem _ ?_
        rw [hoe, ← harg part hrange]
        simp only [partValues, Bool.not_true, Bool.false_eq_true, if_false]
        refine List.mem_of_getElem? (i := pos) ?_
        rw [List.getElem?_map, List.getElem?_map, hpos]
        rfl
    · have hoe : t.order.isEmpty = false := by
        rw [h.order]
        cases hh : o.order with
        | nil => exact absurd hh ho
        | cons _ _ => rfl
      have hnp := (hties A hfn).resolve_left ho
      refine ⟨part.take (pos + 1), List.take_sublist _ _, ?_, ?_⟩
      · intro j hj
        have hjp : j ∈ partition text py.cmp calls o rows i := hS.perm.mem_iff.1 hj
        obtain ⟨x, hx, rfl⟩ := List.getElem_of_mem hj
        have hi' : part[pos] = i := (List.getElem?_eq_some_iff.1 hpos).2
        have hasc := List.pairwise_iff_getElem.1 hS.ascending
        constructor
        · intro hm
          obtain ⟨y, hy, hyx⟩ := List.getElem_of_mem hm
          rw [List.getElem_take] at hyx
          have hyp : y < pos + 1 := by simp only [List.length_take] at hy; omega
          have hyl : y < part.length := by simp only [List.length_take] at hy; omega
          rw [← hyx]
          rcases Nat.lt_or_ge y pos with hlt | hge
          · have := hasc y pos hyl hposlt hlt
            rwa [hi'] at this
          · have : y = pos := by omega
            subst this
            rw [hi']
            exact (Verif.Props.le_total ht _ i i).elim id id
        · intro hle
          rcases Nat.lt_or_ge pos x with hlt | hge
          · have h2 := hasc pos x hposlt hx hlt
            rw [hi'] at h2
            have := hnp _ hjp hle h2
            rw [← hi'] at this
            exact absurd this.symm (List.pairwise_iff_getElem.1 hnd pos x hposlt hx hlt)
          · refine List.mem_of_getElem? (i := x) ?_
            rw [List.getElem?_take, if_pos (by omega), List.getElem?_eq_getElem hx]
      · refine hmem _ ?_
        rw [← harg (part.take (pos + 1)) fun j hj => hrange j (List.mem_of_mem_take hj)]
        simp only [partValues, hoe, Bool.not_false, if_true]
        refine List.mem_of_getElem? (i := pos) ?_
        rw [List.getElem?_mapIdx, List.getElem?_map, hpos]
        simp only [Option.map_some, List.map_take]
        rfl

end

end Verif.WinSelect
