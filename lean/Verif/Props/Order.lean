import Verif.Spec.Order
/-! C55: ORDER BY. -/
namespace Verif.Props
open Verif.Order Verif.SqlOrder

section
variable {α V : Type} {le : V → V → Bool}

theorem perm_insertBy (r : α → α → Bool) (a : α) (l : List α) : (insertBy r a l).Perm (a :: l) := by
  induction l with
  | nil => exact List.Perm.refl _
  | cons b l ih =>
    rw [insertBy]
    split
    · exact List.Perm.refl _
    · exact (List.Perm.cons b ih).trans (List.Perm.swap a b l)

theorem perm_isort (r : α → α → Bool) (l : List α) : (isort r l).Perm l := by
  induction l with
  | nil => exact List.Perm.refl _
  | cons a l ih => exact (perm_insertBy r a _).trans (List.Perm.cons a ih)

theorem sorted_insertBy (r : α → α → Bool) (ht : ∀ a b, r a b = true ∨ r b a = true)
    (htr : ∀ a b c, r a b = true → r b c = true → r a c = true) (a : α) (l : List α) (h : l.Pairwise (r · ·)) :
    (insertBy r a l).Pairwise (r · ·) := by
  induction l with
  | nil => simp [insertBy]
  | cons b l ih =>
    rw [List.pairwise_cons] at h
    rw [insertBy]
    split
    · rename_i hab
      rw [List.pairwise_cons]
      refine ⟨fun x hx => ?_, List.pairwise_cons.2 h⟩
      rcases List.mem_cons.1 hx with rfl | hx
      · exact hab
      · exact htr _ _ _ hab (h.1 x hx)
    · rename_i hab
      rw [List.pairwise_cons]
      refine ⟨fun x hx => ?_, ih h.2⟩
      rcases List.mem_cons.1 ((perm_insertBy r a l).mem_iff.1 hx) with rfl | hx
      · rcases ht x b with h' | h'
        · exact absurd h' hab
        · exact h'
      · exact h.1 x hx

theorem sorted_isort (r : α → α → Bool) (ht : ∀ a b, r a b = true ∨ r b a = true)
    (htr : ∀ a b c, r a b = true → r b c = true → r a c = true) (l : List α) : (isort r l).Pairwise (r · ·) := by
  induction l with
  | nil => exact List.Pairwise.nil
  | cons a l ih => exact sorted_insertBy r ht htr a _ ih

theorem filter_insertBy (r : α → α → Bool) (p : α → Bool) (hp : ∀ a b, p a = true → p b = true → r a b = true) (a : α) (l : List α) :
    (insertBy r a l).filter p = (a :: l).filter p := by
  induction l with
  | nil => rfl
  | cons b l ih =>
    rw [insertBy]
    split
    · rfl
    · rename_i hab
      rw [List.filter_cons, ih]
      cases hpa : p a with
      | true =>
        cases hpb : p b with
        | true => exact absurd (hp a b hpa hpb) hab
        | false => simp [hpa, hpb]
      | false => simp [List.filter_cons, hpa]

theorem filter_isort (r : α → α → Bool) (p : α → Bool) (hp : ∀ a b, p a = true → p b = true → r a b = true) (l : List α) :
    (isort r l).filter p = l.filter p := by
  induction l with
  | nil => rfl
  | cons a l ih => rw [isort, filter_insertBy r p hp, List.filter_cons, List.filter_cons, ih]

/-- The keys as functions. -/
def keyFuns (get : Name → α → V) (ks : List Key) : List ((α → V) × Bool) := ks.map fun k => (get k.1, k.2)

theorem leBy_iff (ht : ∀ x y, le x y = true ∨ le y x = true) (get : Name → α → V) (ks : List Key) (a b : α) :
    leBy le get ks a b = true ↔ Le le (keyFuns get ks) a b := by
  induction ks with
  | nil => simp [leBy, keyFuns, Le]
  | cons k ks ih =>
    obtain ⟨n, d⟩ := k
    have ih' := ih
    simp only [keyFuns] at ih'
    simp only [leBy, keyFuns, List.map_cons, Le, Bool.or_eq_true, Bool.and_eq_true, ih']
    rcases ht (get n a) (get n b) with h | h <;> cases d <;> cases h1 : le (get n a) (get n b) <;> cases h2 : le (get n b) (get n a) <;>
      simp_all

theorem le_total (ht : ∀ x y, le x y = true ∨ le y x = true) (ks : List ((α → V) × Bool)) (a b : α) : Le le ks a b ∨ Le le ks b a := by
  induction ks with
  | nil => exact Or.inl trivial
  | cons k ks ih =>
    obtain ⟨f, d⟩ := k
    simp only [Le]
    rcases ht (f a) (f b) with h | h <;> cases d <;> cases h1 : le (f a) (f b) <;> cases h2 : le (f b) (f a) <;> simp_all

theorem le_trans (htr : ∀ x y z, le x y = true → le y z = true → le x z = true) (ks : List ((α → V) × Bool)) (a b c : α)
    (h : Le le ks a b) (h' : Le le ks b c) : Le le ks a c := by
  induction ks with
  | nil => trivial
  | cons k ks ih =>
    obtain ⟨f, d⟩ := k
    have key : ∀ x y z : V, ((le x y = true ∧ ¬ le y x = true) ∨ (le x y = true ∧ le y x = true ∧ Le le ks a b)) →
        ((le y z = true ∧ ¬ le z y = true) ∨ (le y z = true ∧ le z y = true ∧ Le le ks b c)) →
        ((le x z = true ∧ ¬ le z x = true) ∨ (le x z = true ∧ le z x = true ∧ Le le ks a c)) := by
      intro x y z h1 h2
      rcases h1 with ⟨h1, h1'⟩ | ⟨h1, h1', h1''⟩ <;> rcases h2 with ⟨h2, h2'⟩ | ⟨h2, h2', h2''⟩
      · exact Or.inl ⟨htr _ _ _ h1 h2, fun h => h1' (htr _ _ _ h2 h)⟩
      · exact Or.inl ⟨htr _ _ _ h1 h2, fun h => h1' (htr _ _ _ h2 h)⟩
      · exact Or.inl ⟨htr _ _ _ h1 h2, fun h => h2' (htr _ _ _ h h1)⟩
      · exact Or.inr ⟨htr _ _ _ h1 h2, htr _ _ _ h2' h1', ih h1'' h2''⟩
    have key' : ∀ x y z : V, ((le y x = true ∧ ¬ le x y = true) ∨ (le y x = true ∧ le x y = true ∧ Le le ks a b)) →
        ((le z y = true ∧ ¬ le y z = true) ∨ (le z y = true ∧ le y z = true ∧ Le le ks b c)) →
        ((le z x = true ∧ ¬ le x z = true) ∨ (le z x = true ∧ le x z = true ∧ Le le ks a c)) := by
      intro x y z h1 h2
      rcases h1 with ⟨h1, h1'⟩ | ⟨h1, h1', h1''⟩ <;> rcases h2 with ⟨h2, h2'⟩ | ⟨h2, h2', h2''⟩
      · exact Or.inl ⟨htr _ _ _ h2 h1, fun h => h1' (htr _ _ _ h h2)⟩
      · exact Or.inl ⟨htr _ _ _ h2 h1, fun h => h1' (htr _ _ _ h h2)⟩
      · exact Or.inl ⟨htr _ _ _ h2 h1, fun h => h2' (htr _ _ _ h1 h)⟩
      · exact Or.inr ⟨htr _ _ _ h2 h1, htr _ _ _ h1' h2', ih h1'' h2''⟩
    cases d
    · exact key (f a) (f b) (f c) h h'
    · exact key' (f a) (f b) (f c) h h'

theorem le_ties (ks : List ((α → V) × Bool)) (a b : α) (h : Le le ks a b) (h' : Le le ks b a) :
    ∀ k ∈ ks, le (k.1 a) (k.1 b) = true ∧ le (k.1 b) (k.1 a) = true := by
  induction ks with
  | nil => simp
  | cons k ks ih =>
    obtain ⟨f, d⟩ := k
    have hb : le (f a) (f b) = true ∧ le (f b) (f a) = true ∧ Le le ks a b ∧ Le le ks b a := by
      cases d <;> rcases h with ⟨h1, h2⟩ | ⟨h1, h2, h3⟩ <;> rcases h' with ⟨h4, h5⟩ | ⟨h4, h5, h6⟩
      · exact absurd h4 h2
      · exact absurd h4 h2
      · exact absurd h1 h5
      · exact ⟨h1, h2, h3, h6⟩
      · exact absurd h4 h2
      · exact absurd h4 h2
      · exact absurd h1 h5
      · exact ⟨h2, h1, h3, h6⟩
    intro k hk
    rcases List.mem_cons.1 hk with rfl | hk
    · exact ⟨hb.1, hb.2.1⟩
    · exact ih hb.2.2.1 hb.2.2.2 k hk

theorem le_of_ties (ks : List ((α → V) × Bool)) (a b : α)
    (h : ∀ k ∈ ks, le (k.1 a) (k.1 b) = true ∧ le (k.1 b) (k.1 a) = true) : Le le ks a b := by
  induction ks with
  | nil => trivial
  | cons k ks ih =>
    obtain ⟨f, d⟩ := k
    have h0 := h (f, d) (by simp)
    have h1 := ih fun k hk => h k (by simp [hk])
    cases d
    · exact Or.inr ⟨h0.1, h0.2, h1⟩
    · exact Or.inr ⟨h0.2, h0.1, h1⟩

/-- The stable sort sorts. -/
theorem isort_sorted (ht : ∀ x y, le x y = true ∨ le y x = true) (htr : ∀ x y z, le x y = true → le y z = true → le x z = true)
    (get : Name → α → V) (ks : List Key) (rows : List α) : Sorted le (keyFuns get ks) rows (isort (leBy le get ks) rows) where
  perm := perm_isort _ _
  ascending := by
    refine (sorted_isort (leBy le get ks) (fun a b => ?_) (fun a b c h h' => ?_) rows).imp fun h => (leBy_iff ht get ks _ _).1 h
    · rw [leBy_iff ht, leBy_iff ht]; exact le_total ht _ a b
    · rw [leBy_iff ht] at h h' ⊢
      exact le_trans htr _ a b c h h'
  stable := fun p hp => filter_isort _ p (fun a b ha hb => (leBy_iff ht get ks a b).2 (hp a b ha hb)) rows

/-- Sorting again by more keys gives the rows sorted by those keys. -/
theorem sorted_again (ks ps : List ((α → V) × Bool)) (hsub : ∀ k ∈ ps, ∃ k' ∈ ks, k'.1 = k.1) (rows mid out : List α)
    (h1 : Sorted le ps rows mid) (h2 : Sorted le ks mid out) : Sorted le ks rows out where
  perm := h2.perm.trans h1.perm
  ascending := h2.ascending
  stable := fun p hp => by
    rw [h2.stable p hp]
    refine h1.stable p fun a b ha hb => le_of_ties ps a b fun k hk => ?_
    obtain ⟨k', hk', e⟩ := hsub k hk
    rw [← e]
    exact le_ties ks a b (hp a b ha hb) (hp b a hb ha) k' hk'

/-- The key an item is sorted by. -/
def keyOf : Item → Name
  | .col _ n => n
  | .expr (some c) => c
  | .expr none => []

/-- Is the item sorted on when the rows are read? -/
def prim (c : Ctx) : Item → Bool
  | .col t n => isPrimary c t n
  | .expr _ => false

theorem addItems_eq (c : Ctx) (items : List (Item × Bool)) (acc r : List Key × List Key) (h : addItems c acc items = some r) :
    r.1 = acc.1 ++ (items.filter fun i => prim c i.1).map (fun i => (keyOf i.1, i.2)) ∧
    r.2 = acc.2 ++ items.map (fun i => (keyOf i.1, i.2)) ∧ ∀ i ∈ items, i.1 ≠ .expr none := by
  induction items generalizing acc with
  | nil => cases h; simp
  | cons i items ih =>
    obtain ⟨i, d⟩ := i
    rw [addItems] at h
    cases hi : addItem c acc (i, d) with
    | none => simp [hi] at h
    | some acc' =>
      simp only [hi, Option.bind_eq_bind, Option.bind_some] at h
      obtain ⟨h1, h2, h3⟩ := ih acc' h
      cases i with
      | col t n =>
        simp only [addItem] at hi
        cases hi
        refine ⟨?_, by rw [h2]; simp [keyOf], ?_⟩
        · rw [h1]
          by_cases hp : isPrimary c t n = true
          · simp [prim, hp, keyOf]
          · simp [prim, hp]
        · intro i hi
          rcases List.mem_cons.1 hi with rfl | hi
          · simp
          · exact h3 i hi
      | expr col =>
        cases col with
        | none => simp [addItem] at hi
        | some a =>
          simp only [addItem] at hi
          cases hi
          refine ⟨by rw [h1]; simp [prim], by rw [h2]; simp [keyOf], ?_⟩
          intro i hi
          rcases List.mem_cons.1 hi with rfl | hi
          · simp
          · exact h3 i hi

/-- The keys of the query, as SQL reads them. -/
def sqlKeys (c : Ctx) (raw : Name → Name → α → V) (out : Name → α → V) (items : List (Item × Bool)) : List ((α → V) × Bool) :=
  items.map fun i => (value c.schema c.table raw out i.1, i.2)

/-- **C55**: the result is sorted as ORDER BY says, stably, when the columns that are confused with each other are the same: a
qualified column and the result column of its name, and a bare name that is sorted on when the rows are read and the result
column of its name. -/
theorem C55_order_by_partial (ht : ∀ x y, le x y = true ∨ le y x = true)
    (htr : ∀ x y z, le x y = true → le y z = true → le x z = true) (c : Ctx) (raw : Name → Name → α → V) (out : Name → α → V)
    (items : List (Item × Bool)) (plan : List Key × Option (List Key)) (h : compile c items = some plan)
    (hq : ∀ t n d, (Item.col (some t) n, d) ∈ items → n ∈ c.schema → out n = raw t n)
    (hb : ∀ n d, (Item.col none n, d) ∈ items → n ∈ c.schema → isPrimary c none n = true → out n = raw c.table n) (rows : List α) :
    Sorted le (sqlKeys c raw out items) rows (run le (raw c.table) out plan rows) := by
  rw [compile] at h
  cases ha : addItems c ([], []) items with
  | none => simp [ha] at h
  | some r =>
    obtain ⟨p, s⟩ := r
    obtain ⟨hp, hs, hexpr⟩ := addItems_eq c items _ _ ha
    simp only [List.nil_append] at hp hs
    simp only [ha, Option.bind_eq_bind, Option.bind_some] at h
    -- the load order
    have hload : Sorted le (keyFuns (raw c.table) p) rows (if p = [] then rows else isort (leBy le (raw c.table) p) rows) := by
      split
      · rename_i he
        rw [he]
        exact ⟨List.Perm.refl _, List.pairwise_of_forall fun _ _ => by simp [keyFuns, Le], fun _ _ => rfl⟩
      · exact isort_sorted ht htr _ _ _
    -- what a key of the load order means
    have hval : ∀ i ∈ items, prim c i.1 = true → raw c.table (keyOf i.1) = value c.schema c.table raw out i.1 := by
      intro i hi hpi
      obtain ⟨i, d⟩ := i
      cases i with
      | col t n =>
        cases t with
        | some t =>
          have : t = c.table := by simpa [prim, isPrimary] using hpi
          subst this
          rfl
        | none =>
          funext a
          simp only [keyOf, value]
          split
          · rename_i hin
            rw [hb n d hi hin hpi]
          · rfl
      | expr col => simp [prim] at hpi
    have hprim : keyFuns (raw c.table) p = ((items.filter fun i => prim c i.1).map fun i => (value c.schema c.table raw out i.1, i.2)) := by
      rw [hp, keyFuns, List.map_map]
      refine List.map_congr_left fun i hi => ?_
      rw [List.mem_filter] at hi
      simp only [Function.comp]
      rw [hval i hi.1 hi.2]
    split at h
    · rename_i hlt
      split at h
      · rename_i hall
        cases h
        simp only [run]
        have hk : keyFuns out s = sqlKeys c raw out items := by
          rw [hs, keyFuns, List.map_map, sqlKeys]
          refine List.map_congr_left fun i hi => ?_
          obtain ⟨i, d⟩ := i
          have hin : keyOf i ∈ c.schema := by
            rw [List.all_eq_true] at hall
            have := hall (keyOf i, d) (by rw [hs]; exact List.mem_map.2 ⟨(i, d), hi, rfl⟩)
            simpa using this
          simp only [Function.comp]
          congr 1
          cases i with
          | col t n =>
            cases t with
            | some t => rw [keyOf, hq t n d hi hin]; rfl
            | none =>
              funext a
              simp only [keyOf] at hin ⊢
              simp [value, hin]
          | expr col =>
            cases col with
            | none => exact absurd rfl (hexpr _ hi)
            | some a => rfl
        rw [← hk]
        refine sorted_again _ _ ?_ rows _ _ hload (isort_sorted ht htr out s _)
        intro k hkm
        rw [hprim, List.mem_map] at hkm
        obtain ⟨i, hi, rfl⟩ := hkm
        rw [hk, sqlKeys]
        exact ⟨_, List.mem_map.2 ⟨i, (List.mem_filter.1 hi).1, rfl⟩, rfl⟩
      · simp at h
    · rename_i hlt
      cases h
      simp only [run]
      have hall : items.filter (fun i => prim c i.1) = items := by
        have hl : ¬ (p.length < s.length) := by
          intro h
          refine hlt ⟨?_, h⟩
          intro e
          rw [e] at h
          simp at h
        rw [hp, hs, List.length_map, List.length_map] at hl
        have hle := List.length_filter_le (fun i : Item × Bool => prim c i.1) items
        exact List.filter_eq_self.2 fun i hi => by
          have := List.length_filter_eq_length_iff.1 (Nat.le_antisymm hle (Nat.le_of_not_lt hl)) i hi
          exact this
      rw [hprim, hall] at hload
      exact hload

end

section

/-- Rows of the examples: `a`, `b`. -/
def ordRow (a b : Int) : Name → Int := fun n => if n = ['a'] then a else if n = ['b'] then b else 0

/-- **C55 is violated by an alias that hides a column**: `SELECT -a AS a FROM t ORDER BY a` sorts by the column, so that the result
descends. -/
theorem C55_alias_violated :
    let c : Ctx := ⟨[['a']], [['a']], ['t'], false, []⟩
    let out : Name → (Name → Int) → Int := fun n r => if n = ['a'] then - r ['a'] else 0
    compile c [(.col none ['a'], false)] = some ([(['a'], false)], none) ∧
    (run (fun x y => decide (x ≤ y)) (fun n (r : Name → Int) => r n) out ([(['a'], false)], none) [ordRow 2 0, ordRow 1 0]).map (out ['a']) =
      [-1, -2] := by
  decide +kernel

/-- **C55 is violated by a qualified column** beside an alias of its name: `SELECT -x.b AS b, x.a AS y FROM t AS x ORDER BY x.b, y`
sorts by the result column `b`. -/
theorem C55_qualified_violated :
    let c : Ctx := ⟨[['b'], ['y']], [['b'], ['a']], ['x'], true, []⟩
    let out : Name → (Name → Int) → Int := fun n r => if n = ['b'] then - r ['b'] else if n = ['y'] then r ['a'] else 0
    compile c [(.col (some ['x']) ['b'], false), (.col none ['y'], false)] = some ([(['b'], false)], some [(['b'], false), (['y'], false)]) ∧
    (run (fun x y => decide (x ≤ y)) (fun n (r : Name → Int) => r n) out ([(['b'], false)], some [(['b'], false), (['y'], false)])
      [ordRow 0 1, ordRow 0 2]).map (fun r => r ['b']) = [2, 1] := by
  decide +kernel

/-- C55 on `SELECT a, a + b AS s FROM t ORDER BY s DESC, a`. -/
example :
    let c : Ctx := ⟨[['a'], ['s']], [['a'], ['b']], ['t'], false, []⟩
    let out : Name → (Name → Int) → Int := fun n r => if n = ['a'] then r ['a'] else if n = ['s'] then r ['a'] + r ['b'] else 0
    compile c [(.col none ['s'], true), (.col none ['a'], false)] = some ([(['a'], false)], some [(['s'], true), (['a'], false)]) ∧
    isPrimary c none ['s'] = false ∧
    (run (fun x y => decide (x ≤ y)) (fun n (r : Name → Int) => r n) out ([(['a'], false)], some [(['s'], true), (['a'], false)])
      [ordRow 2 0, ordRow 1 1, ordRow 5 0]).map (out ['a']) = [5, 1, 2] := by
  decide +kernel

end

end Verif.Props
