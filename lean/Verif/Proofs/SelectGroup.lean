import Verif.Proofs.Select
import Verif.Props.Select
namespace Verif.Select
open Verif.Val Verif.Expr Verif.Where Verif.Order Verif.Reduce Verif.GroupSpec Verif.Props

variable {S : Type}

/-! ### The key -/

/-- The key of a GROUP BY item when it is understood as SQL does. -/
def keyOfItem (cols : List (Str × Item S)) : GKey → T
  | .bare c => match SqlSelect.aliased c cols with
    | some e => compile e
    | none => .col c
  | .expr e => compile e

/-- The one key of all columns. -/
def theKey (cols : List (Str × Item S)) (group : List GKey) : List T :=
  if group.isEmpty then [.const (.str "__k_g__".toList)] else group.map (keyOfItem cols)

/-- A column that is compiled with a given key. -/
def colWith (k : List T) : Item S → Col S
  | .expr e => .calc (compile e)
  | .agg args final => .agg k (args.map fun a => (a.1, compile a.2)) final

/-- Is the column an aggregate? -/
def isAgg : Item S → Bool
  | .expr _ => false
  | .agg _ _ => true

/-- A name in GROUP BY that is a column of the result is one that is not an aggregate, and it stands before every aggregate column,
or it is the column of the table of that name. -/
def GroupNamesOk (cols : List (Str × Item S)) (group : List GKey) : Prop :=
  ∀ c, GKey.bare c ∈ group → c ∈ cols.map (·.1) →
    ∃ pre e post, cols = pre ++ (c, .expr e) :: post ∧ (e = .col c ∨ ∀ x ∈ pre, isAgg x.2 = false)

theorem aliased_none (c : Str) (cols : List (Str × Item S)) (h : c ∉ cols.map (·.1)) : SqlSelect.aliased c cols = none := by
  induction cols with
  | nil => rfl
  | cons x cols ih =>
    obtain ⟨k, it⟩ := x
    simp only [List.map_cons, List.mem_cons, not_or] at h
    cases it with
    | expr e => rw [SqlSelect.aliased, if_neg (Ne.symm h.1), ih h.2]
    | agg _ _ => rw [SqlSelect.aliased, ih h.2]

theorem aliased_some (c : Str) (e : E) (cols : List (Str × Item S)) (hn : (cols.map (·.1)).Nodup) (h : (c, Item.expr e) ∈ cols) :
    SqlSelect.aliased c cols = some e := by
  induction cols with
  | nil => simp at h
  | cons x cols ih =>
    obtain ⟨k, it⟩ := x
    simp only [List.map_cons, List.nodup_cons] at hn
    rcases List.mem_cons.1 h with h | h'
    · cases h; simp [SqlSelect.aliased]
    · have hk : k ≠ c := by
        rintro rfl
        exact hn.1 (List.mem_map.2 ⟨_, h', rfl⟩)
      cases it with
      | expr e' => rw [SqlSelect.aliased, if_neg hk, ih hn.2 h']
      | agg _ _ => rw [SqlSelect.aliased, ih hn.2 h']

/-- The columns compiled so far are those of the prefix `pre`. -/
theorem get_prefix (k : List T) (pre : List (Str × Item S)) (c : Str) (e : E) (hn : (pre.map (·.1)).Nodup) (h : (c, Item.expr e) ∈ pre) :
    get c (pre.map fun x => (x.1, colWith k x.2)) = some (.calc (compile e)) := by
  apply get_of_mem
  · rw [List.map_map]; exact hn
  · exact List.mem_map.2 ⟨_, h, rfl⟩

theorem get_prefix_none (k : List T) (pre : List (Str × Item S)) (c : Str) (h : c ∉ pre.map (·.1)) :
    get c (pre.map fun x => (x.1, colWith k x.2)) = none := by
  rw [get_none_iff]; simpa [List.map_map, Function.comp] using h

/-- The key compiled at some point of the select list. -/
theorem keyCol_eq (k : List T) (cols pre rest : List (Str × Item S)) (hcols : cols = pre ++ rest) (hn : (cols.map (·.1)).Nodup) (g : GKey)
    (hg : ∀ c, g = .bare c → c ∈ cols.map (·.1) → ∃ e, (c, Item.expr e) ∈ cols ∧ (e = .col c ∨ (c, Item.expr e) ∈ pre)) :
    keyCol (pre.map fun x => (x.1, colWith k x.2)) g = some (keyOfItem cols g) := by
  cases g with
  | expr e => rfl
  | bare c =>
    simp only [keyCol, keyOfItem]
    have hnp : (pre.map (·.1)).Nodup := by
      rw [hcols, List.map_append] at hn
      exact (List.nodup_append.1 hn).1
    by_cases hc : c ∈ cols.map (·.1)
    · obtain ⟨e, he, hor⟩ := hg c rfl hc
      rw [aliased_some c e cols hn he]
      by_cases hp : (c, Item.expr e) ∈ pre
      · rw [get_prefix k pre c e hnp hp]
      · rcases hor with rfl | h
        · by_cases hcp : c ∈ pre.map (·.1)
          · exfalso
            have hmem := he
            rw [hcols, List.mem_append] at hmem
            rcases hmem with hm | hm
            · exact hp hm
            · rw [hcols, List.map_append] at hn
              exact (List.nodup_append.1 hn).2.2 c hcp c (List.mem_map.2 ⟨_, hm, rfl⟩) rfl
          · rw [get_prefix_none k pre c hcp]; rfl
        · exact absurd h hp
    · rw [aliased_none c cols hc, get_prefix_none]
      intro h
      apply hc
      rw [hcols, List.map_append, List.mem_append]
      exact Or.inl h

theorem keyCols_eq (k : List T) (cols pre rest : List (Str × Item S)) (hcols : cols = pre ++ rest) (hn : (cols.map (·.1)).Nodup)
    (gs : List GKey)
    (hg : ∀ c, GKey.bare c ∈ gs → c ∈ cols.map (·.1) → ∃ e, (c, Item.expr e) ∈ cols ∧ (e = .col c ∨ (c, Item.expr e) ∈ pre)) :
    keyCols (pre.map fun x => (x.1, colWith k x.2)) gs = some (gs.map (keyOfItem cols)) := by
  induction gs with
  | nil => rfl
  | cons g gs ih =>
    rw [keyCols, keyCol_eq k cols pre rest hcols hn g (fun c h => hg c (by simp [h])),
      ih (fun c h => hg c (List.mem_cons_of_mem _ h))]
    rfl

theorem names_agg {cols pre rest : List (Str × Item S)} {group : List GKey} {n : Str} {args : List (Aggr S × E)} {final : List Val → Val}
    (hcols : cols = pre ++ (n, .agg args final) :: rest) (hn : (cols.map (·.1)).Nodup) (hok : GroupNamesOk cols group) :
    ∀ c, GKey.bare c ∈ group → c ∈ cols.map (·.1) → ∃ e, (c, Item.expr e) ∈ cols ∧ (e = .col c ∨ (c, Item.expr e) ∈ pre) := by
  intro c hc hm
  obtain ⟨pre', e, post', he, hor⟩ := hok c hc hm
  refine ⟨e, by rw [he]; simp, ?_⟩
  rcases hor with h | h
  · exact Or.inl h
  · right
    have hmem : (c, Item.expr e) ∈ cols := by rw [he]; simp
    rw [hcols] at hmem
    rcases List.mem_append.1 hmem with hm | hm
    · exact hm
    · -- the aggregate would stand before it
      exfalso
      have hagg : (n, Item.agg args final) ∈ pre' := by
        rcases List.mem_cons.1 hm with hm | hm
        · cases hm
        · obtain ⟨r1, r2, hr⟩ := List.append_of_mem hm
          have h1 : cols = (pre ++ (n, .agg args final) :: r1) ++ (c, .expr e) :: r2 := by rw [hcols, hr]; simp
          have hpre : pre' = pre ++ (n, .agg args final) :: r1 := by
            have h2 := he.symm.trans h1
            rw [he] at hn
            rw [List.append_eq_append_iff] at h2
            rcases h2 with ⟨a, ha, hb⟩ | ⟨a, ha, hb⟩
            · cases a with
              | nil => simpa using ha.symm
              | cons y a =>
                exfalso
                rw [ha] at h1
                simp only [List.cons_append, List.cons.injEq] at hb
                rw [hb.2] at hn
                simp [List.nodup_append] at hn
            · cases a with
              | nil => simpa using ha
              | cons y a =>
                exfalso
                simp only [List.cons_append, List.cons.injEq] at hb
                rw [ha, ← hb.1] at hn
                simp [List.nodup_append] at hn
          rw [hpre]; simp
      have := h _ hagg
      simp [isAgg] at this

theorem Built.groupSchema {group : List GKey} {cols : List (Str × Item S)} (hn : (cols.map (·.1)).Nodup)
    (hok : GroupNamesOk cols group) :
    ∀ {s out : Schema S} {rest : List (Str × Item S)}, Built group s rest out →
      ∀ pre, cols = pre ++ rest → s = pre.map (fun x => (x.1, colWith (theKey cols group) x.2)) →
        out = cols.map fun x => (x.1, colWith (theKey cols group) x.2) := by
  intro s out rest h
  induction h with
  | nil s => intro pre hp hs; rw [hs, hp]; simp
  | expr s n e cs out _ ih =>
    intro pre hp hs
    refine ih (pre ++ [(n, .expr e)]) (by rw [hp]; simp) ?_
    rw [hs, List.map_append]; rfl
  | agg s n args final cs out k hk _ ih =>
    intro pre hp hs
    have hkey : k = theKey cols group := by
      rw [groupKey] at hk
      rw [theKey]
      split at hk
      · rename_i hg; simp only [Option.some.injEq] at hk; rw [if_pos hg, hk]
      · rename_i hg
        rw [hs, keyCols_eq (theKey cols group) cols pre _ hp hn group (names_agg hp hn hok)] at hk
        simp only [Option.some.injEq] at hk
        rw [if_neg hg, hk]
    refine ih (pre ++ [(n, .agg args final)]) (by rw [hp]; simp) ?_
    rw [hs, List.map_append, hkey]; rfl

/-! ### The states of a group -/

section
variable (py : Py) (calls : Str → List Val → Val)

/-- The states of the aggregates of a column after some rows. -/
def argFold (l : List Row) : Col S → List S
  | .agg _ args _ => args.map fun a => (l.map fun r => eval py calls r a.2).foldl a.1.fold.step a.1.fold.init
  | _ => []

theorem zipWith_map_self {α β γ : Type} (f : α → β → γ) (g : α → β) (l : List α) :
    List.zipWith f l (l.map g) = l.map fun a => f a (g a) := by
  induction l with
  | nil => rfl
  | cons a l ih => simp [ih]

theorem zip_map_map {α β γ : Type} (f : α → β) (g : α → γ) (l : List α) : List.zip (l.map f) (l.map g) = l.map fun a => (f a, g a) := by
  induction l with
  | nil => rfl
  | cons a l ih => simp [ih]

theorem argStep_fold (r : Row) (l : List Row) (c : Col S) : argStep py calls r c (argFold py calls l c) = argFold py calls (l ++ [r]) c := by
  cases c with
  | agg k args final =>
    simp only [argStep, argFold, zipWith_map_self, List.map_append, List.map_cons, List.map_nil, List.foldl_append, List.foldl_cons,
      List.foldl_nil]
  | «calc» t => rfl
  | last k t => rfl

theorem head_snoc {α : Type} (l : List α) (r : α) : (l ++ [r]).head? = l.head?.or (some r) := by cases l <;> rfl

theorem groupFold_eq (schema : Schema S) (l : List Row) :
    l.foldl (groupFold py calls schema).step (groupFold py calls schema).init =
      (l.head?, l.getLast?, schema.map fun c => argFold py calls l c.2) := by
  suffices ∀ m : List Row, ∀ l, l = m.reverse → l.foldl (groupFold py calls schema).step (groupFold py calls schema).init =
      (l.head?, l.getLast?, schema.map fun c => argFold py calls l c.2) from this l.reverse l (by simp)
  intro m
  induction m with
  | nil =>
    rintro l rfl
    simp only [List.reverse_nil, List.foldl_nil, groupFold, List.head?_nil, List.getLast?_nil, Prod.mk.injEq, true_and]
    refine List.map_congr_left fun c _ => ?_
    cases c.2 <;> rfl
  | cons r m ih =>
    rintro l rfl
    rw [List.reverse_cons, List.foldl_append, ih _ rfl]
    simp only [List.foldl_cons, List.foldl_nil, groupFold, head_snoc, List.getLast?_append, List.getLast?_singleton, Option.some_or,
      Prod.mk.injEq, true_and]
    rw [zipWith_map_self]
    refine List.map_congr_left fun c _ => ?_
    exact argStep_fold py calls r _ c.2

theorem groupFold_law (schema : Schema S)
    (good : Aggr S × T → Val → Prop)
    (hl : ∀ n k args final, (n, Col.agg k args final) ∈ schema → ∀ a ∈ args, a.1.fold.Law (good a)) :
    (groupFold py calls schema).Law fun r => ∀ n k args final, (n, Col.agg k args final) ∈ schema → ∀ a ∈ args, good a (eval py calls r a.2) := by
  intro l1 l2 h1 h2
  rw [groupFold_eq, groupFold_eq, groupFold_eq]
  simp only [groupFold, List.head?_append, List.getLast?_append, Prod.mk.injEq, true_and]
  rw [zip_map_map, zipWith_map_self]
  refine List.map_congr_left fun c hc => ?_
  obtain ⟨n, c⟩ := c
  cases c with
  | «calc» t => rfl
  | last k t => rfl
  | agg k args final =>
    simp only [argRed, argFold, zip_map_map, zipWith_map_self]
    refine List.map_congr_left fun a ha => ?_
    rw [List.map_append]
    apply hl n k args final hc a ha
    · intro v hv
      obtain ⟨r, hr, rfl⟩ := List.mem_map.1 hv
      exact h1 r hr n k args final hc a ha
    · intro v hv
      obtain ⟨r, hr, rfl⟩ := List.mem_map.1 hv
      exact h2 r hr n k args final hc a ha

/-- The groups of the rows that were read. -/
theorem groups_eq (en : Engine) (hchunk : ∀ l, (en.chunk l).flatMap (·.1) = l) (schema : Schema S) (k : List T) (kept : List Row)
    (good : Aggr S × T → Val → Prop)
    (hl : ∀ n k args final, (n, Col.agg k args final) ∈ schema → ∀ a ∈ args, a.1.fold.Law (good a) ∧ ∀ r ∈ kept, good a (eval py calls r a.2)) :
    groups py calls en schema k kept =
      (groupBy (kept.map fun r => (keyVal py calls k r, r))).map fun g =>
        (g.1, g.2.head?, g.2.getLast?, schema.map fun c => argFold py calls g.2 c.2) := by
  rw [groups, query_spec (groupFold_law py calls schema good fun n k args final h a ha => (hl n k args final h a ha).1)]
  · have : ((en.chunk kept).map fun b => (b.1.map fun r => (keyVal py calls k r, r), b.2)).flatMap (·.1) =
        kept.map fun r => (keyVal py calls k r, r) := by
      rw [List.flatMap_map, ← List.map_flatMap, hchunk]
    rw [this]
    refine List.map_congr_left fun g _ => ?_
    rw [groupFold_eq]
  · intro ev hev r hr n k' args final hm a ha
    obtain ⟨b, hb, rfl⟩ := List.mem_map.1 hev
    obtain ⟨r', hr', rfl⟩ := List.mem_map.1 hr
    refine (hl n k' args final hm a ha).2 r' ?_
    rw [← hchunk kept, List.mem_flatMap]
    exact ⟨b, hb, hr'⟩

end

/-! ### The schema when the key is carried -/

/-- The column that carries the key. -/
def toLast (k : List T) : Col S → Col S
  | .calc t => .last k t
  | c => c

/-- A schema with one key: `carries` says which columns carry it. -/
def oneKey (cols : List (Str × Item S)) (k : List T) (carries : Str → Bool) : Schema S :=
  cols.map fun x => (x.1, if carries x.1 then toLast k (colWith k x.2) else colWith k x.2)

theorem put_map (n : Str) (v : Col S) (d : Schema S) (hn : (d.map (·.1)).Nodup) (hm : n ∈ d.map (·.1)) :
    put n v d = d.map fun x => (x.1, if x.1 = n then v else x.2) := by
  induction d with
  | nil => simp at hm
  | cons e d ih =>
    obtain ⟨k, c⟩ := e
    simp only [List.map_cons, List.nodup_cons] at hn
    simp only [List.map_cons, List.mem_cons] at hm
    rw [put, List.map_cons]
    by_cases h : k = n
    · subst h
      simp only [if_true, List.cons.injEq, true_and]
      symm
      have : d.map (fun x => (x.1, if x.1 = k then v else x.2)) = d.map id := by
        refine List.map_congr_left fun x hx => ?_
        rw [if_neg]
        · rfl
        · rintro rfl
          exact hn.1 (List.mem_map.2 ⟨x, hx, rfl⟩)
      rw [this, List.map_id]
    · simp only [if_neg h]
      rw [ih hn.2 (hm.resolve_left fun h' => h h'.symm)]

theorem carry_eq (outKey : Option Str) (k : List T) (cols : List (Str × Item S)) (hne : cols ≠ []) (hn : (cols.map (·.1)).Nodup)
    (hc : ∀ c ∈ cols, isAgg c.2 = false) :
    ∃ n ∈ cols.map (·.1), carry outKey k (cols.map fun x => (x.1, colWith k x.2)) = oneKey cols k fun m => decide (m = n) := by
  have hmap : (cols.map fun x => (x.1, colWith k x.2)).map (·.1) = cols.map (·.1) := by rw [List.map_map]; rfl
  have hput : ∀ n ∈ cols.map (·.1), carryIn k (cols.map fun x => (x.1, colWith k x.2)) n = oneKey cols k fun m => decide (m = n) := by
    intro n hm
    obtain ⟨⟨n', it⟩, hx, rfl⟩ := List.mem_map.1 hm
    cases it with
    | agg args final => have := hc _ hx; simp [isAgg] at this
    | expr e =>
      have hg := get_prefix k cols n' e hn hx
      simp only [carryIn, hg]
      rw [put_map _ _ _ (by rw [hmap]; exact hn) (by rw [hmap]; exact hm), oneKey, List.map_map]
      refine List.map_congr_left fun y hy => ?_
      simp only [Function.comp, decide_eq_true_eq]
      by_cases he : y.1 = n'
      · rw [if_pos he, if_pos he]
        have : y = (n', .expr e) := by
          have h1 := get_of_mem y.1 cols y.2 hn hy
          have h2 := get_of_mem n' cols (.expr e) hn hx
          rw [he, h2] at h1
          simp only [Option.some.injEq] at h1
          exact Prod.ext he h1.symm
        rw [this]; rfl
      · rw [if_neg he, if_neg he]
  obtain ⟨c0, hc0, hh0⟩ : ∃ c ∈ cols, (cols.map fun x => (x.1, colWith k x.2)).head? = some (c.1, colWith k c.2) := by
    cases cols with
    | nil => exact absurd rfl hne
    | cons c cols => exact ⟨c, by simp, rfl⟩
  have hn0 : c0.1 ∈ cols.map (·.1) := List.mem_map.2 ⟨c0, hc0, rfl⟩
  cases outKey with
  | none => simp only [carry, hh0]; exact ⟨c0.1, hn0, hput _ hn0⟩
  | some o =>
    simp only [carry, hh0]
    split
    · rename_i ho
      have hm : o ∈ cols.map (·.1) := by
        rcases hgo : get o (cols.map fun x => (x.1, colWith k x.2)) with _ | v
        · rw [hgo] at ho; simp at ho
        · rw [← hmap]
          exact List.mem_map.2 ⟨_, get_mem _ _ _ hgo, rfl⟩
      exact ⟨o, hm, hput o hm⟩
    · exact ⟨c0.1, hn0, hput _ hn0⟩

/-- The key a column has. -/
def keyed : Col S → Option (List T)
  | .calc _ => none
  | .agg k _ _ => some k
  | .last k _ => some k

theorem aggKey_one (s : Schema S) (k : List T) (h : ∀ c ∈ s, ∀ k', keyed c.2 = some k' → k' = k) (he : ∃ c ∈ s, (keyed c.2).isSome) :
    aggKey s = some k := by
  induction s with
  | nil => obtain ⟨c, hc, _⟩ := he; simp at hc
  | cons c s ih =>
    obtain ⟨n, c⟩ := c
    cases ha : aggKey s with
    | some k' =>
      simp only [aggKey, ha, Option.some.injEq]
      by_cases hs : ∃ c ∈ s, (keyed c.2).isSome
      · have := ih (fun c hc => h c (by simp [hc])) hs
        rw [ha] at this
        exact Option.some.inj this
      · exfalso
        have hnone : ∀ s : Schema S, (∀ c ∈ s, keyed c.2 = none) → aggKey s = none := by
          intro s
          induction s with
          | nil => intro _; rfl
          | cons c s ih =>
            intro h
            obtain ⟨n, c⟩ := c
            have hc := h (n, c) (by simp)
            have := ih fun c hc => h c (by simp [hc])
            cases c <;> simp_all [keyed, aggKey]
        rw [hnone s] at ha
        · cases ha
        · intro c hc
          cases hk : keyed c.2 with
          | none => rfl
          | some k'' => exact absurd ⟨c, hc, by rw [hk]; rfl⟩ hs
    | none =>
      have hc : (keyed c).isSome := by
        obtain ⟨c', hc', hk'⟩ := he
        rcases List.mem_cons.1 hc' with rfl | hc''
        · exact hk'
        · have := ih (fun c hc => h c (by simp [hc])) ⟨c', hc'', hk'⟩
          rw [ha] at this; cases this
      have hh := h (n, c) (by simp)
      cases c with
      | «calc» t => simp [keyed] at hc
      | agg k' _ _ => simp only [aggKey, ha, hh k' rfl]
      | last k' _ => simp only [aggKey, ha, hh k' rfl]

theorem aggKey_oneKey (cols : List (Str × Item S)) (k : List T) (carries : Str → Bool)
    (he : ∃ c ∈ cols, isAgg c.2 = true ∨ carries c.1 = true) : aggKey (oneKey cols k carries) = some k := by
  apply aggKey_one
  · intro c hc k' hk
    obtain ⟨x, hx, rfl⟩ := List.mem_map.1 hc
    obtain ⟨n, it⟩ := x
    cases it <;> cases hca : carries n <;> simp_all [colWith, toLast, keyed]
  · obtain ⟨⟨n, it⟩, hx, h⟩ := he
    refine ⟨_, List.mem_map.2 ⟨_, hx, rfl⟩, ?_⟩
    cases it <;> cases hca : carries n <;> simp_all [colWith, toLast, keyed, isAgg]

/-! ### The groups -/

section
variable {κ : Type} [DecidableEq κ] {α : Type}

theorem group_map_key (f : α → κ) (k : κ) (l : List α) : group k (l.map fun r => (f r, r)) = l.filter fun r => decide (f r = k) := by
  rw [group, List.filter_map, List.map_map]
  have : ((fun x : κ × α => x.2) ∘ fun r => (f r, r)) = id := rfl
  rw [this, List.map_id]
  rfl

theorem groupBy_map_key (f : α → κ) (l : List α) :
    (groupBy (l.map fun r => (f r, r))).map (·.2) = (firsts (l.map f)).map fun k => l.filter fun r => decide (f r = k) := by
  rw [groupBy, List.map_map, List.map_map]
  have : ((fun x : κ × α => x.1) ∘ fun r => (f r, r)) = f := rfl
  rw [this]
  refine List.map_congr_left fun k _ => ?_
  exact group_map_key f k l

/-- The groups stand in the order of their first rows. -/
theorem heads_pairwise (R : α → α → Prop) (f : α → κ) (l : List α) (h : l.Pairwise R) :
    ((firsts (l.map f)).map fun k => l.filter fun r => decide (f r = k)).Pairwise fun g g' =>
      ∀ r ∈ g.head?, ∀ r' ∈ g'.head?, R r r' := by
  induction l with
  | nil => simp [firsts]
  | cons a l ih =>
    rw [List.pairwise_cons] at h
    rw [List.map_cons, firsts, List.map_cons, List.pairwise_cons]
    have hrest : ((firsts (l.map f)).filter (· ≠ f a)).map (fun k => (a :: l).filter fun r => decide (f r = k)) =
        ((firsts (l.map f)).filter (· ≠ f a)).map (fun k => l.filter fun r => decide (f r = k)) := by
      refine List.map_congr_left fun k hk => ?_
      have hk' := (List.mem_filter.1 hk).2
      rw [List.filter_cons, if_neg]
      simp only [decide_eq_true_eq] at hk' ⊢
      exact fun h => hk' h.symm
    rw [hrest]
    refine ⟨?_, ?_⟩
    · intro g' hg' r hr r' hr'
      obtain ⟨k, hk, rfl⟩ := List.mem_map.1 hg'
      have h1 : r = a := by
        rw [List.filter_cons, if_pos (by simp)] at hr
        simpa using hr.symm
      have h2 : r' ∈ l := (List.mem_filter.1 (List.mem_of_mem_head? hr')).1
      rw [h1]
      exact h.1 r' h2
    · exact (ih h.2).sublist (List.Sublist.map _ List.filter_sublist)

end

/-- The result row of a group. -/
theorem groupRow_project (text : Str → Bool) (py : Py) (calls : Str → List Val → Val) (cols : List (Str × Item S)) (k : List T)
    (carries : Str → Bool)
    (hexpr : ∀ n e, (n, Item.expr e) ∈ cols → scalarOk e = true)
    (hagg : ∀ n args final, (n, Item.agg args final) ∈ cols → ∀ a ∈ args, scalarOk a.2 = true)
    (l : List Row) (hsame : ∀ n e, (n, Item.expr e) ∈ cols → carries n = true → ∀ r ∈ l, ∀ r' ∈ l, Sql.sem text py.cmp calls r e = Sql.sem text py.cmp calls r' e) :
    groupRow py calls (oneKey cols k carries) (l.head?, l.getLast?, (oneKey cols k carries).map fun c => argFold py calls l c.2) =
      SqlSelect.project text py.cmp calls cols l := by
  rw [groupRow, zipWith_map_self, oneKey, List.map_map, SqlSelect.project]
  refine List.map_congr_left fun x hx => ?_
  obtain ⟨n, it⟩ := x
  simp only [Function.comp]
  cases it with
  | expr e =>
    have he := fun r => C31_value_partial text py calls r e (hexpr n e hx)
    simp only [colWith]
    cases hc : carries n with
    | false =>
      simp only [Bool.false_eq_true, if_false]
      cases l.head? with
      | none => rfl
      | some r => simp only [Option.map_some, Option.getD_some]; rw [he]
    | true =>
      simp only [if_true, toLast]
      cases hl : l.head? with
      | none =>
        rw [List.head?_eq_none_iff] at hl
        rw [hl]; rfl
      | some r =>
        have hne : l ≠ [] := by rintro rfl; cases hl
        rw [List.getLast?_eq_some_getLast hne]
        simp only [Option.map_some, Option.getD_some]
        rw [he, hsame n e hx hc _ (List.getLast_mem hne) r (List.mem_of_mem_head? hl)]
  | agg args final =>
    have h : (if carries n = true then toLast k (colWith k (Item.agg args final)) else colWith k (Item.agg args final)) =
        colWith k (Item.agg args final) := by
      split <;> rfl
    rw [h]
    simp only [colWith, argFold, Prod.mk.injEq, true_and]
    rw [zipWith_map_self, List.map_map]
    congr 1
    refine List.map_congr_left fun a ha => ?_
    simp only [Function.comp, SqlSelect.aggregate]
    congr 2
    refine List.map_congr_left fun r _ => ?_
    exact C31_value_partial text py calls r a.2 (hagg n args final hx a ha)

end Verif.Select
