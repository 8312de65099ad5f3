import Verif.Model.Column
import Verif.Spec.Column
/-! C137 and C138: type annotations and casts. -/
namespace Verif.Props.ColumnLemmas
open Verif.Val Verif.Column Verif.SqlColumn

theorem pieces_ne (c : Char) (s : Str) : pieces c s ≠ [] := by
  induction s with
  | nil => simp [pieces]
  | cons x s ih =>
    simp only [pieces]
    split
    · simp
    · split <;> simp

theorem pieces_free (c : Char) (p : Str) (h : c ∉ p) : pieces c p = [p] := by
  induction p with
  | nil => rfl
  | cons x p ih =>
    simp only [List.mem_cons, not_or] at h
    simp [pieces, Ne.symm h.1, ih h.2]

theorem pieces_cut (c : Char) (p s : Str) (h : c ∉ p) : pieces c (p ++ c :: s) = p :: pieces c s := by
  induction p with
  | nil => simp [pieces]
  | cons x p ih =>
    simp only [List.mem_cons, not_or] at h
    simp [pieces, Ne.symm h.1, ih h.2]

theorem pieces_list (c : Char) (t : Str) (ts : List Str) (h : ∀ p ∈ t :: ts, c ∉ p) :
    pieces c (t ++ ts.flatMap fun t => c :: t) = t :: ts := by
  induction ts generalizing t with
  | nil => simp [pieces_free c t (h t (by simp))]
  | cons u ts ih =>
    rw [List.flatMap_cons, List.cons_append, pieces_cut c t _ (h t (by simp)), ih u fun p hp => h p (by simp [hp])]

theorem join_pieces (c : Char) (s : Str) : join c (pieces c s) = s := by
  induction s with
  | nil => rfl
  | cons x s ih =>
    simp only [pieces]
    split
    · next h =>
      subst h
      cases hp : pieces x s with
      | nil => exact absurd hp (pieces_ne x s)
      | cons p ps => rw [hp] at ih; simp [join, ih]
    · cases hp : pieces c s with
      | nil => exact absurd hp (pieces_ne c s)
      | cons p ps =>
        rw [hp] at ih
        cases ps with
        | nil => simp only [join] at ih ⊢; rw [ih]
        | cons q qs => simp only [join] at ih ⊢; rw [List.cons_append, ih]

theorem synonyms_lookup : ∀ s ∈ synonyms, ∀ n ∈ s.2, typeFilters.lookup n = some s.1 := by decide

theorem lookup_synonym : ∀ p ∈ typeFilters, ∃ s ∈ synonyms, p.1 ∈ s.2 := by decide

theorem lookup_none (n : String) (h : ∀ s ∈ synonyms, n ∉ s.2) : typeFilters.lookup n = none := by
  rw [List.lookup_eq_none_iff]
  intro p hp
  obtain ⟨s, hs, hn⟩ := lookup_synonym p hp
  have : n ≠ p.1 := fun e => h s hs (e ▸ hn)
  simpa using this

theorem filterOf_names (known : Str → Bool) (t f : Str) (h : Names known t f) : filterOf known t = some f := by
  obtain ⟨w, args, rfl, hw, ha, h⟩ := h
  have hp : ∀ base : Str, (pieces ' ' (w ++ args)).headD [] = w ∧ join ' ' (base :: (pieces ' ' (w ++ args)).tail) = base ++ args := by
    intro base
    rcases ha with rfl | ⟨r, rfl⟩
    · rw [List.append_nil, pieces_free ' ' w hw]
      simp [join]
    · rw [pieces_cut ' ' w r hw]
      refine ⟨rfl, ?_⟩
      have := join_pieces ' ' r
      cases hp : pieces ' ' r with
      | nil => exact absurd hp (pieces_ne ' ' r)
      | cons p ps => rw [hp] at this; simp [join, this]
  unfold filterOf
  simp only [(hp []).1, lower]
  rcases h with ⟨base, names, hs, hn, rfl⟩ | ⟨hs, hk, rfl⟩
  · have hl := synonyms_lookup _ hs _ hn
    simp only at hl
    rw [hl]
    simp only
    rw [(hp _).2]
  · rw [lookup_none _ hs]
    simp only [hk, if_true]
    rw [(hp _).2]

theorem takeWhile_free (c : Char) (p s : Str) (h : c ∉ p) : (p ++ c :: s).takeWhile (· ≠ c) = p := by
  induction p with
  | nil => simp
  | cons x p ih =>
    simp only [List.mem_cons, not_or] at h
    rw [List.cons_append, List.takeWhile_cons_of_pos (by simpa using Ne.symm h.1), ih h.2]

theorem annotation_written (name t : Str) (ts : List Str) (hn : '[' ∉ name) :
    annotation (written name (t :: ts)) = some (name, t ++ ts.flatMap fun t => ';' :: t) := by
  generalize hb : (t ++ ts.flatMap fun t => ';' :: t) = body
  have hw : written name (t :: ts) = name ++ '[' :: (body ++ [']']) := by simp [written, ← hb]
  unfold annotation
  rw [hw, if_pos (by constructor <;> simp)]
  have h1 : (name ++ '[' :: (body ++ [']'])).takeWhile (· ≠ '[') = name := takeWhile_free '[' name _ hn
  have h2 : ((name ++ '[' :: (body ++ [']'])).reverse.takeWhile (· ≠ ']')) = [] := by simp
  simp only [h1, h2, List.length_nil, Nat.sub_zero]
  have h3 : (name ++ '[' :: (body ++ [']'])).length - 1 = (name ++ '[' :: body).length := by simp
  have h4 : name ++ '[' :: (body ++ [']']) = (name ++ '[' :: body) ++ [']'] := by simp
  rw [h3, h4, List.take_left]
  have h5 : (name ++ '[' :: body) ++ [']'] = name ++ ('[' :: body ++ [']']) := by simp
  rw [h5, List.take_left]
  have h6 : name ++ '[' :: body = (name ++ ['[']) ++ body := by simp
  rw [h6, show name.length + 1 = (name ++ ['[']).length by simp, List.drop_left]

theorem filterMap_names (known : Str → Bool) (ts : List (Str × Str)) (h : ∀ t ∈ ts, Names known t.1 t.2) :
    (ts.map (·.1)).filterMap (filterOf known) = ts.map (·.2) := by
  induction ts with
  | nil => rfl
  | cons t ts ih =>
    rw [List.map_cons, List.filterMap_cons, filterOf_names known _ _ (h t (by simp))]
    simp only [List.map_cons, ih fun t ht => h t (by simp [ht])]

/-- The column `name[t1;…;tn]` and its conversions. -/
theorem parse_written (known : Str → Bool) (name : Str) (hn : Plain name) (ts : List (Str × Str)) (h : ∀ t ∈ ts, Plain t.1 ∧ Names known t.1 t.2)
    (cast : Option Str) :
    (parse known ⟨written name (ts.map (·.1)), cast⟩).name = name ∧
      (parse known ⟨written name (ts.map (·.1)), cast⟩).filters = cast.toList ++ ts.map (·.2) := by
  cases ts with
  | nil =>
    have : annotation name = none := by unfold annotation; rw [if_neg]; exact fun h => hn.1 h.1
    simp [parse, written, this]
  | cons t ts =>
    unfold parse
    simp only [List.map_cons, annotation_written name _ _ hn.1]
    rw [pieces_list]
    · refine ⟨by trivial, ?_⟩
      have := filterMap_names known (t :: ts) fun u hu => (h u hu).2
      rw [List.map_cons] at this
      rw [this]
      rfl
    · intro p hp
      rw [← List.map_cons (f := fun x : Str × Str => x.1)] at hp
      obtain ⟨u, hu, rfl⟩ := List.mem_map.1 hp
      exact (h u hu).1.2.2

end Verif.Props.ColumnLemmas

namespace Verif.Props
open Verif.Val Verif.Column Verif.SqlColumn ColumnLemmas

section
variable {V : Type} (conv : Str → V → V) (known : Str → Bool)

/-- **C137**: `a`, `a[t]` and `a[t;u]` are the value of `a`, converted to `t`, then to `u`, for every type, in upper or lower case,
with or without arguments. -/
theorem C137_annotation_partial (name : Str) (hn : Plain name) (ts : List (Str × Str)) (h : ∀ t ∈ ts, Plain t.1 ∧ Names known t.1 t.2)
    (hlen : ts.length ≤ 2) (row : Str → V) (cur : V) :
    eval conv row cur (compile (parse known ⟨written name (ts.map (·.1)), none⟩)) = convertAll conv (ts.map (·.2)) (row name) := by
  obtain ⟨h1, h2⟩ := parse_written known name hn ts h none
  match ts, hlen, h1, h2 with
  | [], _, h1, h2 => simp only [List.map_nil, Option.toList_none, List.append_nil] at h1 h2 ⊢; simp [compile, h1, h2, eval, convertAll]
  | [t], _, h1, h2 => simp only [List.map_cons, List.map_nil] at h1 h2 ⊢; simp [compile, h1, h2, eval, convertAll]
  | [t, u], _, h1, h2 =>
    simp only [List.map_cons, List.map_nil] at h1 h2 ⊢
    simp [compile, h1, h2, eval, convertAll, compileFilter]

/-- **C137**: a type that there is no filter for is ignored. -/
theorem C137_unknown (name : Str) (hn : '[' ∉ name) (t : Str) (ht : ';' ∉ t)
    (hu : ∀ word, word ++ t.dropWhile (· ≠ ' ') = t → known (word.map Char.toLower) = false ∧
      ∀ s ∈ synonyms, String.ofList (word.map Char.toLower) ∉ s.2) (row : Str → V) (cur : V) :
    eval conv row cur (compile (parse known ⟨written name [t], none⟩)) = row name := by
  have hw : (pieces ' ' t).headD [] ++ t.dropWhile (· ≠ ' ') = t := by
    have : ∀ t : Str, (pieces ' ' t).headD [] = t.takeWhile (· ≠ ' ') := by
      intro t
      induction t with
      | nil => rfl
      | cons x t ih =>
        by_cases hx : x = ' '
        · simp [pieces, hx]
        · rw [List.takeWhile_cons_of_pos (by simpa using hx), ← ih]
          cases hp : pieces ' ' t with
          | nil => exact absurd hp (pieces_ne ' ' t)
          | cons p ps => simp [pieces, hx, hp]
    rw [this, List.takeWhile_append_dropWhile]
  obtain ⟨hk, hs⟩ := hu _ hw
  have hno : typeFilters.lookup (String.ofList (lower ((pieces ' ' t).headD []))) = none := by
    have key : ∀ l : List (String × String), (∀ p ∈ l, ∃ s ∈ synonyms, p.1 ∈ s.2) →
        l.lookup (String.ofList (lower ((pieces ' ' t).headD []))) = none := by
      intro l hl
      rw [List.lookup_eq_none_iff]
      intro p hp
      obtain ⟨s, hs', hp'⟩ := hl p hp
      have := hs s hs'
      simp only [bne_iff_ne, ne_eq]
      intro e
      rw [← e] at hp'
      exact this hp'
    exact key _ (by decide)
  have hf : filterOf known t = none := by
    unfold filterOf
    simp only [hno]
    rw [show known (lower ((pieces ' ' t).headD [])) = false from hk]
    rfl
  unfold parse
  simp only [annotation_written name t [] hn, List.flatMap_nil, List.append_nil, pieces_free ';' t ht, List.filterMap_cons, hf,
    List.filterMap_nil, compile, Option.toList_none, eval]

/-- **C137 is violated by three types**: the compiled column of `a[t;u;v]` does not depend on `u`, so that no meaning of compiled columns is
right for all of them: there are conversions for which `a[int;str;bool]` and `a[int;float;bool]` must differ. -/
theorem C137_three_violated :
    ¬ ∃ ev : C → (Str → Nat) → Nat, ∀ (name : Str) (ts : List (Str × Str)) (row : Str → Nat), Plain name → (∀ t ∈ ts, Plain t.1 ∧ Names known t.1 t.2) →
      ts.length = 3 →
      ev (compile (parse known ⟨written name (ts.map (·.1)), none⟩)) row
        = convertAll (fun f x => if f = "str".toList then x + 1 else x) (ts.map (·.2)) (row name) := by
  rintro ⟨ev, h⟩
  have nm : ∀ s ∈ ["int", "str", "float", "bool"], Plain s.toList ∧ Names known s.toList s.toList := by
    intro s hs
    have : s ∈ ["int", "str", "float", "bool"] → Plain s.toList ∧ ' ' ∉ s.toList ∧ (∃ n ∈ synonyms, n.1 = s ∧ s ∈ n.2) ∧
        String.ofList (s.toList.map Char.toLower) = s := by
      intro hs
      simp only [List.mem_cons, List.not_mem_nil, or_false] at hs
      rcases hs with rfl | rfl | rfl | rfl <;> refine ⟨⟨?_, ?_, ?_⟩, ?_, ?_, ?_⟩ <;> decide
    obtain ⟨h1, h2, ⟨n, hn, e, hm⟩, hl⟩ := this hs
    refine ⟨h1, s.toList, [], by simp, h2, Or.inl rfl, Or.inl ⟨n.1, n.2, hn, by rw [hl]; exact hm, by simp [e]⟩⟩
  have key : ∀ s, s ∈ ["str", "float"] → ∀ t ∈ [("int".toList, "int".toList), (s.toList, s.toList), ("bool".toList, "bool".toList)],
      Plain t.1 ∧ Names known t.1 t.2 := by
    intro s hs t ht
    simp only [List.mem_cons, List.not_mem_nil, or_false] at hs ht
    rcases ht with rfl | rfl | rfl
    · exact nm "int" (by simp)
    · rcases hs with rfl | rfl
      · exact nm "str" (by simp)
      · exact nm "float" (by simp)
    · exact nm "bool" (by simp)
  have a := h ['a'] [("int".toList, "int".toList), ("str".toList, "str".toList), ("bool".toList, "bool".toList)] (fun _ => 0)
    ⟨by decide, by decide, by decide⟩ (key "str" (by simp)) rfl
  have b := h ['a'] [("int".toList, "int".toList), ("float".toList, "float".toList), ("bool".toList, "bool".toList)] (fun _ => 0)
    ⟨by decide, by decide, by decide⟩ (key "float" (by simp)) rfl
  have same : compile (parse known ⟨written ['a'] ["int".toList, "str".toList, "bool".toList], none⟩)
      = compile (parse known ⟨written ['a'] ["int".toList, "float".toList, "bool".toList], none⟩) := by
    obtain ⟨a1, a2⟩ := parse_written known ['a'] ⟨by decide, by decide, by decide⟩ _ (key "str" (by simp)) none
    obtain ⟨b1, b2⟩ := parse_written known ['a'] ⟨by decide, by decide, by decide⟩ _ (key "float" (by simp)) none
    simp only [List.map_cons, List.map_nil] at a1 a2 b1 b2
    unfold compile
    rw [a1, a2, b1, b2]
    rfl
  simp only [List.map_cons, List.map_nil] at a b
  rw [same, b] at a
  revert a
  decide

/-- **C138**: `CAST(a AS T)` of a column without annotation is its value converted to `T`. -/
theorem C138_cast_partial (name f : Str) (hn : Plain name) (row : Str → V) (cur : V) :
    eval conv row cur (compile (parse known ⟨name, some f⟩)) = conv f (row name) := by
  obtain ⟨h1, h2⟩ := parse_written known name hn [] (by simp) (some f)
  simp only [List.map_nil, written] at h1 h2
  simp [compile, h1, h2, eval]

/-- A cast of an annotated column: the cast comes first, then the annotation. -/
theorem C138_order_reversed (name f t u : Str) (hn : Plain name) (ht : Plain t) (hu : Names known t u) (row : Str → V) (cur : V) :
    eval conv row cur (compile (parse known ⟨written name [t], some f⟩)) = conv u (conv f (row name)) := by
  obtain ⟨h1, h2⟩ := parse_written known name hn [(t, u)] (by simpa using ⟨ht, hu⟩) (some f)
  simp only [List.map_cons, List.map_nil, Option.toList_some, List.singleton_append] at h1 h2
  simp [compile, h1, h2, eval, compileFilter]

/-- **C138 is violated by a cast of an annotated column**: `CAST(a[t] AS f)` is not `a[t]` converted to `f`, for any two different
conversions. -/
theorem C138_order_violated (name f t u : Str) (hn : Plain name) (ht : Plain t) (hu : Names known t u) (hne : f ≠ u) :
    ∃ (conv : Str → Nat → Nat) (row : Str → Nat), ∀ cur,
      eval conv row cur (compile (parse known ⟨written name [t], some f⟩)) ≠ conv f (conv u (row name)) := by
  refine ⟨fun g x => if g = f then 2 * x else x + 1, fun _ => 1, fun cur => ?_⟩
  rw [C138_order_reversed _ known name f t u hn ht hu]
  simp [Ne.symm hne]

/-- The column of a pushed condition on `a[t;…]`: only the first conversion is part of it. -/
theorem where_written (name : Str) (hn : Plain name) (t u : Str) (ts : List (Str × Str)) (ht : Plain t) (hu : Names known t u)
    (h : ∀ t ∈ ts, Plain t.1 ∧ Names known t.1 t.2) :
    whereKey known ⟨written name (t :: ts.map (·.1)), none⟩ = name ++ '|' :: u := by
  obtain ⟨h1, h2⟩ := parse_written known name hn ((t, u) :: ts) (by
    intro x hx
    rcases List.mem_cons.1 hx with rfl | hx
    · exact ⟨ht, hu⟩
    · exact h x hx) none
  simp only [List.map_cons] at h1 h2
  unfold whereKey
  unfold parse at h1 h2 ⊢
  rw [annotation_written name t _ hn.1] at h1 h2 ⊢
  simp only at h1 h2 ⊢
  rw [h2]
  rfl

/-- **C138**: the pushed condition on `a` and `a[t]` is one on the column with this conversion. -/
theorem C138_where_partial (name t u : Str) (hn : Plain name) (ht : Plain t) (hu : Names known t u) :
    whereKey known ⟨name, none⟩ = name ∧ whereKey known ⟨written name [t], none⟩ = name ++ '|' :: u := by
  refine ⟨?_, where_written known name hn t u [] ht hu (by simp)⟩
  have : annotation name = none := by unfold annotation; rw [if_neg]; exact fun h => hn.1 h.1
  simp [whereKey, parse, this]

/-- **C138 is violated by WHERE conditions on casts**: the pushed condition of `CAST(a AS T) = x` is that of `a = x`, for every `T`, so
that whatever the data source does, one of them is wrong on a row where the conversion matters. -/
theorem C138_where_violated (name f : Str) (hn : Plain name) (x : V) (row : Str → V) (hx : conv f (row name) = x) (hr : row name ≠ x)
    (source : Str → V → (Str → V) → Bool) :
    ¬ ((source (whereKey known ⟨name, none⟩) x row = true ↔ row name = x) ∧
      (source (whereKey known ⟨name, some f⟩) x row = true ↔ conv f (row name) = x)) := by
  have : annotation name = none := by unfold annotation; rw [if_neg]; exact fun h => hn.1 h.1
  have h1 : whereKey known ⟨name, none⟩ = name := by simp [whereKey, parse, this]
  have h2 : whereKey known ⟨name, some f⟩ = name := by simp [whereKey, parse, this]
  rw [h1, h2]
  rintro ⟨a, b⟩
  exact hr (a.1 (b.2 hx))

/-- … and by the second type of an annotation. -/
theorem C138_where_second_violated (name t u t' u' : Str) (hn : Plain name) (ht : Plain t) (hu : Names known t u) (ht' : Plain t') (hu' : Names known t' u')
    (x : V) (row : Str → V) (hx : conv u' (conv u (row name)) = x) (hr : conv u (row name) ≠ x) (source : Str → V → (Str → V) → Bool) :
    ¬ ((source (whereKey known ⟨written name [t], none⟩) x row = true ↔ conv u (row name) = x) ∧
      (source (whereKey known ⟨written name [t, t'], none⟩) x row = true ↔ conv u' (conv u (row name)) = x)) := by
  have h1 := where_written known name hn t u [] ht hu (by simp)
  have h2 := where_written known name hn t u [(t', u')] ht hu (by simpa using ⟨ht', hu'⟩)
  simp only [List.map_cons, List.map_nil] at h1 h2
  rw [h1, h2]
  rintro ⟨a, b⟩
  exact hr (a.1 (b.2 hx))

/-- **C138 is violated by subqueries**: comparing a column with a subquery works exactly when the column has no conversion (otherwise
TypeError). -/
theorem C138_subquery_violated (name : Str) (hn : Plain name) (ts : List (Str × Str)) (h : ∀ t ∈ ts, Plain t.1 ∧ Names known t.1 t.2)
    (cast : Option Str) (column : Str) :
    (subqueryColumn known ⟨written name (ts.map (·.1)), cast⟩ column).isSome = true ↔ ts = [] ∧ cast = none := by
  obtain ⟨_, h2⟩ := parse_written known name hn ts h cast
  unfold subqueryColumn
  rw [h2]
  cases cast <;> cases ts <;> simp

end

/-- The hypotheses are met: `amount[VARCHAR %.02f;int]`. -/
example (known : Str → Bool) : Plain "amount".toList ∧ Names known "VARCHAR %.02f".toList "str %.02f".toList ∧ Names known "int".toList "int".toList ∧
    written "amount".toList ["VARCHAR %.02f".toList, "int".toList] = "amount[VARCHAR %.02f;int]".toList := by
  refine ⟨⟨by decide, by decide, by decide⟩, ?_, ?_, by decide⟩
  · exact ⟨"VARCHAR".toList, " %.02f".toList, by decide, by decide, Or.inr ⟨"%.02f".toList, by decide⟩, Or.inl ⟨"str",
      ["str", "string", "char", "varchar", "nchar", "text", "mediumtext", "tinytext"], by decide, by decide, by decide⟩⟩
  · exact ⟨"int".toList, [], by decide, by decide, Or.inl rfl, Or.inl ⟨"int", ["int", "bigint", "mediumint", "smallint", "tinyint"],
      by decide, by decide, by decide⟩⟩

/-- A type the library knows by itself: `a[Json x]`. -/
example : Names (fun n => n = "json".toList) "Json x".toList "json x".toList :=
  ⟨"Json".toList, " x".toList, by decide, by decide, Or.inr ⟨['x'], rfl⟩, Or.inr ⟨by decide, by decide, by decide⟩⟩

end Verif.Props
