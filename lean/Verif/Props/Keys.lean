import Verif.Model.Keys
import Verif.Spec.Keys
import Verif.Props.Column
/-! C166: the key of the rows a SELECT writes. -/
namespace Verif.Props.KeyProofs
open Verif.Val Verif.Column Verif.Keys
open Verif.Props.ColumnLemmas

/-- What is written, as the model sees it. -/
def seen : KeySpec.Item → Keys.Item
  | .column name types opts result own => .col (KeySpec.text name types opts) result own
  | .expr result fields => .calc result fields
  | .fixed result => .fixed result

/-- Names, types and options without the characters of the notation; columns that are read are words; options come after types. -/
def Usual (word : Str → Bool) : KeySpec.Item → Prop
  | .column name types opts _ _ => word name = true ∧
      (∀ c ∈ ['[', ']', '<', '>'], c ∉ name ∧ (∀ t ∈ types, c ∉ t) ∧ ∀ o ∈ opts, c ∉ o) ∧ (∀ o ∈ opts, ',' ∉ o) ∧
      (opts ≠ [] → types ≠ none)
  | _ => True

theorem seen_result (i : KeySpec.Item) : (seen i).result = i.result := by
  cases i <;> rfl

theorem between_end (a b : Char) (pre mid : Str) (ha : a ∉ pre) : between a b (pre ++ a :: (mid ++ [b])) = some mid := by
  unfold between
  have h1 : a ∈ pre ++ a :: (mid ++ [b]) ∧ b ∈ pre ++ a :: (mid ++ [b]) := by simp
  rw [if_pos h1, takeWhile_free a pre _ ha]
  have h2 : (pre ++ a :: (mid ++ [b])).reverse.takeWhile (· ≠ b) = [] := by simp
  rw [h2]
  have h3 : (pre ++ a :: (mid ++ [b])).take ((pre ++ a :: (mid ++ [b])).length - 1 - ([] : Str).length) = pre ++ a :: mid := by
    have e : pre ++ a :: (mid ++ [b]) = (pre ++ a :: mid) ++ [b] := by simp
    rw [e]
    apply List.take_left'
    simp
  rw [h3]
  have e : pre ++ a :: mid = (pre ++ [a]) ++ mid := by simp
  rw [e, List.drop_left' (by simp)]

theorem parse_name (known : Str → Bool) (name t r : Str) (hn : '[' ∉ name) :
    (parse known ⟨name ++ '[' :: (t ++ [']']) ++ r, none⟩).name = name := by
  have h1 : '[' ∈ name ++ '[' :: (t ++ [']']) ++ r ∧ ']' ∈ name ++ '[' :: (t ++ [']']) ++ r := by simp
  have h2 : (name ++ '[' :: (t ++ [']']) ++ r).takeWhile (· ≠ '[') = name := by
    rw [List.append_assoc, List.cons_append]; exact takeWhile_free '[' name _ hn
  simp only [parse, annotation, if_pos h1, h2]
  rw [List.append_assoc, List.take_left' rfl]

theorem parse_bare (known : Str → Bool) (name : Str) (hn : '[' ∉ name) : (parse known ⟨name, none⟩).name = name := by
  simp [parse, annotation, hn]

/-- The name and the options are read back from what is written. -/
theorem read_back (known word : Str → Bool) (name : Str) (types : Option Str) (opts : List Str) (own : Bool) (r : Str)
    (h : Usual word (.column name types opts r own)) :
    (parse known ⟨KeySpec.text name types opts, none⟩).name = name ∧ options (KeySpec.text name types opts) = opts := by
  obtain ⟨_, hc, hcm, hp⟩ := h
  have hb := hc '[' (by simp)
  have hl := hc '<' (by simp)
  cases types with
  | none =>
    cases opts with
    | cons o os => exact absurd rfl (hp (by simp))
    | nil =>
      simp only [KeySpec.text, List.append_nil]
      refine ⟨parse_bare known name hb.1, ?_⟩
      simp [options, between, hl.1]
  | some t =>
    have ht := hl.2.1 t rfl
    cases opts with
    | cons o os =>
      simp only [KeySpec.text]
      refine ⟨parse_name known name t _ hb.1, ?_⟩
      have := between_end '<' '>' (name ++ '[' :: (t ++ [']'])) (o ++ (os.flatMap fun o => ',' :: o)) (by simp [hl.1, ht])
      simp only [options, this]
      exact pieces_list ',' o os hcm
    | nil =>
      simp only [KeySpec.text]
      refine ⟨parse_name known name t [] hb.1, ?_⟩
      have : ¬ (('<' ∈ name ++ '[' :: (t ++ [']']) ++ []) ∧ ('>' ∈ name ++ '[' :: (t ++ [']']) ++ [])) := by simp [hl.1, ht]
      simp only [options, between, if_neg this]

variable (known word : Str → Bool)

/-- What the keys are after the columns `pre`. -/
def Inv (pre : List KeySpec.Item) (k : Keys) : Prop :=
  (k.marked = true ∧ KeySpec.marks word pre ≠ [] ∧ k.out = (KeySpec.marks word pre).map Prod.snd ∧
    k.loader = (KeySpec.marks word pre).map Prod.fst) ∨
  (k.marked = false ∧ KeySpec.marks word pre = [] ∧ k.out = (pre.findSome? (KeySpec.candidate word)).toList ∧
    k.loader = KeySpec.readByFirst word pre)

theorem marks_snoc (pre : List KeySpec.Item) (i : KeySpec.Item) :
    KeySpec.marks word (pre ++ [i]) = KeySpec.marks word pre ++ KeySpec.marks word [i] := by
  simp [KeySpec.marks, List.filterMap_append]

theorem find_candidate (pre : List KeySpec.Item) :
    pre.findSome? (KeySpec.candidate word) = (pre.find? fun i => (KeySpec.candidate word i).isSome).bind (KeySpec.candidate word) := by
  induction pre with
  | nil => rfl
  | cons i pre ih => cases h : KeySpec.candidate word i <;> simp [List.findSome?_cons, h, ih]

theorem own_candidate {i : KeySpec.Item} (h : KeySpec.own word i = true) :
    (KeySpec.candidate word i).isSome = true ∧ KeySpec.sources word i ≠ [] := by
  unfold KeySpec.own at h
  split at h
  · simp [KeySpec.candidate, KeySpec.sources, h]
  · cases h

/-- No candidate: neither is there a column of the table. -/
theorem no_own {pre : List KeySpec.Item} (h : pre.find? (fun i => (KeySpec.candidate word i).isSome) = none) :
    pre.find? (KeySpec.own word) = none := by
  rw [List.find?_eq_none] at h ⊢
  intro i hi hw
  exact h i hi (own_candidate word hw).1

/-- One more column. -/
theorem readBy_snoc (pre : List KeySpec.Item) (i : KeySpec.Item) :
    KeySpec.readByFirst word (pre ++ [i]) =
      match pre.findSome? (KeySpec.candidate word) with
      | none => KeySpec.sources word i
      | some _ => if KeySpec.readByFirst word pre = [] ∧ KeySpec.own word i = true then KeySpec.sources word i else KeySpec.readByFirst word pre := by
  rw [find_candidate]
  simp only [KeySpec.readByFirst, List.find?_append]
  rcases Option.eq_none_or_eq_some (pre.find? (fun i => (KeySpec.candidate word i).isSome)) with hf | ⟨j, hf⟩
  · have ho := no_own word hf
    simp only [hf, Option.none_or, Option.bind_none, ho]
    cases hc : (KeySpec.candidate word i).isSome with
    | false =>
      have hs : KeySpec.sources word i = [] := by
        cases i with
        | column n t o r ow => cases ow <;> cases hw : word r <;> simp_all [KeySpec.candidate, KeySpec.sources]
        | expr r f => cases hw : word r <;> simp_all [KeySpec.candidate, KeySpec.sources]
        | fixed r => rfl
      simp [hc, hs]
    | true =>
      simp only [List.find?_cons, hc]
      by_cases hs : KeySpec.sources word i = []
      · simp only [hs, ne_eq, not_true, if_false]
        cases hw : KeySpec.own word i with
        | true => exact absurd hs (own_candidate word hw).2
        | false => simp
      · simp [hs]
  · have hj : (KeySpec.candidate word j).isSome = true := List.find?_some (p := fun i => (KeySpec.candidate word i).isSome) hf
    obtain ⟨x, hx⟩ := Option.isSome_iff_exists.1 hj
    simp only [hf, Option.some_or, Option.bind_some, hx]
    by_cases hs : KeySpec.sources word j = []
    · simp only [hs, ne_eq, not_true, if_false]
      cases ho : pre.find? (KeySpec.own word) with
      | some k =>
        have hk := (own_candidate word (List.find?_some ho)).2
        simp [hk]
      | none =>
        cases hw : KeySpec.own word i <;> simp [hw]
    · simp [hs]

theorem readBy_none {pre : List KeySpec.Item} (hf : pre.findSome? (KeySpec.candidate word) = none) : KeySpec.readByFirst word pre = [] := by
  rw [find_candidate] at hf
  rcases Option.eq_none_or_eq_some (pre.find? (fun i => (KeySpec.candidate word i).isSome)) with hg | ⟨j, hg⟩
  · simp [KeySpec.readByFirst, hg]
  · have hj : (KeySpec.candidate word j).isSome = true := List.find?_some (p := fun i => (KeySpec.candidate word i).isSome) hg
    obtain ⟨x, hx⟩ := Option.isSome_iff_exists.1 hj
    rw [hg, Option.bind_some, hx] at hf; cases hf

theorem step_inv (pre : List KeySpec.Item) (i : KeySpec.Item) (h : Usual word i) (k : Keys) (hk : Inv word pre k) :
    Inv word (pre ++ [i]) (step known word k (seen i)) := by
  unfold Inv
  rw [marks_snoc, List.findSome?_append, readBy_snoc]
  cases i with
  | fixed r =>
    have e1 : KeySpec.marks word [.fixed r] = [] := rfl
    have e2 : List.findSome? (KeySpec.candidate word) [.fixed r] = none := rfl
    rw [e1, e2, List.append_nil, Option.or_none]
    rcases hk with ⟨a, b, c, d⟩ | ⟨a, b, c, d⟩
    · exact .inl ⟨a, b, c, d⟩
    · refine .inr ⟨a, b, c, ?_⟩
      simp only [seen, step, d]
      cases hf : List.findSome? (KeySpec.candidate word) pre with
      | none =>
        simp [readBy_none word hf, KeySpec.sources]
      | some x => simp [KeySpec.own]
  | expr r f =>
    have e1 : KeySpec.marks word [.expr r f] = [] := rfl
    have e2 : List.findSome? (KeySpec.candidate word) [.expr r f] = if word r then some r else none := by
      cases hw : word r <;> simp [KeySpec.candidate, hw]
    rw [e1, e2, List.append_nil]
    simp only [seen, step]
    rcases hk with ⟨a, b, c, d⟩ | ⟨a, b, c, d⟩
    · left; simp [a, b, c, d]
    · right
      cases hf : List.findSome? (KeySpec.candidate word) pre with
      | some x =>
        rw [hf] at c
        simp [a, b, c, d, KeySpec.own]
      | none =>
        rw [hf] at c
        simp only [Option.toList_none] at c
        have hl := readBy_none word hf
        rw [hl] at d
        cases hw : word r with
        | false => simp [a, b, c, d, KeySpec.sources, hw]
        | true =>
          simp only [a, c, List.isEmpty_nil, Bool.not_false, Bool.and_self, if_true, KeySpec.sources, hw]
          by_cases he : (List.map Prod.fst (List.filter (fun f => word f.1 && f.2) f)) = []
          · simp [he, a, b, d]
          · have : (List.map Prod.fst (List.filter (fun f => word f.1 && f.2) f)).isEmpty = false := by simpa using he
            rw [this]; simp [a, b]
  | column name types opts r own =>
    obtain ⟨hname, hpk⟩ := read_back known word name types opts own r h
    have hw0 := h.1
    simp only [seen, step, hname, hpk, hw0, Bool.not_true, Bool.false_or]
    have hlo (hf : List.findSome? (KeySpec.candidate word) pre = none) : KeySpec.readByFirst word pre = [] := readBy_none word hf
    cases hw : word r with
    | false =>
      have e1 : KeySpec.marks word [.column name types opts r own] = [] := by simp [KeySpec.marks, hw]
      have e2 : List.findSome? (KeySpec.candidate word) [.column name types opts r own] = none := by
        cases own <;> simp [KeySpec.candidate, hw]
      have e3 : KeySpec.own word (.column name types opts r own) = false := by cases own <;> simp [KeySpec.own, hw]
      have e4 : KeySpec.sources word (.column name types opts r own) = [] := by cases own <;> simp [KeySpec.sources, hw]
      rw [e1, e2, e3, e4, List.append_nil, Option.or_none]
      rcases hk with ⟨a, b, c, d⟩ | ⟨a, b, c, d⟩
      · left; simpa using ⟨a, b, c, d⟩
      · right
        refine ⟨by simpa using a, b, by simpa using c, ?_⟩
        cases hf : List.findSome? (KeySpec.candidate word) pre with
        | none => simpa [hlo hf] using d
        | some x => simpa using d
    | true =>
      by_cases hm : KeySpec.pk ∈ opts
      · have hm' : ['p', 'k'] ∈ opts := hm
        have e1 : KeySpec.marks word [.column name types opts r own] = [(name, r)] := by simp [KeySpec.marks, hw, hm]
        rw [e1]
        left
        rcases hk with ⟨a, b, c, d⟩ | ⟨a, b, c, d⟩ <;> simp [hm', a, b, c, d]
      · have hm' : ['p', 'k'] ∉ opts := hm
        have e1 : KeySpec.marks word [.column name types opts r own] = [] := by simp [KeySpec.marks, hm]
        rw [e1, List.append_nil]
        simp only [hm']
        rcases hk with ⟨a, b, c, d⟩ | ⟨a, b, c, d⟩
        · left; simp [a, b, c, d]
        · right
          cases own with
          | false =>
            have e2 : List.findSome? (KeySpec.candidate word) [.column name types opts r false] = none := rfl
            have e3 : KeySpec.own word (.column name types opts r false) = false := rfl
            have e4 : KeySpec.sources word (.column name types opts r false) = [] := rfl
            rw [e2, e3, e4, Option.or_none]
            cases hf : List.findSome? (KeySpec.candidate word) pre with
            | none => rw [hf] at c; have := hlo hf; rw [this] at d; simp [a, b, c, d]
            | some x => rw [hf] at c; simp [a, b, c, d]
          | true =>
            have e2 : List.findSome? (KeySpec.candidate word) [.column name types opts r true] = some r := by simp [KeySpec.candidate, hw]
            have e3 : KeySpec.own word (.column name types opts r true) = true := by simp [KeySpec.own, hw]
            have e4 : KeySpec.sources word (.column name types opts r true) = [name] := by simp [KeySpec.sources, hw]
            rw [e2, e3, e4]
            cases hf : List.findSome? (KeySpec.candidate word) pre with
            | some x =>
              rw [hf] at c
              simp only [Option.toList_some] at c
              by_cases hr : KeySpec.readByFirst word pre = []
              · rw [hr] at d; simp [a, b, c, d, hr]
              · have : k.loader.isEmpty = false := by rw [d]; simpa using hr
                simp [a, b, c, d, hr, this]
            | none =>
              rw [hf] at c
              simp only [Option.toList_none] at c
              have := hlo hf
              rw [this] at d
              simp [a, b, c, d]

theorem fold_inv (items pre : List KeySpec.Item) (h : ∀ i ∈ items, Usual word i) (k : Keys) (hk : Inv word pre k) :
    Inv word (pre ++ items) ((items.map seen).foldl (step known word) k) := by
  induction items generalizing pre k with
  | nil => simpa using hk
  | cons i items ih =>
    have := ih (pre ++ [i]) (fun j hj => h j (List.mem_cons_of_mem _ hj)) _ (step_inv known word pre i (h i List.mem_cons_self) k hk)
    simpa using this

end Verif.Props.KeyProofs

namespace Verif.Props
open Verif.Val Verif.Keys KeyProofs

/-- **C166** (partial).  The key of the rows a SELECT writes is the list of the columns marked `<pk>`, or the first column of the table
of FROM (or expression) when there are none, or, without FROM, the first column; and the columns by which the table of FROM is read are
the marked ones, or those the key is computed from.  Missing: options without types (`C166_untyped_violated`). -/
theorem C166_key_partial (known word : Str → Bool) (hasFrom : Bool) (items : List KeySpec.Item) (h : ∀ i ∈ items, Usual word i) :
    (keys known word hasFrom (items.map seen)).out = KeySpec.key word hasFrom items ∧
      (keys known word hasFrom (items.map seen)).loader = KeySpec.readBy word items := by
  have := fold_inv known word items [] h {} (by right; simp [KeySpec.marks, KeySpec.readByFirst])
  simp only [List.nil_append] at this
  generalize hk : (items.map seen).foldl (step known word) {} = k at this
  have hres : (items.map seen).map Keys.Item.result = items.map KeySpec.Item.result := by
    rw [List.map_map]; apply List.map_congr_left; intro i _; exact seen_result i
  simp only [keys, hk, hres, KeySpec.key, KeySpec.readBy]
  rcases this with ⟨a, b, c, d⟩ | ⟨a, b, c, d⟩
  · rw [if_pos b, if_pos b]
    have : k.out.isEmpty = false := by rw [c]; simpa using b
    rw [this, Bool.and_false, if_neg Bool.false_ne_true]
    exact ⟨c, d⟩
  · rw [b, if_neg (fun h : ([] : List (Str × Str)) ≠ [] => h rfl), if_neg (fun h : ([] : List (Str × Str)) ≠ [] => h rfl)]
    refine ⟨?_, by rw [← d]; split <;> rfl⟩
    cases hf : List.findSome? (KeySpec.candidate word) items with
    | some r =>
      rw [hf] at c
      have : k.out.isEmpty = false := by rw [c]; rfl
      rw [this, Bool.and_false, if_neg Bool.false_ne_true, c]
      rfl
    | none => rw [hf] at c; cases hasFrom <;> simp [c]

/-- The text of the key names its columns one by one: keys with different columns have different texts (names of columns of a key are
words, in which there is no `+`), except that the key `id` is also that of a SELECT without one. -/
theorem C166_text (l l' : List Str) (h : ∀ n ∈ l, '+' ∉ n) (h' : ∀ n ∈ l', '+' ∉ n) (hl : l ≠ []) (hl' : l' ≠ [])
    (he : keyText l = keyText l') : l = l' := by
  have e (l : List Str) (h : ∀ n ∈ l, '+' ∉ n) (hl : l ≠ []) : Column.pieces '+' (keyText l) = l := by
    have : l.isEmpty = false := by simpa using hl
    rw [keyText, this]
    obtain ⟨t, ts, rfl⟩ : ∃ t ts, l = t :: ts := by cases l with | nil => exact absurd rfl hl | cons t ts => exact ⟨t, ts, rfl⟩
    clear this hl
    induction ts generalizing t with
    | nil => exact ColumnLemmas.pieces_free '+' t (h t (by simp))
    | cons u ts ih =>
      have : (if false = true then ['i', 'd'] else Column.join '+' (t :: u :: ts)) = t ++ '+' :: Column.join '+' (u :: ts) := rfl
      rw [this, ColumnLemmas.pieces_cut '+' t _ (h t (by simp))]
      congr 1
      exact ih u (fun n hn => h n (List.mem_cons_of_mem _ hn))
  rw [← e l h hl, ← e l' h' hl', he]

/-- **C166, negated**: a mark on a column written without types is not seen, whatever the column: in ``SELECT a, `b<pk>` FROM t`` the key
is `a`, not `b` (and the column that is read is the one named `b<pk>`). -/
theorem C166_untyped_violated (known word : Str → Bool) (name r : Str) (own : Bool) (hn : '[' ∉ name)
    (hw : word (name ++ ['<', 'p', 'k', '>']) = false) (k : Keys) :
    step known word k (.col (KeySpec.text name none [KeySpec.pk]) r own) = k ∧
      (Column.parse known ⟨KeySpec.text name none [KeySpec.pk], none⟩).name = name ++ ['<', 'p', 'k', '>'] := by
  have e : KeySpec.text name none [KeySpec.pk] = name ++ ['<', 'p', 'k', '>'] := by simp [KeySpec.text, KeySpec.pk]
  have : (Column.parse known ⟨name ++ ['<', 'p', 'k', '>'], none⟩).name = name ++ ['<', 'p', 'k', '>'] := parse_bare known _ (by simp [hn])
  rw [e]
  exact ⟨by simp [step, this, hw], this⟩

/-- **C166, negated**: a marked column of a joined table is also among those by which the table of FROM is read. -/
theorem C166_joined_mark_violated (known word : Str → Bool) (name types r : Str) (k : Keys) (h : Usual word (.column name (some types) [KeySpec.pk] r false))
    (hr : word r = true) :
    name ∈ (step known word k (.col (KeySpec.text name (some types) [KeySpec.pk]) r false)).loader := by
  obtain ⟨hn, hp⟩ := read_back known word name (some types) [KeySpec.pk] false r h
  have hw : word name = true := h.1
  have hm : ['p', 'k'] ∈ [KeySpec.pk] := by simp [KeySpec.pk]
  simp [step, hn, hp, hw, hr, hm]

namespace KeyCases

/-- Words of ASCII letters, digits and `_`. -/
def word : Str → Bool
  | [] => false
  | c :: s => (c.isAlpha || c = '_') && s.all fun c => c.isAlphanum || c = '_'

/-- ``SELECT 1 AS n, a + 1 AS s, `b[int]<pk>`, j.`c[str]<x,pk>` AS c2 FROM …``: the key is `b+c2`. -/
def marked : List KeySpec.Item :=
  [.fixed ['n'], .expr ['s'] [(['a'], true)], .column ['b'] (some ['i', 'n', 't']) [KeySpec.pk] ['b'] true,
   .column ['c'] (some ['s', 't', 'r']) [['x'], KeySpec.pk] ['c', '2'] false]

example : (∀ i ∈ marked, Usual word i) ∧ KeySpec.key word true marked = [['b'], ['c', '2']] ∧
    keyText (KeySpec.key word true marked) = ['b', '+', 'c', '2'] ∧
    KeySpec.text ['c'] (some ['s', 't', 'r']) [['x'], KeySpec.pk] = "c[str]<x,pk>".toList := by
  refine ⟨?_, by decide, by decide, by decide⟩
  intro i hi
  simp only [marked, List.mem_cons, List.not_mem_nil, or_false] at hi
  rcases hi with rfl | rfl | rfl | rfl
  · trivial
  · trivial
  · exact ⟨by decide, by decide, by decide, by decide⟩
  · exact ⟨by decide, by decide, by decide, by decide⟩

/-- Without marks it is the first column of the table of FROM; a joined column does not count; without FROM the first column. -/
example : KeySpec.key word true [.fixed ['n'], .column ['c'] none [] ['c'] false, .column ['b'] none [] ['x'] true] = [['x']] ∧
    KeySpec.key word true [.fixed ['n'], .column ['c'] none [] ['c'] false] = [] ∧
    KeySpec.key word false [.fixed ['n', '-'], .fixed ['m']] = [['m']] ∧ keyText [] = ['i', 'd'] := by decide

/-- `SELECT 1 + 1 AS two, a + b AS s, c AS d FROM t`: the key is `two`, the table is read by `c`; with `s` first, by `a` and `b`. -/
example : KeySpec.key word true [.expr ['t'] [], .expr ['s'] [(['a'], true), (['b'], true)], .column ['c'] none [] ['d'] true] = [['t']] ∧
    KeySpec.readBy word [.expr ['t'] [], .expr ['s'] [(['a'], true), (['b'], true)], .column ['c'] none [] ['d'] true] = [['c']] ∧
    KeySpec.readBy word [.expr ['s'] [(['a'], true), (['b'], true), (['j'], false)], .column ['c'] none [] ['d'] true] = [['a'], ['b']] := by decide

/-- ``SELECT a, `b<pk>` FROM t``. -/
example : (keys (fun _ => false) word true [.col ['a'] ['a'] true, .col (KeySpec.text ['b'] none [KeySpec.pk]) ['b'] true]).out = [['a']] ∧
    KeySpec.key word true [.column ['a'] none [] ['a'] true, .column ['b'] none [KeySpec.pk] ['b'] true] = [['b']] ∧
    word (['b'] ++ ['<', 'p', 'k', '>']) = false := by decide

end KeyCases
end Verif.Props
