import Verif.Model.Hint
import Verif.Spec.Hint
import Verif.Props.Insert
import Verif.Props.Table
/-!
C182: `@use_output_type`.
-/
namespace Verif.Props
open Verif.Val (Str)
open Verif.Table Verif.Hint Verif.HintSpec

/-- What is used of `str.upper`. -/
structure Upper (upper : Str → Str) : Prop where
  empty : upper [] = []
  twice : ∀ s, upper (upper s) = upper s
  ways : ∀ w ∈ HintSpec.ways, upper w = w
  formats : ∀ s, upper s ∉ ["csv".toList, "json".toList, "richtable".toList, "print".toList]

namespace HintLemmas

theorem ways_eq : HintSpec.ways = [['I'], ['U'], ['U', 'I'], ['U', 'D', 'I'], ['D', 'I']] := by decide

theorem updateType_append (upper : Str → Str) (l r : List Str) (h : ∀ o ∈ l, ¬ IsWay upper o) :
    Literal.updateType upper (l ++ r) = Literal.updateType upper r := by
  unfold Literal.updateType
  rw [List.find?_append, List.find?_eq_none.2 (fun x hx => by simp only [decide_eq_true_eq]; exact h x hx)]
  rfl

theorem updateType_first (upper : Str → Str) (pre post : List Str) (w : Str) (h : ∀ o ∈ pre, ¬ IsWay upper o) (hw : IsWay upper w) :
    Literal.updateType upper (pre ++ w :: post) = w :=
  (C69_update_type upper _).1 pre w post rfl hw h

theorem updateType_none (upper : Str → Str) (l : List Str) (h : ∀ o ∈ l, ¬ IsWay upper o) : Literal.updateType upper l = "I".toList :=
  (C69_update_type upper _).2 h

/-- The short name the code takes for a value of the option. -/
def short (upper : Str → Str) (h : Str) : Str := ((names.find? fun n => n.1 = upper h).map (·.2)).getD (upper h)

theorem withHint_some (upper : Str → Str) (h : Str) (hne : h ≠ []) (opts : List Str) :
    withHint upper (some h) opts = if short upper h ∈ opts then opts else opts ++ [short upper h] := by
  simp only [withHint, if_neg hne, short]
  congr

theorem short_cases (upper : Str → Str) (h : Str) :
    (upper h = "INSERT".toList ∧ short upper h = "I".toList) ∨ (upper h = "UPDATE".toList ∧ short upper h = "U".toList) ∨
    (upper h = "UPDATE_INSERT".toList ∧ short upper h = "UI".toList) ∨
    (upper h = "UPDATE_DELETE_INSERT".toList ∧ short upper h = "UDI".toList) ∨
    (upper h = "DELETE_INSERT".toList ∧ short upper h = "DI".toList) ∨ short upper h = upper h := by
  unfold short
  by_cases h1 : upper h = "INSERT".toList
  · exact .inl ⟨h1, by rw [h1]; decide +kernel⟩
  by_cases h2 : upper h = "UPDATE".toList
  · exact .inr (.inl ⟨h2, by rw [h2]; decide +kernel⟩)
  by_cases h3 : upper h = "UPDATE_INSERT".toList
  · exact .inr (.inr (.inl ⟨h3, by rw [h3]; decide +kernel⟩))
  by_cases h4 : upper h = "UPDATE_DELETE_INSERT".toList
  · exact .inr (.inr (.inr (.inl ⟨h4, by rw [h4]; decide +kernel⟩)))
  by_cases h5 : upper h = "DELETE_INSERT".toList
  · exact .inr (.inr (.inr (.inr (.inl ⟨h5, by rw [h5]; decide +kernel⟩))))
  refine .inr (.inr (.inr (.inr (.inr ?_))))
  rw [List.find?_eq_none.2]
  · rfl
  · intro n hn
    simp only [names, List.mem_cons, List.not_mem_nil, or_false] at hn
    rcases hn with rfl | rfl | rfl | rfl | rfl
    · exact fun e => h1 (of_decide_eq_true e).symm
    · exact fun e => h2 (of_decide_eq_true e).symm
    · exact fun e => h3 (of_decide_eq_true e).symm
    · exact fun e => h4 (of_decide_eq_true e).symm
    · exact fun e => h5 (of_decide_eq_true e).symm

/-- The code takes for the value the way it asks for. -/
theorem short_asks {upper : Str → Str} {h w : Str} (ha : Asks upper h w) : short upper h = w := by
  cases ha with
  | short hs =>
    rcases short_cases upper h with ⟨e, _⟩ | ⟨e, _⟩ | ⟨e, _⟩ | ⟨e, _⟩ | ⟨e, _⟩ | e
    all_goals first
      | exact e
      | (exfalso; rw [e] at hs; revert hs; decide +kernel)
  | insert e => unfold short; rw [e]; decide +kernel
  | update e => unfold short; rw [e]; decide +kernel
  | updateInsert e => unfold short; rw [e]; decide +kernel
  | updateDeleteInsert e => unfold short; rw [e]; decide +kernel
  | deleteInsert e => unfold short; rw [e]; decide +kernel

theorem asks_way {upper : Str → Str} (hu : Upper upper) {h w : Str} (ha : Asks upper h w) : IsWay upper w := by
  have key : ∀ w ∈ HintSpec.ways, IsWay upper w := fun w hw => by unfold IsWay; rw [hu.ways w hw]; exact hw
  cases ha with
  | short hs => exact key _ hs
  | insert _ => exact key _ (by decide)
  | update _ => exact key _ (by decide)
  | updateInsert _ => exact key _ (by decide)
  | updateDeleteInsert _ => exact key _ (by decide)
  | deleteInsert _ => exact key _ (by decide)

/-- A value that asks for nothing adds no way of writing. -/
theorem short_none {upper : Str → Str} (hu : Upper upper) {h : Str} (hn : ∀ w, ¬ Asks upper h w) : ¬ IsWay upper (short upper h) := by
  rcases short_cases upper h with ⟨e, _⟩ | ⟨e, _⟩ | ⟨e, _⟩ | ⟨e, _⟩ | ⟨e, _⟩ | e
  · exact absurd (.insert e) (hn _)
  · exact absurd (.update e) (hn _)
  · exact absurd (.updateInsert e) (hn _)
  · exact absurd (.updateDeleteInsert e) (hn _)
  · exact absurd (.deleteInsert e) (hn _)
  · rw [e]
    unfold IsWay
    rw [hu.twice]
    exact fun hw => hn _ (.short hw)

end HintLemmas
open HintLemmas

/-- **C182**: the rows are written in the way that the first of the table's own options that is a way of writing says; else the way
`@use_output_type` asks for; else they are inserted. -/
theorem C182_way (upper : Str → Str) (hu : Upper upper) (hint : Option Str) (opts : List Str) (w : Str)
    (hw : Way upper hint opts w) : Literal.updateType upper (withHint upper hint opts) = w := by
  cases hw with
  | table pre post w e hpre hw =>
    subst e
    have key : ∀ r, Literal.updateType upper ((pre ++ w :: post) ++ r) = w := fun r => by
      rw [List.append_assoc]; exact updateType_first upper pre (post ++ r) w hpre hw
    match hint with
    | none => exact updateType_first upper pre post w hpre hw
    | some h =>
      by_cases hne : h = []
      · simp only [withHint, if_pos hne]; exact updateType_first upper pre post w hpre hw
      · rw [withHint_some upper h hne]
        split
        · exact updateType_first upper pre post w hpre hw
        · exact key _
  | hint h w hno e ha =>
    subst e
    have hne : h ≠ [] := by
      rintro rfl
      have he := hu.empty
      cases ha <;> rename_i hs <;> rw [he] at hs <;> revert hs <;> decide +kernel
    rw [withHint_some upper h hne, short_asks ha, if_neg (fun hm => hno w hm (asks_way hu ha)), updateType_append upper _ _ hno]
    exact updateType_first upper [] [] w (by simp) (asks_way hu ha)
  | default hno ha =>
    match hint with
    | none => exact updateType_none upper opts hno
    | some h =>
      by_cases hne : h = []
      · simp only [withHint, if_pos hne]; exact updateType_none upper opts hno
      · rw [withHint_some upper h hne]
        split
        · exact updateType_none upper opts hno
        · refine updateType_none upper _ fun o ho => ?_
          rcases List.mem_append.1 ho with ho | ho
          · exact hno o ho
          · rw [List.mem_singleton.1 ho]
            exact short_none hu (ha h rfl)

/-- There is always such a way. -/
theorem way_exists (upper : Str → Str) (hint : Option Str) (opts : List Str) : ∃ w, Way upper hint opts w := by
  by_cases h : ∃ o ∈ opts, IsWay upper o
  · induction opts with
    | nil => obtain ⟨o, ho, _⟩ := h; cases ho
    | cons o opts ih =>
      by_cases hw : IsWay upper o
      · exact ⟨o, .table [] opts o rfl (by simp) hw⟩
      · obtain ⟨o', ho', hw'⟩ := h
        rcases List.mem_cons.1 ho' with rfl | ho'
        · exact absurd hw' hw
        obtain ⟨w, hw2⟩ := ih ⟨o', ho', hw'⟩
        cases hw2 with
        | table pre post w e hp hww =>
          exact ⟨w, .table (o :: pre) post w (by rw [e]; rfl)
            (fun x hx => (List.mem_cons.1 hx).elim (fun e => e ▸ hw) (hp x)) hww⟩
        | hint _ _ hno => exact absurd hw' (hno o' ho')
        | default hno => exact absurd hw' (hno o' ho')
  · have hno : ∀ o ∈ opts, ¬ IsWay upper o := fun o ho hw => h ⟨o, ho, hw⟩
    by_cases ha : ∃ x, hint = some x ∧ ∃ w, Asks upper x w
    · obtain ⟨x, e, w, hx⟩ := ha
      exact ⟨w, .hint x w hno e hx⟩
    · exact ⟨_, .default hno fun x e w hx => ha ⟨x, e, w, hx⟩⟩

/-- **C182**: the option changes neither the table a name leads to nor the databases that are opened for it. -/
theorem C182_place (os : Os) (upper : Str → Str) (hu : Upper upper) (hint : Option Str) (dbs : List Db) (r : Ref) :
    (Hint.parseTable os upper hint dbs r).1.db = (Table.parseTable os dbs r).1.db ∧
    (Hint.parseTable os upper hint dbs r).1.name = (Table.parseTable os dbs r).1.name ∧
    (Hint.parseTable os upper hint dbs r).1.tableName = (Table.parseTable os dbs r).1.tableName ∧
    (Hint.parseTable os upper hint dbs r).2 = (Table.parseTable os dbs r).2 := by
  have hf : ∀ driver opts, formatOf driver (withHint upper hint opts) = formatOf driver opts := by
    intro driver opts
    match hint with
    | none => rfl
    | some h =>
      by_cases hne : h = []
      · simp only [withHint, if_pos hne]
      · rw [withHint_some upper h hne]
        split
        · rfl
        · have hs : ∀ f ∈ ["csv".toList, "json".toList, "richtable".toList, "print".toList], f ≠ short upper h := by
            intro f hfm e
            rcases short_cases upper h with ⟨_, e2⟩ | ⟨_, e2⟩ | ⟨_, e2⟩ | ⟨_, e2⟩ | ⟨_, e2⟩ | e2
            all_goals first
              | (rw [e, e2] at hfm; exact hu.formats h hfm)
              | (rw [e, e2] at hfm; revert hfm; decide +kernel)
          unfold formatOf
          congr 1
          have : ∀ l : List Str, (∀ f ∈ l, f ≠ short upper h) →
              l.find? (fun f => (opts ++ [short upper h]).contains f) = l.find? (fun f => opts.contains f) := by
            intro l hl
            induction l with
            | nil => rfl
            | cons f l ih =>
              have h1 : (opts ++ [short upper h]).contains f = opts.contains f := by
                rw [Bool.eq_iff_iff]
                simp [hl f List.mem_cons_self]
              rw [List.find?_cons, List.find?_cons, h1, ih fun g hg => hl g (List.mem_cons_of_mem _ hg)]
          exact this _ hs
  have hl : ∀ db name opts, locate os dbs db name (withHint upper hint opts) = locate os dbs db name opts := by
    intro db name opts
    unfold locate
    split
    · rfl
    · split
      · rfl
      · split
        · rfl
        · simp only [hf]
  simp only [Hint.parseTable, Table.parseTable, hl, and_self]

/-- **C182** as a whole: INSERT INTO a table writes to the table the name leads to, in the way the table's options or else
`@use_output_type` ask for. -/
theorem C182_insert (os : Os) (upper : Str → Str) (hu : Upper upper) (hint : Option Str) (dbs : List Db) (r : Ref) (w : Str)
    (hw : Way upper hint (options r.name).2 w)
    (hcon : ¬ ((Table.parseTable os dbs r).1.db = ['-'] ∧ (Table.parseTable os dbs r).1.name = ['_'])) :
    insertInto os upper hint dbs r =
      SqlInsert.outputText (Table.parseTable os dbs r).1.db (Table.parseTable os dbs r).1.name "id".toList w := by
  obtain ⟨h1, h2, _, _⟩ := C182_place os upper hu hint dbs r
  have h3 : (Hint.parseTable os upper hint dbs r).1.typingOptions = withHint upper hint (options r.name).2 := rfl
  unfold insertInto
  simp only [h1, h2, h3]
  rw [Insert.insertOutput, if_neg hcon, C182_way upper hu hint _ w hw]
  rfl

/-- **C182** for INSERT INTO … SELECT: the rows of the SELECT go to the table, under the keys of the SELECT, in that way. -/
theorem C182_select {S : Type} (py : Verif.Val.Py) (calls : Str → List Verif.Val.Val → Verif.Val.Val) (en : Verif.Select.Engine) (os : Os) (upper : Str → Str) (hu : Upper upper)
    (hint useOutput : Option Str) (dbs : List Db) (r : Ref) (w : Str) (columns : Option (List Str)) (keys : Str) (st : Nest.Store)
    (e : Nest.Rel S) (out : Str) (rows : List Select.Out) (hw : Way upper hint (options r.name).2 w)
    (h : Insert.insertSelect py calls en upper useOutput (Hint.parseTable os upper hint dbs r).1.db
      (Hint.parseTable os upper hint dbs r).1.name (Hint.parseTable os upper hint dbs r).1.typingOptions columns [keys] st e =
        some (out, rows)) (hun : ¬ SqlInsert.IsUnion e)
    (hcon : ¬ ((Table.parseTable os dbs r).1.db = ['-'] ∧ (Table.parseTable os dbs r).1.name = ['_']))
    (hn : ¬ "::".toList <:+: ("&.".toList ++ (Table.parseTable os dbs r).1.db ++ ".".toList ++ (Table.parseTable os dbs r).1.name) ++ [':'])
    (hm : ¬ " use ".toList <:+: w) :
    out = SqlInsert.outputText (Table.parseTable os dbs r).1.db (Table.parseTable os dbs r).1.name keys w := by
  obtain ⟨h1, h2, _, _⟩ := C182_place os upper hu hint dbs r
  have h3 : (Hint.parseTable os upper hint dbs r).1.typingOptions = withHint upper hint (options r.name).2 := rfl
  rw [h1, h2, h3] at h
  have hw2 := C182_way upper hu hint _ w hw
  have := C146_select py calls en upper useOutput _ _ _ columns keys st e out rows h hun hcon hn (by rw [hw2]; exact hm)
  rw [hw2] at this
  exact this

/-! ### Examples -/

namespace HintCases

/-- The capital letter of a small one. -/
def up (c : Char) : Char := if 97 ≤ c.toNat ∧ c.toNat ≤ 122 then Char.ofNat (c.toNat - 32) else c

/-- `str.upper` of ASCII. -/
def upper (s : Str) : Str := s.map up

theorem up_small (c : Char) : ¬ (97 ≤ (up c).toNat ∧ (up c).toNat ≤ 122) := by
  unfold up
  split
  · rename_i h
    have key : ∀ n, n < 26 → (Char.ofNat (65 + n)).toNat = 65 + n := by decide
    have := key (c.toNat - 97) (by omega)
    rw [show 65 + (c.toNat - 97) = c.toNat - 32 by omega] at this
    omega
  · assumption

theorem upper_ok : Upper upper where
  empty := rfl
  twice s := by
    unfold upper
    rw [List.map_map]
    exact List.map_congr_left fun c _ => by
      have key : ∀ d : Char, ¬ (97 ≤ d.toNat ∧ d.toNat ≤ 122) → up d = d := fun d hd => if_neg hd
      exact key _ (up_small c)
  ways := by decide
  formats s hm := by
    have key : ∀ f : Str, (∃ c ∈ f, 97 ≤ c.toNat ∧ c.toNat ≤ 122) → upper s ≠ f := by
      rintro _ ⟨c, hc, h⟩ rfl
      obtain ⟨d, _, rfl⟩ := List.mem_map.1 hc
      exact up_small d h
    simp only [List.mem_cons, List.not_mem_nil, or_false] at hm
    rcases hm with h | h | h | h <;> exact key _ (by decide +kernel) h

/-- `INSERT INTO t<csv,ui>` updates or inserts, whatever `@use_output_type` says. -/
example (hint : Option Str) : Way upper hint (options "t<csv,ui>".toList).2 "ui".toList :=
  .table ["csv".toList] [] _ (by decide +kernel) (by unfold IsWay; decide +kernel) (by unfold IsWay; decide +kernel)

/-- `SET @use_output_type='delete_insert'; INSERT INTO t<csv>` deletes and inserts. -/
example : Way upper (some "delete_insert".toList) (options "t<csv>".toList).2 "DI".toList :=
  .hint _ _ (by unfold IsWay; decide +kernel) rfl (.deleteInsert (by decide +kernel))

end HintCases

end Verif.Props
