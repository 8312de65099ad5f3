import Verif.Model.GetValue
import Verif.Props.Value
namespace Verif.GetValueSpec
open Verif.Val Verif.GetValue

/-- What `GET_VALUE(x, key)` means: a text is a member, an integer an element (from the end if negative), a list of two or three
integers a slice. -/
inductive Step where
  | member (name : Str)
  | element (i : Int)
  | slice (is : List Int)

def Step.apply {D : Type} (lib : Lib D) : Step → D → D
  | .member n, d => lib.member n d
  | .element i, d => lib.element i d
  | .slice is, d => lib.slice is d

/-- How a step is written as an argument. -/
def Step.key : Step → Key
  | .member n => .const (.str n)
  | .element i => .const (.int i)
  | .slice is => .tuple (is.map fun i => some (.int i))

/-- How a step is written in a path. -/
def Step.text : Step → Str
  | .member n => n
  | .element i => ':' :: intText i
  | .slice is => colons is

/-- Names of members without `.` that do not begin with `:`; slices of two or three numbers. -/
def Step.Ok : Step → Prop
  | .member n => '.' ∉ n ∧ n.head? ≠ some ':'
  | .element _ => True
  | .slice is => is.length = 2 ∨ is.length = 3

/-- A path of steps: `a.:0.b`. -/
def written : Step → List Step → Str
  | s, [] => s.text
  | s, t :: ts => s.text ++ '.' :: written t ts

end Verif.GetValueSpec

namespace Verif.Props.GetValueLemmas
open Verif.Val Verif.GetValue Verif.GetValueSpec

theorem splitOn_free (c : Char) (s : Str) (h : c ∉ s) : splitOn c s = [s] := by
  induction s with
  | nil => rfl
  | cons a s ih =>
    simp only [List.mem_cons, not_or] at h
    rw [splitOn, if_neg (fun e => h.1 e.symm), ih h.2]

theorem splitOn_cons (c : Char) (s t : Str) (h : c ∉ s) : splitOn c (s ++ c :: t) = s :: splitOn c t := by
  induction s with
  | nil => simp [splitOn]
  | cons a s ih =>
    simp only [List.mem_cons, not_or] at h
    rw [List.cons_append, splitOn, if_neg (fun e => h.1 e.symm), ih h.2]

theorem intText_free (i : Int) (c : Char) (h1 : isDigit c = false) (h2 : c ≠ '-') : c ∉ intText i := by
  have : c ∉ natText i.natAbs := fun h => by rw [natText_digits _ _ h] at h1; cases h1
  unfold intText
  split <;> simp [this, h2]

theorem colons_noDot (is : List Int) : '.' ∉ colons is := by
  induction is with
  | nil => simp [colons]
  | cons i is ih => simp [colons, ih, intText_free i '.' (by decide) (by decide)]

theorem nums_colons (py : Py) (i : Int) (is : List Int) :
    (splitOn ':' (intText i ++ colons is)).mapM py.int = some (i :: is) := by
  induction is generalizing i with
  | nil =>
    rw [colons, List.append_nil, splitOn_free _ _ (intText_free i ':' (by decide) (by decide))]
    simp [int_intText]
  | cons j js ih =>
    rw [colons, List.cons_append, splitOn_cons _ _ _ (intText_free i ':' (by decide) (by decide)), List.mapM_cons, int_intText, ih j]
    rfl

theorem text_noDot (s : Step) (h : s.Ok) : '.' ∉ s.text := by
  cases s with
  | member n => exact h.1
  | element i => simp [Step.text, intText_free i '.' (by decide) (by decide)]
  | slice is => exact colons_noDot is

theorem part_text {D : Type} (py : Py) (lib : Lib D) (s : Step) (h : s.Ok) (d : D) : part py lib s.text d = s.apply lib d := by
  cases s with
  | member n =>
    cases n with
    | nil => rfl
    | cons c n =>
      simp only [Step.Ok, List.head?_cons, ne_eq, Option.some.injEq] at h
      unfold part Step.text
      split
      · rename_i e; cases e; exact absurd rfl h.2
      · rfl
  | element i =>
    have := nums_colons py i []
    rw [colons, List.append_nil] at this
    simp [part, Step.text, this, Step.apply]
  | slice is =>
    match is, h with
    | [i, j], _ =>
      have := nums_colons py i [j]
      simp [part, Step.text, colons] at this ⊢
      simp [this, Step.apply]
    | [i, j, k], _ =>
      have := nums_colons py i [j, k]
      simp [part, Step.text, colons] at this ⊢
      simp [this, Step.apply]

theorem path_key (s : Step) (h : s.Ok) : path s.key = some s.text := by
  cases s with
  | member n => rfl
  | element i => rfl
  | slice is =>
    match is, h with
    | [i, j], _ => rfl
    | [i, j, k], _ => rfl

theorem follow_written {D : Type} (py : Py) (lib : Lib D) (s : Step) (ss : List Step) (h : ∀ t ∈ s :: ss, t.Ok) (d : D) :
    follow py lib (written s ss) d = (s :: ss).foldl (fun d t => t.apply lib d) d := by
  induction ss generalizing s d with
  | nil =>
    rw [written, follow, splitOn_free _ _ (text_noDot s (h s (by simp)))]
    simp [part_text py lib s (h s (by simp))]
  | cons t ts ih =>
    rw [written, follow, splitOn_cons _ _ _ (text_noDot s (h s (by simp)))]
    have := ih t (fun x hx => h x (by simp [List.mem_cons.1 hx])) (s.apply lib d)
    rw [follow] at this
    rw [List.foldl_cons, part_text py lib s (h s (by simp)), this]
    rfl

end Verif.Props.GetValueLemmas

namespace Verif.Props
open Verif.Val Verif.GetValue Verif.GetValueSpec Verif.Props.GetValueLemmas

/-- **C172**: `GET_VALUE(x, k1, …, kn)` takes the steps its arguments name one after the other: members, elements and slices. -/
theorem C172_steps {D : Type} (py : Py) (lib : Lib D) (x : D) (steps : List Step) (h : ∀ s ∈ steps, s.Ok) :
    getValue py lib x (steps.map Step.key) = some (steps.foldl (fun d s => s.apply lib d) x) := by
  have hm : (steps.map Step.key).mapM path = some (steps.map Step.text) := by
    induction steps with
    | nil => rfl
    | cons s ss ih =>
      rw [List.map_cons, List.mapM_cons, path_key s (h s (by simp)), ih (fun t ht => h t (by simp [ht]))]
      rfl
  rw [getValue, hm, Option.map_some, List.foldl_map]
  congr 1
  clear hm
  induction steps generalizing x with
  | nil => rfl
  | cons s ss ih =>
    have h1 := follow_written py lib s [] (by simpa using h s (by simp)) x
    rw [written] at h1
    rw [List.foldl_cons, List.foldl_cons, h1, ih _ (fun t ht => h t (by simp [ht]))]
    rfl

/-- **C172**: the path `'a.:0.b'` as one argument is the same as its steps as several. -/
theorem C172_path {D : Type} (py : Py) (lib : Lib D) (x : D) (s : Step) (ss : List Step) (h : ∀ t ∈ s :: ss, t.Ok) :
    getValue py lib x [.const (.str (written s ss))] = getValue py lib x ((s :: ss).map Step.key) := by
  rw [C172_steps py lib x (s :: ss) h]
  have : path (.const (.str (written s ss))) = some (written s ss) := rfl
  simp [getValue, this, follow_written py lib s ss h]

/-- **C172**: taking further steps is taking them in the result. -/
theorem C172_nested {D : Type} (py : Py) (lib : Lib D) (x y : D) (ks ls : List Key) (h : getValue py lib x ks = some y) :
    getValue py lib x (ks ++ ls) = getValue py lib y ls := by
  unfold getValue at h ⊢
  rw [List.mapM_append]
  cases hk : ks.mapM path with
  | none => simp [hk] at h
  | some ps =>
    simp only [hk, Option.map_some, Option.some.injEq] at h
    cases hl : ls.mapM path with
    | none => rfl
    | some qs => simp [← h]

/-- **C172**: it is refused exactly if an argument after the first is neither a constant (or variable) nor a list. -/
theorem C172_refused {D : Type} (py : Py) (lib : Lib D) (x : D) (ks : List Key) :
    getValue py lib x ks = none ↔ Key.other ∈ ks := by
  unfold getValue
  rw [Option.map_eq_none_iff]
  induction ks with
  | nil => simp
  | cons k ks ih =>
    rw [List.mapM_cons]
    have hk : path k = none ↔ k = .other := by
      cases k with
      | const v => cases v <;> simp [path, asInt]
      | tuple vs =>
        simp only [path, reduceCtorEq, iff_false]
        split <;> simp
      | other => simp [path]
    cases hp : path k with
    | none => simp [hk.1 hp]
    | some p =>
      have : k ≠ .other := fun e => by rw [hk.2 e] at hp; cases hp
      cases hm : ks.mapM path with
      | none => simp [ih.1 hm]
      | some ps =>
        have h2 : Key.other ∉ ks := fun e => by rw [ih.2 e] at hm; cases hm
        simp [h2, Ne.symm this]

/-- **C172 is violated for the key NULL**, and a variable that has no value when the statement is compiled: it is the member named
`None`. -/
theorem C172_null_violated {D : Type} (py : Py) (lib : Lib D) (x : D) :
    getValue py lib x [.const .null] = some (lib.member ['N', 'o', 'n', 'e'] x) := rfl

/-- **C172**: fractions and truth values are numbers of elements, too: cut to an integer, and 1 or 0. -/
theorem C172_numbers {D : Type} (py : Py) (lib : Lib D) (x : D) (q : Rat) (b : Bool) :
    getValue py lib x [.const (.flt q)] = some (lib.element (trunc q) x) ∧
    getValue py lib x [.const (.bool b)] = some (lib.element (if b then 1 else 0) x) ∧
    getValue py lib x [.tuple [some (.flt q), some (.bool b)]] = some (lib.slice [trunc q, if b then 1 else 0] x) := by
  refine ⟨?_, ?_, ?_⟩
  · exact (show _ = getValue py lib x [.const (.int (trunc q))] from rfl).trans (C172_steps py lib x [.element _] (by simp [Step.Ok]))
  · exact (show _ = getValue py lib x [.const (.int (if b then 1 else 0))] from rfl).trans
      (C172_steps py lib x [.element _] (by simp [Step.Ok]))
  · exact (show _ = getValue py lib x [.tuple [some (.int (trunc q)), some (.int (if b then 1 else 0))]] from rfl).trans
      (C172_steps py lib x [.slice [trunc q, if b then 1 else 0]] (by simp [Step.Ok]))

/-- **C172**: a list without numbers makes the text `:`, which is neither an element nor a slice (Python refuses to read the empty text
as a number). -/
theorem C172_no_numbers {D : Type} (py : Py) (lib : Lib D) (x : D) (vs : List (Option Val))
    (h : ∀ v ∈ vs, v = none ∨ v = some .null ∨ ∃ s, v = some (.str s)) (he : py.int [] = none) :
    getValue py lib x [.tuple vs] = some (lib.odd [':'] x) := by
  have : (vs.filterMap fun v => v.bind asInt) = [] := by
    rw [List.filterMap_eq_nil_iff]
    intro v hv
    rcases h v hv with rfl | rfl | ⟨s, rfl⟩ <;> rfl
  have hp : path (.tuple vs) = some [':'] := by simp [path, this]
  have hs : splitOn '.' [':'] = [[':']] := rfl
  have hc : (splitOn ':' []).mapM py.int = none := by simp [splitOn, he]
  simp [getValue, hp, follow, hs, part, hc]

/-- **C172 is violated for lists with texts, NULLs or expressions among their members, and with more than three members**: those that
are no constant numbers and those after the third number do not count. -/
theorem C172_list_violated {D : Type} (py : Py) (lib : Lib D) (x : D) (i j k : Int) (more : List (Option Val)) (s : Str) :
    getValue py lib x [.tuple (some (.int i) :: some (.int j) :: some (.int k) :: more)] = some (lib.slice [i, j, k] x) ∧
    getValue py lib x [.tuple [some (.int i), some (.str s)]] = some (lib.element i x) ∧
    getValue py lib x [.tuple [some .null, some (.int i)]] = some (lib.element i x) ∧
    getValue py lib x [.tuple [none, some (.int i)]] = some (lib.element i x) := by
  have h3 := C172_steps py lib x [.slice [i, j, k]] (by simp [Step.Ok])
  have h1 := C172_steps py lib x [.element i] (by simp [Step.Ok])
  refine ⟨?_, ?_, ?_, ?_⟩
  · rw [← show _ = some (lib.slice [i, j, k] x) from h3]; rfl
  all_goals rw [← show _ = some (lib.element i x) from h1]
  all_goals simp [getValue, path, asInt, Step.key, colons, List.filterMap_cons]

/-- `GET_VALUE(order, 'pay', 0, 'types', (0, 2))`. -/
example : ∀ s ∈ [Step.member ['p','a','y'], .element 0, .member ['t'], .slice [0, 2]], s.Ok := by
  simp [Step.Ok]

end Verif.Props
