import Verif.Props.Aggregate
import Verif.Props.Calendar
import Verif.Props.Call
import Verif.Props.Config
import Verif.Props.Date
import Verif.Props.FromList
/-! Statements added after edits of the model that the theorems did not notice (seeded/LOG.jsonl). -/
namespace Verif.Props

section
open Verif.Val Verif.Agg Verif.AggSpec

theorem avg_skip (py : Py) (nulls l : List Val) (hn : ∀ v ∈ nulls, v = .null) :
    (avg py).run none (nulls ++ l) = (avg py).run none l := by
  induction nulls with
  | nil => rfl
  | cons v m ih =>
    obtain rfl := hn v (by simp)
    rw [List.cons_append, Calc.run, show (avg py).step none .null = some none from rfl]
    exact ih fun w hw => hn w (by simp [hw])

/-- **C18**: AVG ends the query exactly when the first value that is not NULL is no number; later ones that are none are only
counted. -/
theorem C18_avg_raises_iff (py : Py) (l : List Val) :
    (avg py).run none l = none ↔ ∃ nulls v rest, l = nulls ++ v :: rest ∧ (∀ w ∈ nulls, w = .null) ∧ v ≠ .null ∧ py.ensureNumber v = none := by
  constructor
  · intro h
    induction l with
    | nil => cases h
    | cons v l ih =>
      by_cases hv : v = .null
      · subst hv
        obtain ⟨nulls, w, rest, e, h1, h2⟩ := ih h
        exact ⟨.null :: nulls, w, rest, by rw [e]; rfl, fun u hu => by
          rcases List.mem_cons.1 hu with e | hu
          · exact e
          · exact h1 u hu, h2⟩
      · cases hn : py.ensureNumber v with
        | none => exact ⟨[], v, l, rfl, by simp, hv, hn⟩
        | some m =>
          exfalso
          obtain ⟨n, h3, _⟩ := avg_run_some py l 1 m
          rw [Calc.run, show (avg py).step none v = some (some (1, m)) by simp [avg, hn]] at h
          simp only [Option.bind_some] at h
          rw [h3] at h
          cases h
  · rintro ⟨nulls, v, rest, rfl, h1, h2, h3⟩
    rw [avg_skip py _ _ h1, Calc.run]
    simp [avg, h2, h3]

/-- The first value is a text that is no number, after a NULL. -/
example (py : Py) (h : py.ensureNumber (.str ['x']) = none) : (avg py).run none [.null, .str ['x'], .int 1] = none :=
  (C18_avg_raises_iff py _).2 ⟨[.null], .str ['x'], [.int 1], rfl, by simp, by simp, h⟩

end

section
open Verif.Date Verif.Calendar Verif.Spec.Calendar Cal

/-- **C80**: what DATE_FORMAT puts for one specifier that is neither `%v` nor `%`. -/
theorem format_one (lib : Lib) (x : DT) (c : Char) (h : c ≠ 'v') : dateFormat lib x ['%', c] = directive lib c x := by
  have : replaceV ['%', c] = ['%', c] := replaceV_id _ (by
    rintro ⟨a, b, e⟩
    cases a with
    | nil => simp at e; exact h e.1.symm
    | cons a0 a =>
      have := congrArg List.length e
      simp at this; omega)
  simp [dateFormat, this, strftime]

/-- C119 (violated, for every date): `%s` is not the seconds and `%V`, `%v` not the week of MySQL but what the platform's `strftime`
puts for these letters (the number of seconds since 1970, the ISO week), as for `%G`, `%g`, `%z`, `%Z`; `%k` has a blank before
the hours 0 to 9; `%u` is the day of the week, from 1 for Monday, and not the week. -/
theorem C119_platform (lib : Lib) (x : DT) :
    (∀ c ∈ ['s', 'V', 'G', 'g', 'z', 'Z'], dateFormat lib x ['%', c] = lib.other c x) ∧
    dateFormat lib x ['%', 'v'] = lib.other 'V' x := by
  refine ⟨?_, by simp [dateFormat, replaceV, strftime, directive]⟩
  intro c hc
  simp only [List.mem_cons, List.not_mem_nil, or_false] at hc
  rcases hc with h | h | h | h | h | h <;> subst h <;> rw [format_one _ _ _ (by decide)] <;> rfl

theorem C119_blank_hour_violated (lib : Lib) (x : DT) (hx : Valid x) (h : hh x < 10) :
    spec 'k' x ≠ some (dateFormat lib x ['%', 'k']) := by
  rw [format_one _ _ _ (by decide)]
  have hh' : hour x < 10 := by
    have h : x.us / 1000000 / 3600 < 10 := h
    unfold hour; omega
  have e : directive lib 'k' x = ' ' :: padded 1 (hour x) := by simp [directive, spaced, hh']
  rw [e]
  simp only [spec, ne_eq, Option.some.injEq]
  exact fun h => ne_of_digit (digits_isDigit _ _) ⟨' ', by simp, by decide⟩ h.symm

theorem C119_day_of_week_violated (lib : Lib) (x : DT) : dateFormat lib x ['%', 'u'] = plain (weekday x + 1) := by
  rw [format_one _ _ _ (by decide)]; rfl

example : Valid ⟨2023, 4, 24, 61628000⟩ ∧ hh ⟨2023, 4, 24, 61628000⟩ < 10 := by decide

end

section
open Verif.Val Verif.Call

/-- A base, if it is a number. -/
def baseOf : Val → Option Num
  | .int i => some (.int i)
  | .flt q => some (.flt q)
  | .bool true => some (.int 1)
  | .bool false => some (.int 0)
  | .null => none
  | .str _ => none

/-- **C142**: LOG(x, b) for every kind of base: truth values are 1 and 0, texts are not converted and give NULL. -/
theorem C142_log_base (py : Py) (f : Num → Num → Option Rat) (x b : Val) :
    calculate .null (logFn py f) [x, b] = .value
      (match baseOf b, py.ensureNumber x with
        | some m, some n => ((f n m).map Val.flt).getD .null
        | _, _ => .null) := by
  rw [C140_call Val.null (logFn py f) [x, b] (Or.inl rfl)]
  congr 1
  by_cases hx : x = .null
  · subst hx
    rw [show py.ensureNumber .null = none from rfl]
    cases b with
    | bool b => cases b <;> rfl
    | _ => rfl
  · simp only [logFn, hx, if_false]
    cases py.ensureNumber x with
    | none => cases b with
      | bool b => cases b <;> rfl
      | _ => rfl
    | some n => cases b with
      | bool b => cases b <;> rfl
      | _ => rfl

/-- **C93**: ROUND(x, y) for y that is no natural number is what Python's `round` gives (`other`), NULL when that fails. -/
theorem C93_round_other (py : Py) (other : Val → Val → Option Val) (x y : Val) (hx : x ≠ .null) (hy : y ≠ .null)
    (h : ∀ d : Nat, y ≠ .int d) : calculate .null (roundFn py other) [x, y] = .value ((other x y).getD .null) := by
  rw [C140_call .null (roundFn py other) [x, y] (Or.inl rfl)]
  have : ¬ (x = .null ∨ y = .null) := by simp [hx, hy]
  simp only [roundFn, this, if_false]
  split
  · next d => exact absurd rfl (h d)
  · rfl

end

section
open Verif.Val Verif.Json Verif.Config Verif.ConfigSpec Verif.ConfigProofs

/-- The pipelines a setting stands for: a list of pipelines, one pipeline written as a list that begins with a text, one
object or text; NULL and an empty list are none. -/
inductive Pipelines : Sect → List J → Prop where
  | none : Pipelines (.list []) []
  | null : Pipelines (.plain .null) []
  | single (s : Str) (l : List J) : Pipelines (.list (.str s :: l)) [.arr (.str s :: l)]
  | several (x : J) (l : List J) : (∀ s, x ≠ .str s) → Pipelines (.list (x :: l)) (x :: l)
  | value (v : J) : v ≠ .null → Pipelines (.plain v) [v]
  | object (d : List (Str × J)) : Pipelines (.dict d) [.obj d]

/-- **C15**: the pipelines of two configurations are put one after the other. -/
theorem C15_pipelines (c d : Cfg) (hd : Wf d) (v w : Sect) (p q : List J) (hc : valueOf pipelinesKey c = some v)
    (hv : valueOf pipelinesKey d = some w) (h1 : Pipelines v p) (h2 : Pipelines w q) :
    valueOf pipelinesKey (merge c d) = some (.list (p ++ q)) := by
  have key : ∀ s l, Pipelines s l → pipelinesOf s = l := by
    intro s l h
    cases h with
    | none => rfl
    | null => rfl
    | single => rfl
    | several x l h =>
      cases x with
      | str s => exact absurd rfl (h s)
      | _ => rfl
    | value v h =>
      cases v with
      | null => exact absurd rfl h
      | _ => rfl
    | object => rfl
  rw [look_eq] at hc hv ⊢
  rw [look_merge c d hd.nodup, hv, hc]
  simp only [mergeSect, if_neg (show pipelinesKey ∉ dictKeys by decide), if_neg (show pipelinesKey ∉ namedKeys by decide), if_true,
    key _ _ h1, key _ _ h2]

example : Pipelines (.list [.str ['a'], .int 1]) [.arr [.str ['a'], .int 1]] ∧ Pipelines (.dict [(['k'], .int 1)]) [.obj [(['k'], .int 1)]] :=
  ⟨.single _ _, .object _⟩

end

section
open Verif.Date

/-- What TIMESTAMPDIFF takes for the length of a unit, in seconds. -/
def assumedSeconds : TimeUnit → Int
  | .year => 31536000
  | .quarter => 7776000
  | .month => 2592000
  | .week => 604800
  | .day => 86400
  | .hour => 3600
  | .minute => 60
  | .second => 1
  | .microsecond => 1

/-- C102 (violated, exactly): TIMESTAMPDIFF counts years of 365 days, quarters of 90 and months of 30 days, weeks of 7 days, and seconds instead of
microseconds: the whole number of these in the time between. -/
theorem C102_units (u : TimeUnit) (a b : DT) : timestampdiff u a b = (inst b - inst a).tdiv (assumedSeconds u * 1000000) := by
  cases u <;> rfl

end

section
open Verif.Val Verif.JoinSelect Verif.Select

/-- **C147**: with one table in FROM the joins written are those that are carried out. -/
theorem C147_one_table {S : Type} (py : Py) (calls : Str → List Val → Val) (o : Join.Ops Val) (order : List Join.Name → List Join.Name)
    (fuel : Nat) (js : List (Join.Join Val)) (w : List Conj) (q : Query S) :
    compileFrom py calls o order fuel [] js w q = compileJoins py calls o order fuel js { q with cond := whereE (String.ofList q.table) w } := rfl

end
end Verif.Props
