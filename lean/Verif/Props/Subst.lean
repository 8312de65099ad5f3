import Verif.Proofs.Subst
/-! Property theorem C07: variable substitution. -/
namespace Verif.Props
open Verif.Env

/-- **C07** (full statement: for every environment, `compile_variable` returns the text with every reference
replaced by its value and everything else kept; false, see `C07_reinterprets_values`).  Proved: it holds whenever
no inserted value contains a `$`.  Missing: nothing else can be had, values with `$` are re-interpreted. -/
theorem C07_simultaneous_substitution_partial {α : Type} {isW : Char → Bool} (hw : WordClass isW) (e : SubstEnv α)
    (doc : List Item) (hd : WF isW doc) (hv : ∀ r ∈ refs doc, '$' ∉ e.value r) :
    compileVariable isW e (docText doc) = docSubst e.value doc := by
  unfold compileVariable
  rw [findAll_doc hw doc hd]
  exact fold_doc hw e.value (refs doc) (hd.good) hv doc hd (fun r h => h)

/-- The value used for a reference: the variable's, else the default text when it is not a function call. -/
theorem C07_value {α : Type} (e : SubstEnv α) (r : Ref) :
    (∀ v, getValue e.chain (r.name.map e.lower) = some v → e.value r = e.fmt v) ∧
    (getValue e.chain (r.name.map e.lower) = none → e.evalDefault (r.dflt.getD []) = none →
      e.value r = r.dflt.getD []) := by
  constructor
  · intro v h; simp [SubstEnv.value, h]
  · intro h h'; simp [SubstEnv.value, h, h']

/-- **C07**, text without `${` is left untouched, in every environment. -/
theorem C07_plain_text_untouched {α : Type} (isW : Char → Bool) (e : SubstEnv α) (sql : List Char)
    (h : ¬ ['$', '{'] <:+: sql) : compileVariable isW e sql = sql := by
  have : findAll isW sql = [] := by
    induction sql with
    | nil => simp [findAll]
    | cons c cs ih =>
      rw [findAll_miss, ih]
      · rintro ⟨a, b, hh⟩
        exact h ⟨c :: a, b, by simp [← hh]⟩
      · cases hm : matchRef isW (c :: cs) with
        | none => rfl
        | some p =>
          obtain ⟨t, ht⟩ := matchRef_start hm
          exact absurd ⟨[], t, by simp [ht]⟩ h
  simp [compileVariable, this]

/-- An ASCII word-character class, for the examples. -/
def asciiWord (c : Char) : Bool := c.isAlphanum || c = '_'

theorem asciiWord_ok : WordClass asciiWord := by constructor <;> decide

/-- String variables, formatted as themselves. -/
def strEnv (chain : List (Dict Key (List Char))) : SubstEnv (List Char) :=
  { chain, fmt := id, lower := Char.toLower, evalDefault := fun _ => none }

/-- **C07 is violated**: with `a = "${b}"` and `b = "x"`, the text `${a} ${b}` becomes `x x`: the inserted value of
`a` was itself substituted. -/
theorem C07_reinterprets_values :
    compileVariable asciiWord (strEnv [[("a".toList, "${b}".toList), ("b".toList, "x".toList)]]) "${a} ${b}".toList
      = "x x".toList := by decide +kernel

/-- **C07 is violated** for names with capitals: `set_variable("Foo", …)` stores `@Foo`, but `${@Foo}` looks up
`@foo` and gives the (empty) default. -/
theorem C07_capitals_not_found :
    (setVariable (⟨fun _ => [], 1⟩ : Heap (List Char)) [0] "Foo".toList "x".toList).chain [0]
      = [[("@Foo".toList, "x".toList)]] ∧
    compileVariable asciiWord (strEnv [[("@Foo".toList, "x".toList)]]) "a${@Foo}b".toList = "ab".toList := by
  constructor
  · decide
  · decide +kernel

/-- Non-vacuity: a statement with a variable, a default and a `$`. -/
example :
    let doc : List Item := [.ch '$', .ch '1', .ref ⟨"a".toList, none⟩, .ch '{', .ref ⟨"z".toList, some "7".toList⟩]
    let e := strEnv [[("a".toList, "x".toList)]]
    WF asciiWord doc ∧ (∀ r ∈ refs doc, '$' ∉ e.value r) ∧
    docText doc = "$1${a}{${z:7}".toList ∧ compileVariable asciiWord e (docText doc) = "$1x{7".toList := by
  refine ⟨⟨?_, ⟨by decide, ⟨⟨by decide, by decide, by decide⟩, by decide, ⟨by decide, by decide, ?_⟩, trivial⟩⟩⟩, by decide, by decide,
    by decide +kernel⟩
  · intro _; decide
  · intro d hd; simp at hd; subst hd; decide

end Verif.Props
