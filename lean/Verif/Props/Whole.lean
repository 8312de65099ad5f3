import Verif.Model.Whole
import Verif.Props.ItemKind
namespace Verif.WholeSpec
open Verif.ItemKind Verif.ItemSpec

/-- A column is used in the expression, not counting its subqueries. -/
def UsesColumn (e : Node) : Prop := ∃ x ∈ parts e, x.cls = .column

/-- There are no columns in constants, stars, types, INTERVALs, and the functions of windows are functions. -/
def Usual (e : Node) : Prop :=
  ∀ x ∈ parts e, (x.cls ∈ [Cls.literal, .param, .star, .interval] → ∀ y ∈ inner x, y.cls ≠ .column) ∧
    (x.cls = .cast → ∀ y ∈ partsAll x.args.tail, y.cls ≠ .column) ∧
    (x.cls = .window → ∀ f fs, x.args = f :: fs → f.cls ∈ [Cls.aggregate, .func] ∨ ∃ n, f.cls = .anon n)

end Verif.WholeSpec

namespace Verif.Props.WholeLemmas
open Verif.ItemKind Verif.ItemSpec Verif.Whole Verif.WholeSpec Verif.Props.ItemLemmas

theorem plain_uses (e : Node) (h : isPlainColumn e = true) : UsesColumn e := by
  match e with
  | .mk .column as => exact ⟨_, self_mem _, rfl⟩
  | .mk .dot (a :: as) =>
    simp only [isPlainColumn] at h
    obtain ⟨x, hx, hc⟩ := plain_uses a h
    exact ⟨x, by simp [parts, partsAll, hx], hc⟩

mutual
theorem has_iff (e : Node) (h : Usual e) : hasColumn e = true ↔ UsesColumn e := by
  match e with
  | .mk c as =>
    have hself := h _ (self_mem (.mk c as))
    have hsub : c ≠ .query → c ≠ .window → ∀ x ∈ partsAll as, x ∈ parts (.mk c as) := by
      intro h1 h2 x hx
      simp [parts, h1, h2, hx]
    have all : c ≠ .query → c ≠ .window → (hasColumns as = true ↔ ∃ x ∈ partsAll as, x.cls = .column) := fun h1 h2 =>
      hasAll_iff as (fun x hx => h x (hsub h1 h2 x hx))
    have split : c ≠ .query → c ≠ .window → c ≠ .column → (UsesColumn (.mk c as) ↔ ∃ x ∈ partsAll as, x.cls = .column) := by
      intro h1 h2 h3
      unfold UsesColumn
      simp only [parts, if_neg h1, if_neg h2, List.mem_cons]
      constructor
      · rintro ⟨x, rfl | hx, hc⟩
        · exact absurd hc h3
        · exact ⟨x, hx, hc⟩
      · rintro ⟨x, hx, hc⟩
        exact ⟨x, Or.inr hx, hc⟩
    have never : c ∈ [Cls.literal, .param, .star, .interval] → ¬ UsesColumn (.mk c as) := by
      rintro h1 ⟨x, hx, hc⟩
      rw [parts_cons] at hx
      rcases List.mem_cons.1 hx with rfl | hx
      · rw [show c = .column from hc] at h1
        exact absurd h1 (by decide)
      · exact hself.1 h1 x hx hc
    by_cases hcol : c = .column
    · subst hcol
      simp only [hasColumn, true_iff]
      exact ⟨_, self_mem _, rfl⟩
    by_cases hq : c = .query
    · subst hq
      simp only [hasColumn, Bool.false_eq_true, false_iff]
      rintro ⟨x, hx, hc⟩
      simp [parts] at hx
      subst hx
      cases hc
    by_cases hn : c ∈ [Cls.literal, .param, .star, .interval]
    · have := never hn
      have hf : hasColumn (.mk c as) = false := by
        simp only [List.mem_cons, List.not_mem_nil, or_false] at hn
        rcases hn with rfl | rfl | rfl | rfl <;> simp [hasColumn]
      simp [hf, this]
    by_cases hd : c = .dot
    · subst hd
      rw [split (by decide) (by decide) (by decide), ← all (by decide) (by decide)]
      simp only [hasColumn, Bool.or_eq_true]
      constructor
      · rintro (h' | h')
        · have := plain_uses _ h'
          rw [split (by decide) (by decide) (by decide), ← all (by decide) (by decide)] at this
          exact this
        · exact h'
      · exact Or.inr
    by_cases hcast : c = .cast
    · subst hcast
      rw [split (by decide) (by decide) (by decide)]
      cases as with
      | nil => simp [hasColumn, partsAll]
      | cons a as =>
        simp only [hasColumn]
        rw [has_iff a (fun x hx => h x (hsub (by decide) (by decide) x (by simp [partsAll, hx])))]
        have ht := hself.2.1 rfl
        simp only [Node.args, List.tail_cons] at ht
        unfold UsesColumn
        simp only [partsAll, List.mem_append]
        constructor
        · rintro ⟨x, hx, hc⟩; exact ⟨x, Or.inl hx, hc⟩
        · rintro ⟨x, hx | hx, hc⟩
          · exact ⟨x, hx, hc⟩
          · exact absurd hc (ht x hx)
    by_cases hw : c = .window
    · subst hw
      simp only [hasColumn]
      match as with
      | [] => simp [hasColumns, UsesColumn, parts, windowParts, Node.cls]
      | .mk fc fas :: rest =>
        have hin : ∀ x, x ∈ partsAll fas ∨ x ∈ partsAll rest → x ∈ parts (.mk .window (.mk fc fas :: rest)) := by
          intro x hx
          simp [parts, windowParts, hx]
        have hf := hself.2.2 rfl _ _ rfl
        have h1 := hasAll_iff fas (fun x hx => h x (hin x (Or.inl hx)))
        have h2 := hasAll_iff rest (fun x hx => h x (hin x (Or.inr hx)))
        have h3 : hasColumn (.mk fc fas) = hasColumns fas := by
          rcases hf with hf | ⟨n, hf⟩
          · simp only [List.mem_cons, List.not_mem_nil, or_false, Node.cls] at hf
            rcases hf with rfl | rfl <;> simp [hasColumn]
          · have : fc = .anon n := hf
            subst this
            simp [hasColumn]
        simp only [hasColumns, h3, Bool.or_eq_true, h1, h2, UsesColumn]
        have hp : parts (.mk .window (.mk fc fas :: rest)) = .mk .window (.mk fc fas :: rest) :: (partsAll fas ++ partsAll rest) := by
          simp [parts, windowParts]
        rw [hp]
        simp only [List.mem_cons, List.mem_append]
        constructor
        · rintro (⟨x, hx, hc⟩ | ⟨x, hx, hc⟩)
          · exact ⟨x, Or.inr (Or.inl hx), hc⟩
          · exact ⟨x, Or.inr (Or.inr hx), hc⟩
        · rintro ⟨x, rfl | hx | hx, hc⟩
          · cases hc
          · exact Or.inl ⟨x, hx, hc⟩
          · exact Or.inr ⟨x, hx, hc⟩
    · rw [split hq hw hcol, ← all hq hw]
      have : hasColumn (.mk c as) = hasColumns as := by
        cases c <;> simp_all [hasColumn]
      rw [this]
theorem hasAll_iff (es : List Node)
    (h : ∀ x ∈ partsAll es, (x.cls ∈ [Cls.literal, .param, .star, .interval] → ∀ y ∈ inner x, y.cls ≠ .column) ∧
      (x.cls = .cast → ∀ y ∈ partsAll x.args.tail, y.cls ≠ .column) ∧
      (x.cls = .window → ∀ f fs, x.args = f :: fs → f.cls ∈ [Cls.aggregate, .func] ∨ ∃ n, f.cls = .anon n)) :
    hasColumns es = true ↔ ∃ x ∈ partsAll es, x.cls = .column := by
  match es with
  | [] => simp [hasColumns, partsAll]
  | a :: as =>
    simp only [hasColumns, partsAll, Bool.or_eq_true, List.mem_append]
    rw [has_iff a (fun x hx => h x (by simp [partsAll, hx])), hasAll_iff as (fun x hx => h x (by simp [partsAll, hx]))]
    unfold UsesColumn
    constructor
    · rintro (⟨x, hx, hc⟩ | ⟨x, hx, hc⟩)
      · exact ⟨x, Or.inl hx, hc⟩
      · exact ⟨x, Or.inr hx, hc⟩
    · rintro ⟨x, hx | hx, hc⟩
      · exact Or.inl ⟨x, hx, hc⟩
      · exact Or.inr ⟨x, hx, hc⟩
end

end Verif.Props.WholeLemmas

namespace Verif.Props
open Verif.ItemKind Verif.ItemSpec Verif.Whole Verif.WholeSpec Verif.Props.WholeLemmas

variable {J R V : Type}

/-- **C171**, `SELECT f(…) FROM (SELECT …)` without an alias of the call, without clauses and without a column in the arguments: `f`
is called once, with all the rows of the subquery in order and the values of its arguments, and what it returns is the result; the
subquery needs no alias. -/
theorem C171_whole (call : Name → List R → List V → List R) (value : Node → V) (ordinary : Sel J → List R → Option (List R))
    (f : Name) (args : List Node) (named : Bool) (rows : List R)
    (hu : ∀ a ∈ args, Usual a) (hc : ∀ a ∈ args, ¬ UsesColumn a) :
    result call value ordinary { items := [(false, .mk (.anon f) args)], named := named } rows =
      some (call (f.map Char.toLower) rows (args.map value)) := by
  have : hasColumns args = false := by
    induction args with
    | nil => rfl
    | cons a as ih =>
      have h1 : hasColumn a = false := by
        have := has_iff a (hu a (by simp))
        have h2 := hc a (by simp)
        rw [← this] at h2
        simpa using h2
      rw [hasColumns, h1, ih (fun b hb => hu b (by simp [hb])) (fun b hb => hc b (by simp [hb]))]
      rfl
  simp [result, pipeline, this, lower]

/-- **C171**, every other SELECT from a subquery is an ordinary one, and is refused if the subquery has no alias: with more or fewer
columns than one, with an alias of the call, with anything that is no call of a function the parser does not know, with GROUP BY,
WHERE, HAVING, ORDER BY, LIMIT or OFFSET, or with a column in the arguments. -/
theorem C171_ordinary (call : Name → List R → List V → List R) (value : Node → V) (ordinary : Sel J → List R → Option (List R))
    (s : Sel J) (rows : List R)
    (h : (¬ ∃ f args, s.items = [(false, .mk (.anon f) args)]) ∨
      s.group = true ∨ s.cond = true ∨ s.having = true ∨ s.order = true ∨ s.limit = true ∨ s.offset = true ∨
      ∃ f args, s.items = [(false, .mk (.anon f) args)] ∧ (∀ a ∈ args, Usual a) ∧ ∃ a ∈ args, UsesColumn a) :
    result call value ordinary s rows = if s.named then ordinary s rows else none := by
  have : pipeline s = none := by
    unfold pipeline
    split
    · rename_i f args hi
      rcases h with h | h
      · exact absurd ⟨f, args, hi⟩ h
      · split
        · rfl
        · rename_i hcl
          split
          · rfl
          · rename_i hcols
            exfalso
            simp only [Bool.or_eq_true, not_or] at hcl
            rcases h with h | h | h | h | h | h | ⟨f', args', hi', hu, a, ha, hcol⟩
            · exact hcl.1.1.1.1.1 h
            · exact hcl.1.1.1.1.2 h
            · exact hcl.1.1.1.2 h
            · exact hcl.1.1.2 h
            · exact hcl.1.2 h
            · exact hcl.2 h
            · rw [hi] at hi'
              injection hi' with hi' _
              injection hi' with _ hi'
              injection hi' with hf hargs
              subst hargs
              apply hcols
              have hall := hasAll_iff args (fun x hx => by
                obtain ⟨b, hb, hx'⟩ := ItemLemmas.partsAll_mem.1 hx
                exact hu b hb x hx')
              rw [hall]
              obtain ⟨x, hx, hxc⟩ := hcol
              exact ⟨x, ItemLemmas.partsAll_mem.2 ⟨a, ha, hx⟩, hxc⟩
    · rfl
  rw [result, this]

/-- **C171 is violated for every SELECT of this form with joins or DISTINCT**: they have no effect. -/
theorem C171_joins_violated (call : Name → List R → List V → List R) (value : Node → V) (ordinary : Sel J → List R → Option (List R))
    (f : Name) (args : List Node) (hu : ∀ a ∈ args, Usual a) (hc : ∀ a ∈ args, ¬ UsesColumn a) (named distinct : Bool) (joins : List J)
    (rows : List R) :
    result call value ordinary { items := [(false, .mk (.anon f) args)], named := named, distinct := distinct, joins := joins } rows =
      result call value ordinary { items := [(false, .mk (.anon f) args)], named := named } rows := by
  have h := C171_whole call value ordinary f args named rows hu hc
  rw [h]
  unfold result at h ⊢
  unfold pipeline at h ⊢
  simp only [Bool.or_self, Bool.false_eq_true, if_false] at h ⊢
  split at h
  · rename_i heq
    split at heq
    · cases heq
    · cases heq
      rename_i hcols
      simp [hcols, lower]
  · rename_i heq
    split at heq
    · exfalso
      rename_i hcols
      have : hasColumns args = true ↔ _ := hasAll_iff args (fun x hx => by
        obtain ⟨b, hb, hx'⟩ := ItemLemmas.partsAll_mem.1 hx
        exact hu b hb x hx')
      obtain ⟨x, hx, hxc⟩ := this.1 hcols
      obtain ⟨b, hb, hx'⟩ := ItemLemmas.partsAll_mem.1 hx
      exact hc b hb ⟨x, hx', hxc⟩
    · cases heq

/-- **C171 is violated by the alias of a column**: `SELECT f('x') AS y FROM (…) t` calls the function for each row, `SELECT f('x')
FROM (…) t` once with all the rows, whatever the function is (also an aggregate, or one of a single value): for every ordinary SELECT
that has as many rows as are read, and a function that gives a number of rows other than that. -/
theorem C171_alias_violated (call : Name → List R → List V → List R) (value : Node → V) (ordinary : Sel J → List R → Option (List R))
    (f : Name) (args : List Node) (hu : ∀ a ∈ args, Usual a) (hc : ∀ a ∈ args, ¬ UsesColumn a) (rows : List R)
    (hrow : ∀ (s : Sel J) out, ordinary s rows = some out → out.length = rows.length)
    (hone : (call (f.map Char.toLower) rows (args.map value)).length ≠ rows.length) :
    result call value ordinary { items := [(false, .mk (.anon f) args)], named := true } rows ≠
      result call value ordinary { items := [(true, .mk (.anon f) args)], named := true } rows := by
  rw [C171_whole call value ordinary f args true rows hu hc]
  intro h
  have : result call value ordinary { items := [(true, .mk (.anon f) args)], named := true } rows =
      ordinary { items := [(true, .mk (.anon f) args)], named := true } rows := rfl
  rw [this] at h
  exact hone (hrow _ _ h.symm)

/-- `SELECT transform$V2H('n', @v) FROM (SELECT …)`: with a constant and a variable. -/
example : (∀ a ∈ [Node.mk .literal [], .mk .param []], Usual a) ∧ (∀ a ∈ [Node.mk .literal [], .mk .param []], ¬ UsesColumn a) ∧
    result (J := Unit) (fun f rows (vs : List Nat) => (if f = ['t','$','v'] then rows.take vs.length else [])) (fun _ => 0) (fun _ _ => none)
      { items := [(false, .mk (.anon ['T','$','V']) [.mk .literal [], .mk .param []])], named := false } [7, 8, 9] = some [7, 8] := by
  refine ⟨?_, ?_, rfl⟩
  · intro a ha x hx
    simp only [List.mem_cons, List.not_mem_nil, or_false] at ha
    rcases ha with rfl | rfl <;> simp_all [parts, partsAll, inner, Node.cls]
  · rintro a ha ⟨x, hx, hc⟩
    simp only [List.mem_cons, List.not_mem_nil, or_false] at ha
    rcases ha with rfl | rfl <;> simp_all [parts, partsAll, Node.cls]

/-- `SELECT f(a + 1) FROM (…) t` meets `C171_ordinary`. -/
example : ∃ f args, [(false, Node.mk (.anon ['f']) [.mk .binary [.mk .column [], .mk .literal []]])] = [(false, .mk (.anon f) args)] ∧
    (∀ a ∈ args, Usual a) ∧ ∃ a ∈ args, UsesColumn a := by
  refine ⟨_, _, rfl, ?_, _, List.mem_singleton.2 rfl, .mk .column [], by simp [parts, partsAll], rfl⟩
  intro a ha x hx
  simp only [List.mem_singleton] at ha
  subst ha
  simp only [parts, partsAll] at hx
  simp at hx
  rcases hx with rfl | rfl | rfl <;> simp [Node.cls, inner, parts, partsAll]

end Verif.Props
