import Verif.Spec.HavingSub
import Verif.Props.SubOperand
import Verif.Props.StrSearch
/-! C169: HAVING with LIKE and subqueries. -/
namespace Verif.Props.HavingProofs
open Verif.Val Verif.Expr Verif.Sql Verif.Where Verif.SubOperand Verif.SubSpec Verif.HavingSub Verif.HavingSpec Verif.Text
open Verif.Props.SubProofs

/-- No character of the pattern has a meaning in regular expressions. -/
def Plain (p : Str) : Prop := ∀ c ∈ p, c ∉ ['\\', '^', '$', '+', '?', '{', '}', '[', ']', '|', '(', ')', '.', '*']

theorem plainAt {p : Str} (h : Plain p) {c : Char} (hc : c ∈ p) : special c = false ∧ c ≠ '.' ∧ c ≠ '*' := by
  have := h c hc
  simp only [List.mem_cons, List.not_mem_nil, or_false, not_or] at this
  simp [special, this]

def atoms : List Str.Tok → List (Atom × Bool)
  | [] => []
  | .lit c :: ts => (.lit c, false) :: atoms ts
  | .star :: ts => (.any, true) :: atoms ts

theorem matchHead_toks (ts : List Str.Tok) (s : Str) : matchHead (atoms ts) s = Str.reMatch (fun a b => a == b) ts s := by
  fun_induction Str.reMatch (fun a b => a == b) ts s with
  | case1 s => simp [atoms, matchHead]
  | case2 c ts => simp [atoms, matchHead]
  | case3 c ts d s ih => simp [atoms, matchHead, hits, ih]
  | case4 ts s ih ih2 =>
    cases s with
    | nil => rw [atoms, matchHead.eq_def, ← ih]
    | cons d s =>
      simp only [atoms] at ih2
      rw [atoms, matchHead.eq_def]
      simp only [ih, ih2, hits]

theorem dots_head (p : Str) (h : Plain p) : ∀ x, dots p ≠ '*' :: x := by
  intro x
  cases p with
  | nil => simp [dots]
  | cons c r =>
    rw [dots]
    split
    · simp
    · intro he
      exact (plainAt h (c := c) (by simp)).2.2 (by simpa using (List.cons.inj he).1)

theorem dots_head2 (c : Char) (r : Str) (h : Plain (c :: r)) (hc : c ≠ '%') : ∀ x, dots (c :: r) ≠ '.' :: x := by
  intro x
  rw [dots, if_neg hc]
  intro he
  exact (plainAt h (c := c) (by simp)).2.1 (by simpa using (List.cons.inj he).1)

theorem noDouble_tail {c : Char} {r : Str} (h : NoDouble (c :: r)) : NoDouble r := by
  unfold NoDouble at h
  split at h
  · exact h.elim
  · rename_i h2
    injection h2 with _ h2
    rw [h2]; exact h
  · rename_i h2; simp at h2

theorem squeeze_cons (c : Char) (x : Str) (h : ∀ r, c :: x ≠ '.' :: '*' :: '.' :: '*' :: r) : squeeze (c :: x) = c :: squeeze x := by
  rw [squeeze]
  intro r h1 h2
  subst h1; subst h2
  exact h r rfl

theorem squeeze_dots (p : Str) (h : Plain p) (hd : NoDouble p) : squeeze (dots p) = dots p := by
  induction p with
  | nil => rfl
  | cons c r ih =>
    have ih := ih (fun c hc => h c (by simp [hc])) (noDouble_tail hd)
    by_cases hc : c = '%'
    · subst hc
      rw [dots, if_pos rfl]
      have hr : ∀ x, dots r ≠ '.' :: x := by
        cases r with
        | nil => simp [dots]
        | cons c' r' =>
          refine dots_head2 c' r' (fun c hc => h c (by simp [List.mem_cons.1 hc])) ?_
          rintro rfl
          exact hd
      rw [squeeze_cons, squeeze_cons, ih]
      · intro x hx; simp at hx
      · intro x hx
        simp at hx
        exact hr _ hx
    · rw [dots, if_neg hc, squeeze_cons, ih]
      intro x hx
      exact (plainAt h (c := c) (by simp)).2.1 (by simpa using (List.cons.inj hx).1)

theorem parse_dots (p : Str) (h : Plain p) (hd : NoDouble p) : parseRe (dots p) = some (atoms (Str.toks p)) := by
  induction p with
  | nil => simp [dots, Str.toks, parseRe, atoms]
  | cons c r ih =>
    have hr : Plain r := fun c hc => h c (by simp [hc])
    have ih := ih hr (noDouble_tail hd)
    by_cases hc : c = '%'
    · subst hc
      have ht : Str.toks ('%' :: r) = .star :: Str.toks r := by
        rw [Str.toks]
        intro r' he
        subst he
        exact hd
      rw [dots, if_pos rfl, parseRe, ht, atoms]
      simp [special, ih]
    · have ht : Str.toks (c :: r) = .lit c :: Str.toks r := by
        rw [Str.toks]
        · intro r' h; exact absurd h hc
        · exact hc
      have h3 := plainAt h (c := c) (by simp)
      have h4 := dots_head r hr
      rw [dots, if_neg hc, parseRe, if_neg (by simp [h3])]
      · simp [ih, ht, atoms, h3]
      · exact h4

/-- What LIKE in HAVING decides. -/
theorem pattern_match (p : Str) (h : Plain p) (hd : NoDouble p) :
    parseRe (pattern p) = some (atoms (Str.toks p)) := by
  rw [pattern, if_neg (noDouble_ne hd), squeeze_dots p h hd, parse_dots p h hd]

section
variable (text : Str → Bool) (py : Py) (calls : Str → List Val → Val) (row : Str → Val)

/-- The conditions of C169. -/
def Ok : H → Prop
  | .e x => havingOk x = true
  | .and a b => Ok a ∧ Ok b
  | .or a b => Ok a ∧ Ok b
  | .paren a => Ok a
  | .cmpSub _ a s => scalarOk a = true ∧ Column s
  | .inSub a s => scalarOk a = true ∧ Column s
  | .notIn a s => scalarOk a = true ∧ Column s ∧ (s.rows ≠ [] ∨ sem text py.cmp calls row a ≠ .null)
  | .exist _ => True
  | .like a p => scalarOk a = true ∧ Plain p ∧ NoDouble p ∧ '_' ∉ p ∧ (∃ r, p = r ++ ['%']) ∧
      ∃ s, sem text py.cmp calls row a = .str s ∧ '\n' ∉ s

theorem like_eval (hre : HasMatch calls) (a : E) (p s : Str) (ha : eval py calls row (compile a) = .str s) (h : Plain p) (hd : NoDouble p)
    (hu : '_' ∉ p) (hn : '\n' ∉ s) :
    ∃ t, compileH (.like a p) = some t ∧
      (truthy (eval py calls row t) = true ↔ ∃ x, x <+: s ∧ Like (fun a b => a == b) p x) := by
  refine ⟨_, rfl, ?_⟩
  simp only [eval, evalL, ha, hre _ s _ (pattern_match p h hd), matchHead_toks]
  have key : Str.reMatch (fun a b => a == b) (Str.toks p) s = true ↔ ∃ x, x <+: s ∧ Like (fun a b => a == b) p x := by
    rw [reMatch_iff, like_prefix _ p s hd hu hn]
    constructor
    · rintro ⟨x, y, h, h'⟩; exact ⟨x, ⟨y, h.symm⟩, h'⟩
    · rintro ⟨x, ⟨y, h⟩, h'⟩; exact ⟨x, y, h.symm, h'⟩
  rw [← key]
  cases Str.reMatch (fun a b => a == b) (Str.toks p) s <;> simp [truthy]

end
end Verif.Props.HavingProofs

namespace Verif.Props
open Verif.Val Verif.Expr Verif.Sql Verif.Where Verif.SubOperand Verif.SubSpec Verif.HavingSub Verif.HavingSpec Verif.Text
open Verif.Props.SubProofs
open Verif.Props.HavingProofs (Plain like_eval)

/-- **C169** (partial).  A row of the result is kept iff SQL says that HAVING is TRUE of it, for AND, OR and parentheses over the
conditions of C31, comparisons with subqueries, IN, NOT IN and EXISTS of subqueries and LIKE.  The conditions, next to those of C31: NOT
IN of a subquery without rows is not asked of NULL; the pattern of LIKE ends with `%`, has no `%%`, no `_` and no character with a
meaning in regular expressions, and the value is a text without newlines. -/
theorem C169_having_partial (text : Str → Bool) (py : Py) (calls : Str → List Val → Val) (row : Str → Val) (hre : HasMatch calls)
    (h : H) (hok : HavingProofs.Ok text py calls row h) (t : T) (ht : compileH h = some t) :
    truthy (eval py calls row t) = true ↔ Holds text py.cmp calls row h := by
  induction h generalizing t with
  | e x =>
    obtain ⟨t', h1, h2⟩ := C31_having_partial text py calls row x hok
    rw [compileH, h1] at ht
    cases ht
    exact h2
  | and a b iha ihb =>
    simp only [compileH, Option.bind_eq_some_iff, Option.map_eq_some_iff] at ht
    obtain ⟨x, hx, y, hy, rfl⟩ := ht
    simp only [eval, Holds, ← iha hok.1 x hx, ← ihb hok.2 y hy]
    by_cases h : truthy (eval py calls row x) = true
    · rw [if_pos h]; exact ⟨fun g => ⟨h, g⟩, fun g => g.2⟩
    · rw [if_neg h]; exact ⟨fun g => by simp [truthy] at g, fun g => absurd g.1 h⟩
  | or a b iha ihb =>
    simp only [compileH, Option.bind_eq_some_iff, Option.map_eq_some_iff] at ht
    obtain ⟨x, hx, y, hy, rfl⟩ := ht
    simp only [eval, Holds, ← iha hok.1 x hx, ← ihb hok.2 y hy]
    by_cases h : truthy (eval py calls row x) = true
    · rw [if_pos h]; exact ⟨fun _ => .inl h, fun _ => by simp [truthy]⟩
    · rw [if_neg h]; exact ⟨.inr, fun g => g.resolve_left h⟩
  | paren a ih => exact ih hok t ht
  | cmpSub op a s =>
    simp only [compileH] at ht
    split at ht
    · cases ht
    cases ht
    simp only [eval, Holds, scalar_ok text py calls row a hok.1, eval_first py calls _ hok.2]
    exact truthy_tv text (cmp_notText py _ _ _)
  | inSub a s =>
    simp only [compileH] at ht
    split at ht
    · cases ht
    cases ht
    exact cond_value text py calls row (prim := fun _ => true) (s := .inSub a s) hok
  | notIn a s =>
    cases ht
    have := neg_value text py calls row (s := .not (.inSub a s)) hok
    simp only [compileS] at this
    rw [truthy_tv text this.1, this.2, truth, truth, Holds]
    cases in3 (fun v => tv text (py.cmp .eq (sem text py.cmp calls row a) v)) (vals s) with
    | none => simp [not3]
    | some b => cases b <;> simp [not3]
  | exist s =>
    cases ht
    by_cases hr : s.rows = [] <;> simp [eval, truthy, Holds, hr]
  | like a p =>
    obtain ⟨h1, h2, h3, h4, ⟨r, rfl⟩, s, h5, h6⟩ := hok
    obtain ⟨t', h7, h8⟩ := like_eval py calls row hre a _ s (by rw [scalar_ok text py calls row a h1, h5]) h2 h3 h4 h6
    rw [h7] at ht
    cases ht
    rw [h8, Holds]
    constructor
    · rintro ⟨x, ⟨y, rfl⟩, h⟩; exact ⟨_, h5, like_extend _ r x y h⟩
    · rintro ⟨s', h9, h⟩
      rw [h5] at h9
      cases h9
      exact ⟨s, List.prefix_refl s, h⟩

/-- **C169**, what LIKE decides in HAVING for such patterns without their end: some beginning of the text matches. -/
theorem C169_like_computed (py : Py) (calls : Str → List Val → Val) (row : Str → Val) (hre : HasMatch calls)
    (c p s : Str) (hrow : row c = .str s) (h : Plain p) (hd : NoDouble p) (hu : '_' ∉ p) (hn : '\n' ∉ s) :
    ∃ t, compileH (.like (.col c) p) = some t ∧
      (truthy (eval py calls row t) = true ↔ ∃ x, x <+: s ∧ Like (fun a b => a == b) p x) :=
  like_eval py calls row hre (.col c) p s (by simp [compile, eval, hrow]) h hd hu hn

/-- **C169**: LIKE '%%' keeps every text. -/
theorem C169_like_all (py : Py) (calls : Str → List Val → Val) (row : Str → Val) (hre : HasMatch calls) (c s : Str) (hrow : row c = .str s) :
    ∃ t, compileH (.like (.col c) ['%', '%']) = some t ∧ truthy (eval py calls row t) = true := by
  have hp : parseRe (pattern ['%', '%']) = some [(.any, true)] := by decide +kernel
  refine ⟨_, rfl, ?_⟩
  simp only [eval, evalL, compile, hrow, hre _ s _ hp]
  have : matchHead [(.any, true)] s = true := by
    have h0 : matchHead [] s = true := by rw [matchHead.eq_def]
    rw [matchHead.eq_def]
    simp only [h0, Bool.true_or]
  simp [this, truthy]

/-- **C169**, what is assumed of `re.match`: nothing about expressions with a character that has a meaning other than `.` and `*`. -/
theorem C169_scope (c : Char) (hc : c ∈ ['\\', '^', '$', '+', '?', '{', '}', '[', ']', '|', '(', ')', '*']) (p r : Str)
    (hp : ∀ d ∈ p, d ∉ ['\\', '^', '$', '+', '?', '{', '}', '[', ']', '|', '(', ')', '.', '*']) : parseRe (c :: r) = none ∧
      (c ≠ '*' → parseRe (p ++ c :: r) = none) := by
  have h1 : parseRe (c :: r) = none := by
    have : (special c || c = '*') = true := by
      simp only [List.mem_cons, List.not_mem_nil, or_false] at hc
      rcases hc with h | h | h | h | h | h | h | h | h | h | h | h | h <;> subst h <;> decide
    rw [parseRe.eq_def]
    simp only [this, if_true]
  refine ⟨h1, fun hs => ?_⟩
  induction p with
  | nil => exact h1
  | cons d p ih =>
    have ih := ih fun e he => hp e (by simp [he])
    have hd := HavingProofs.plainAt (p := d :: p) hp (c := d) (by simp)
    rw [List.cons_append, parseRe, if_neg (by simp [hd])]
    · rw [ih]; rfl
    · intro x hx
      cases p with
      | nil => exact hs (List.cons.inj hx).1
      | cons e p => exact (HavingProofs.plainAt (p := d :: e :: p) hp (c := e) (by simp)).2.2 (List.cons.inj hx).1

/-- **C169, negated**: 'abcdef' LIKE 'abc' is kept (SQL: not), 'abc' LIKE 'a_c' is not, 'abc' LIKE 'a.c' is, 'axb' LIKE 'a%%b' is not,
'a%b' LIKE 'a%%b' being the only such text that is. -/
theorem C169_like_violated (py : Py) (calls : Str → List Val → Val) (hre : HasMatch calls) :
    let kept := fun (s p : String) => (compileH (.like (.col ['x']) p.toList)).map fun t => truthy (eval py calls (fun _ => .str s.toList) t)
    kept "abcdef" "abc" = some true ∧ ¬ Like (fun a b => a == b) "abc".toList "abcdef".toList ∧
      kept "abc" "a_c" = some false ∧ Like (fun a b => a == b) "a_c".toList "abc".toList ∧
      kept "abc" "a.c" = some true ∧ ¬ Like (fun a b => a == b) "a.c".toList "abc".toList ∧
      kept "axb" "a%%b" = some false ∧ Like (fun a b => a == b) "a%%b".toList "axb".toList ∧ kept "a%b" "a%%b" = some true := by
  have key : ∀ (s p : Str) r, parseRe (pattern p) = some r →
      (compileH (.like (.col ['x']) p)).map (fun t => truthy (eval py calls (fun _ => .str s) t)) = some (matchHead r s) := by
    intro s p r h
    simp only [compileH, Option.map_some, eval, evalL, compile, hre _ s r h]
    cases matchHead r s <;> simp [truthy]
  refine ⟨?_, ?_, ?_, ?_, ?_, ?_, ?_, ?_, ?_⟩
  · exact (key _ _ [(.lit 'a', false), (.lit 'b', false), (.lit 'c', false)] (by decide +kernel)).trans (by decide +kernel)
  · simp [Like]
  · exact (key _ _ [(.lit 'a', false), (.lit '_', false), (.lit 'c', false)] (by decide +kernel)).trans (by decide +kernel)
  · simp [Like]
  · exact (key _ _ [(.lit 'a', false), (.any, false), (.lit 'c', false)] (by decide +kernel)).trans (by decide +kernel)
  · simp [Like]
  · exact (key _ _ [(.lit 'a', false), (.lit '%', false), (.lit 'b', false)] (by decide +kernel)).trans (by decide +kernel)
  · exact ⟨'a', _, rfl, rfl, [], _, rfl, ['x'], _, rfl, 'b', _, rfl, rfl, rfl⟩
  · exact (key _ _ [(.lit 'a', false), (.lit '%', false), (.lit 'b', false)] (by decide +kernel)).trans (by decide +kernel)

/-- **C169, negated**: the same condition is case-insensitive in WHERE and in the select list (`same`), and case-sensitive in HAVING. -/
theorem C169_case_violated (py : Py) (calls : Str → List Val → Val) (hre : HasMatch calls) (same : Char → Char → Bool) (hs : same 'a' 'A' = true) :
    Str.like same (.str ['A']) (.str ['a', '%']) = .int 1 ∧
      (compileH (.like (.col ['x']) ['a', '%'])).map (fun t => truthy (eval py calls (fun _ => .str ['A']) t)) = some false := by
  constructor
  · rw [C36_like_computed same _ _ (by simp [NoDouble]) (by decide) (by decide)]
    exact ⟨['A'], List.prefix_refl _, 'A', [], rfl, hs, [], [], rfl, rfl⟩
  · simp only [compileH, Option.map_some, eval, evalL, compile,
      hre (pattern ['a', '%']) ['A'] [(.lit 'a', false), (.any, true)] (by decide +kernel)]
    have : matchHead [(.lit 'a', false), (.any, true)] ['A'] = false := by decide +kernel
    rw [this]
    rfl

/-- **C169, negated**: a column with a typing filter (or a CAST of one) next to a subquery is refused. -/
theorem C169_typed_violated (c : Str) (h : baseName c ≠ c) (op : Cmp) (s : SubOperand.Sub) (a b : H) :
    compileH (.and (.cmpSub op (.col c) s) b) = none ∧ compileH (.or a (.inSub (.col c) s)) = none := by
  simp [compileH, typedE, typed, h]

/-- **C169, negated**: a subquery with several rows is compared by its first row (SQL refuses the query). -/
theorem C169_many_rows_violated (op : Cmp) (a : E) (c : Str) (v w : Str → Val) (rs : List (Str → Val)) :
    compileH (.cmpSub op a ⟨some [c], [], c, v :: w :: rs⟩) = compileH (.cmpSub op a ⟨some [c], [], c, [v]⟩) := by
  simp [compileH, first, SubOperand.Sub.values, SubOperand.Sub.columnName]

/-- The columns that are compared with a subquery. -/
def HavingProofs.compared : H → List Str
  | .and a b => compared a ++ compared b
  | .or a b => compared a ++ compared b
  | .paren a => compared a
  | .cmpSub _ (.col c) _ => [c]
  | .inSub (.col c) _ => [c]
  | _ => []

/-- Every other condition of this form is accepted. -/
theorem C169_accepted (text : Str → Bool) (py : Py) (calls : Str → List Val → Val) (row : Str → Val) (h : H) (hok : HavingProofs.Ok text py calls row h)
    (ht : ∀ c ∈ HavingProofs.compared h, baseName c = c) : (compileH h).isSome = true := by
  induction h with
  | e x =>
    obtain ⟨t', h1, _⟩ := C31_having_partial text py calls row x hok
    simp [compileH, h1]
  | and a b iha ihb =>
    simp only [HavingProofs.compared, List.mem_append] at ht
    obtain ⟨x, hx⟩ := Option.isSome_iff_exists.1 (iha hok.1 fun c hc => ht c (.inl hc))
    obtain ⟨y, hy⟩ := Option.isSome_iff_exists.1 (ihb hok.2 fun c hc => ht c (.inr hc))
    simp [compileH, hx, hy]
  | or a b iha ihb =>
    simp only [HavingProofs.compared, List.mem_append] at ht
    obtain ⟨x, hx⟩ := Option.isSome_iff_exists.1 (iha hok.1 fun c hc => ht c (.inl hc))
    obtain ⟨y, hy⟩ := Option.isSome_iff_exists.1 (ihb hok.2 fun c hc => ht c (.inr hc))
    simp [compileH, hx, hy]
  | paren a ih => exact ih hok ht
  | cmpSub op a s =>
    cases a with
    | col c => simp [compileH, typedE, typed, ht c (by simp [HavingProofs.compared])]
    | _ => rfl
  | inSub a s =>
    cases a with
    | col c => simp [compileH, typedE, typed, ht c (by simp [HavingProofs.compared])]
    | _ => rfl
  | _ => rfl

namespace HavingCases

/-- A function table with `re.match`. -/
def calls : Str → List Val → Val := fun _ vs => match vs with
  | [.str p, .str s] => match parseRe p with
    | some r => if matchHead r s then .bool true else .null
    | none => .null
  | _ => .null

theorem calls_ok : HasMatch calls := by
  intro p s r h
  simp [calls, h]

/-- `n > (SELECT MAX(m) AS m …) AND (x LIKE 'b%' OR n IN (SELECT m …)) AND n NOT IN (SELECT m …)`. -/
def clause : H :=
  .and (.cmpSub .gt (.col ['n']) SubCases.one) (.and (.paren (.or (.like (.col ['x']) ['b', '%']) (.inSub (.col ['n']) SubCases.two)))
    (.notIn (.col ['n']) SubCases.one))

def row : Str → Val := fun c => if c = ['n'] then .int 7 else .str ['b', 'c']

example (text : Str → Bool) : HavingProofs.Ok text plainPy calls row clause ∧ HavingProofs.compared clause = [['n'], ['n']] ∧
    (compileH clause).map (fun t => truthy (eval plainPy calls row t)) = some true := by
  have h1 : Column SubCases.one := rfl
  have h2 : Column SubCases.two := rfl
  refine ⟨⟨⟨rfl, h1⟩, ⟨⟨rfl, ?_, by simp [NoDouble], by decide, ⟨['b'], rfl⟩, ['b', 'c'], rfl, by decide⟩, rfl, h2⟩, rfl, h1, .inl (by simp [SubCases.one])⟩,
    rfl, by decide +kernel⟩
  intro c hc
  simp only [List.mem_cons, List.not_mem_nil, or_false] at hc
  rcases hc with rfl | rfl <;> decide

end HavingCases
end Verif.Props
