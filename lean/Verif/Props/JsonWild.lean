import Verif.Spec.JsonWild
import Verif.Props.Json
/-! Property theorems C181: quoted names and wildcards in JSON paths. -/
namespace Verif.Props
open Verif.Val Verif.Json Verif.JsonSpec Verif.JsonWildSpec

namespace JsonWildLemmas

/-- A leg as it is written: after a point, or between brackets. -/
inductive W where
  | dot (n : Str)
  | brack (k : Str)

def W.Ok : W → Prop
  | .dot n => n ≠ [] ∧ '.' ∉ n ∧ '[' ∉ n ∧ ']' ∉ n
  | .brack k => ']' ∉ k

def W.leg : W → Leg
  | .dot n => .name n
  | .brack k => bracket k

def tail : List W → Str
  | [] => []
  | .dot n :: r => '.' :: n ++ tail r
  | .brack k :: r => '[' :: k ++ ']' :: tail r

def body : List W → Str
  | .dot n :: r => n ++ tail r
  | p => tail p

theorem tail_last (p : List W) (h : ∀ x ∈ p, x.Ok) : (tail p).getLast? ≠ some '.' := by
  induction p with
  | nil => simp [tail]
  | cons x p ih =>
    have ih' := ih fun y hy => h y (by simp [hy])
    have hx := h x (by simp)
    cases hp : tail p with
    | nil =>
      cases x with
      | dot n =>
        obtain ⟨h1, h2, _, _⟩ := hx
        rw [tail, hp, List.append_nil]
        intro hl
        cases n with
        | nil => exact h1 rfl
        | cons c n =>
          rw [List.getLast?_cons_cons] at hl
          exact h2 (List.mem_of_getLast? hl)
      | brack k =>
        rw [tail, hp]
        have e : '[' :: k ++ [']'] = ('[' :: k) ++ [']'] := rfl
        rw [e, List.getLast?_concat]
        decide
    | cons c t =>
      rw [hp] at ih'
      cases x with
      | dot n =>
        rw [tail, hp, getLast_append _ _ (by simp)]
        exact ih'
      | brack k =>
        rw [tail, hp, getLast_append _ _ (by simp), List.getLast?_cons_cons]
        exact ih'

theorem body_last (p : List W) (h : ∀ x ∈ p, x.Ok) : (body p).getLast? ≠ some '.' := by
  cases p with
  | nil => simp [body, tail]
  | cons x p =>
    have ht := tail_last (x :: p) h
    cases x with
    | dot n =>
      obtain ⟨h1, h2, _, _⟩ := h (.dot n) (by simp)
      rw [tail, List.cons_append] at ht
      rw [body]
      intro hl
      apply ht
      cases n with
      | nil => exact absurd rfl h1
      | cons c n => simpa using hl
    | brack k => exact ht

theorem body_head (p : List W) (h : ∀ x ∈ p, x.Ok) : (body p).head? ≠ some '.' := by
  cases p with
  | nil => simp [body, tail]
  | cons x p =>
    cases x with
    | dot n =>
      obtain ⟨h1, h2, _, _⟩ := h (.dot n) (by simp)
      cases n with
      | nil => exact absurd rfl h1
      | cons c n =>
        simp only [body, List.cons_append, List.head?_cons, ne_eq, Option.some.injEq]
        rintro rfl; exact h2 (by simp)
    | brack k => simp [body, tail]

theorem strip_body (p : List W) (h : ∀ x ∈ p, x.Ok) : stripDots (body p) = body p :=
  stripDots_id _ (body_head p h) (body_last p h)

theorem strip_tail (p : List W) (h : ∀ x ∈ p, x.Ok) : stripDots (tail p) = body p := by
  cases p with
  | nil => rfl
  | cons x p =>
    cases x with
    | dot n =>
      rw [tail, List.cons_append, stripDots_dot]
      exact strip_body (.dot n :: p) h
    | brack k => exact strip_body (.brack k :: p) h

theorem parse (p : List W) (h : ∀ x ∈ p, x.Ok) : parsePath (body p) = p.map W.leg := by
  match p, h with
  | [], _ => rw [body, tail, parsePath]; rfl; simp
  | [.dot n], h =>
    obtain ⟨h1, h2, h3, _⟩ := h (.dot n) (by simp)
    rw [body, tail, List.append_nil, parse_name n h1 h2 h3]; rfl
  | .dot n :: .dot m :: r, h =>
    obtain ⟨h1, h2, h3, _⟩ := h (.dot n) (by simp)
    have hr : ∀ x ∈ W.dot m :: r, x.Ok := fun x hx => h x (List.mem_cons_of_mem _ hx)
    rw [body, tail, List.cons_append, parse_dot n _ h1 h2 h3]
    have e : m ++ tail r = body (.dot m :: r) := rfl
    rw [e, strip_body _ hr, parse (.dot m :: r) hr]
    rfl
  | .dot n :: .brack k :: r, h =>
    obtain ⟨h1, h2, h3, h4⟩ := h (.dot n) (by simp)
    have hk : ']' ∉ k := h (.brack k) (by simp)
    have hr : ∀ x ∈ r, x.Ok := fun x hx => h x (by simp [hx])
    rw [body, tail, List.cons_append, parse_bracket n k _ h2 h3 h4 hk, if_neg h1, strip_tail r hr, parse r hr]
    rfl
  | .brack k :: r, h =>
    have hk : ']' ∉ k := h (.brack k) (by simp)
    have hr : ∀ x ∈ r, x.Ok := fun x hx => h x (by simp [hx])
    have := parse_bracket [] k (tail r) (by simp) (by simp) (by simp) hk
    rw [List.nil_append] at this
    rw [body, tail, List.cons_append, this, if_pos rfl, strip_tail r hr, parse r hr]
    · rfl
    · simp
termination_by p.length

theorem legs_w (p : List W) (h : ∀ x ∈ p, x.Ok) : legs ('$' :: tail p) = p.map W.leg := by
  have : dropRoot ('$' :: tail p) = body p := by
    cases p with
    | nil => rfl
    | cons x p => cases x <;> rfl
  rw [legs, this, parse p h]

/-- The step as it is read. -/
def ofStep : Step → W
  | .name n => .dot n
  | .bracketed n => .brack ('"' :: n ++ ['"'])
  | .idx k => .brack (natText k)

theorem ofStep_ok (s : Step) (h : s.Ok) : (ofStep s).Ok := by
  cases s with
  | name n => exact ⟨h.1, h.2.1, h.2.2.1, h.2.2.2.1⟩
  | bracketed n =>
    have := h.1
    simp [ofStep, W.Ok, this]
  | idx k => exact digits_no rfl

theorem bracket_quoted (n : Str) : bracket ('"' :: n ++ ['"']) = .name n := by
  have h1 : allDigits ('"' :: n ++ ['"']) = false := by
    rw [allDigits]
    have : isDigit '"' = false := by decide
    simp [this]
  rw [bracket, h1]
  have h2 : ('"' :: n ++ ['"']).getLast? = some '"' := by rw [List.getLast?_concat]
  rw [if_neg (by decide), if_pos ⟨rfl, h2⟩]
  simp

theorem ofStep_leg (s : Step) : (ofStep s).leg = s.leg := by
  cases s with
  | name n => rfl
  | bracketed n => exact bracket_quoted n
  | idx k => exact bracket_nat k

theorem tail_steps (p : List Step) : tail (p.map ofStep) = stepsText p := by
  induction p with
  | nil => rfl
  | cons s p ih => cases s <;> simp [tail, stepsText, ofStep, ih]

theorem tail_append (p q : List W) : tail (p ++ q) = tail p ++ tail q := by
  induction p with
  | nil => rfl
  | cons s p ih => cases s <;> simp [tail, ih]

theorem star_leg : W.leg (.brack ['*']) = .name ['*'] := by decide

theorem steps_legs (p : List Step) : (p.map ofStep).map W.leg = p.map Step.leg := by
  rw [List.map_map]; exact List.map_congr_left fun s _ => ofStep_leg s

theorem steps_ok (p : List Step) (h : ∀ s ∈ p, s.Ok) : ∀ x ∈ p.map ofStep, x.Ok := by
  intro x hx
  obtain ⟨s, hs, rfl⟩ := List.mem_map.1 hx
  exact ofStep_ok s (h s hs)

theorem steps_star (p : List Step) (h : ∀ s ∈ p, s.Ok) : NoStar (p.map Step.leg) := by
  intro hm
  obtain ⟨s, hs, e⟩ := List.mem_map.1 hm
  have := h s hs
  cases s with
  | name n => simp only [Step.leg, Leg.name.injEq] at e; exact this.2.2.2.2 e
  | bracketed n => simp only [Step.leg, Leg.name.injEq] at e; exact this.2 e
  | idx k => simp [Step.leg] at e

theorem steps_text (p : List Step) (h : ∀ s ∈ p, s.Ok) : legs ('$' :: stepsText p) = p.map Step.leg := by
  rw [← tail_steps, legs_w _ (steps_ok p h), steps_legs]

theorem star_text (pre post : List Step) (h : ∀ s ∈ pre, s.Ok) (h' : ∀ s ∈ post, s.Ok) :
    legs ('$' :: (stepsText pre ++ '[' :: '*' :: ']' :: stepsText post)) = pre.map Step.leg ++ .name ['*'] :: post.map Step.leg := by
  have := legs_w (pre.map ofStep ++ .brack ['*'] :: post.map ofStep) (by
    intro x hx
    rcases List.mem_append.1 hx with hx | hx
    · exact steps_ok pre h x hx
    · rcases List.mem_cons.1 hx with rfl | hx
      · simp [W.Ok]
      · exact steps_ok post h' x hx)
  rw [tail_append, tail_steps, tail, tail_steps] at this
  rw [show '$' :: (stepsText pre ++ '[' :: '*' :: ']' :: stepsText post) = '$' :: (stepsText pre ++ ('[' :: ['*'] ++ ']' :: stepsText post)) from rfl,
    this, List.map_append, List.map_cons, steps_legs, steps_legs, star_leg]

theorem extract_one (j : J) (hj : j ≠ .null) (p : Str) : extract j [p] = getP j (legs p) := by
  cases j <;> first | exact absurd rfl hj | rfl

theorem get_app {j : J} {p : List Leg} {x : J} (h : At j p x) (hs : NoStar p) (q : List Leg) : getP j (p ++ q) = getP x q := by
  induction h with
  | here j => rfl
  | elem h _ ih => rw [List.cons_append, getP]; simp only [h]; exact ih (noStar_tail hs)
  | @member d k y p x h _ ih =>
    have hk : k ≠ ['*'] := fun e => hs (by simp [e])
    rw [List.cons_append, getP, if_neg hk]; simp only [lookup_entry, h]; exact ih (noStar_tail hs)

theorem collect_get (p : List Leg) (hs : NoStar p) {l r : List J} (h : Collect p l r) :
    (l.map fun d => getP d p).filter present = r := by
  induction h with
  | nil => rfl
  | @hit d x l r h hx _ ih =>
    rw [List.map_cons, get_at h hs, List.filter_cons_of_pos (by cases x <;> first | rfl | exact absurd rfl hx), ih]
  | @miss d l r h hn _ ih =>
    have e : getP d p = .null := by
      by_cases hx : ∃ x, At d p x
      · obtain ⟨x, hx⟩ := hx
        rw [get_at hx hs, h x hx]
      · exact get_not hs hn fun x h => hx ⟨x, h⟩
    rw [List.map_cons, e, List.filter_cons_of_neg (by simp [present]), ih]

theorem nonempty_map {post : List Step} (h : post ≠ []) : post.map Step.leg ≠ [] := by
  simpa using h

end JsonWildLemmas
open JsonWildLemmas

/-- **C181** (partial: `."name"` and the wildcards deviate).  A path of `.name`, `["name"]` and `[number]` steps, where the names in brackets
and quotes may hold any character but `]`: JSON_EXTRACT gives the value the path leads to, and NULL where it leads nowhere. -/
theorem C181_names_partial (j : J) (hj : j ≠ .null) (p : List Step) (hp : ∀ s ∈ p, s.Ok) :
    (∀ x, At j (p.map Step.leg) x → extract j ['$' :: stepsText p] = x) ∧
    (NoText j (p.map Step.leg) → (∀ x, ¬ At j (p.map Step.leg) x) → extract j ['$' :: stepsText p] = .null) := by
  rw [extract_one j hj, steps_text p hp]
  exact ⟨fun x h => get_at h (steps_star p hp), fun ht h => get_not (steps_star p hp) ht h⟩

/-- **C181** (partial): `[*]` where an array is: the values other than NULL to which the rest of the path leads from its elements, in order. -/
theorem C181_elements_partial (j : J) (hj : j ≠ .null) (pre post : List Step) (hpre : ∀ s ∈ pre, s.Ok) (hpost : ∀ s ∈ post, s.Ok)
    (l : List J) (h : At j (pre.map Step.leg) (.arr l)) :
    (post = [] → extract j ['$' :: (stepsText pre ++ '[' :: '*' :: ']' :: stepsText post)] = .arr l) ∧
    (∀ r, post ≠ [] → Collect (post.map Step.leg) l r →
      extract j ['$' :: (stepsText pre ++ '[' :: '*' :: ']' :: stepsText post)] = .arr r) := by
  rw [extract_one j hj, star_text pre post hpre hpost, get_app h (steps_star pre hpre)]
  constructor
  · rintro rfl
    simp [getP]
  · intro r hne hc
    rw [getP, if_pos rfl, if_neg (nonempty_map hne)]
    simp only
    exact congrArg J.arr ((List.filter_congr fun x _ => by cases x <;> rfl).trans (collect_get _ (steps_star post hpost) hc))

/-- **C181 is violated when a wildcard finds nothing**: the answer is an empty list, where SQL has NULL. -/
theorem C181_nothing_violated (j : J) (hj : j ≠ .null) (pre post : List Step) (hpre : ∀ s ∈ pre, s.Ok) (hpost : ∀ s ∈ post, s.Ok)
    (hne : post ≠ []) (l : List J) (h : At j (pre.map Step.leg) (.arr l)) (hn : ∀ d ∈ l, NoText d (post.map Step.leg) ∧ ∀ x, ¬ At d (post.map Step.leg) x) :
    extract j ['$' :: (stepsText pre ++ '[' :: '*' :: ']' :: stepsText post)] = .arr [] := by
  refine (C181_elements_partial j hj pre post hpre hpost l h).2 [] hne ?_
  clear h
  induction l with
  | nil => exact .nil
  | cons d l ih => exact .miss (fun x hx => absurd hx ((hn d (by simp)).2 x)) (hn d (by simp)).1 (ih fun e he => hn e (by simp [he]))

/-- **C181 is violated by `.*`**: of every object it is the object itself instead of the list of its members' values, and with a name after it
the member of that name of the object itself. -/
theorem C181_members_violated (d : List (Str × J)) (k : Str) (hk : (Step.name k).Ok) :
    extract (.obj d) [['$', '.', '*']] = .obj d ∧
    extract (.obj d) ['$' :: '.' :: '*' :: '.' :: k] =
      .arr ((match entry k d with | some x => [x] | none => []).filter present) := by
  have e1 : legs ['$', '.', '*'] = [.name ['*']] := by
    have := legs_w [.dot ['*']] (by simp [W.Ok])
    simpa [tail, W.leg] using this
  have e2 : legs ('$' :: '.' :: '*' :: '.' :: k) = [.name ['*'], .name k] := by
    have := legs_w [.dot ['*'], .dot k] (by
      intro x hx
      simp only [List.mem_cons, List.not_mem_nil, or_false] at hx
      rcases hx with rfl | rfl
      · simp [W.Ok]
      · exact ⟨hk.1, hk.2.1, hk.2.2.1, hk.2.2.2.1⟩)
    simpa [tail, W.leg] using this
  constructor
  · rw [extract_one _ (by simp), e1]; simp [getP]
  · rw [extract_one _ (by simp), e2, getP, if_pos rfl, if_neg (by simp)]
    simp only [List.map_cons, List.map_nil, getP, if_neg hk.2.2.2.2, lookup_entry]
    cases entry k d with
    | none => rfl
    | some x => cases x <;> rfl

/-- **C181 is violated by two wildcards**: `[*][*]` of every array are its elements that are not NULL, not the elements of these. -/
theorem C181_nested_violated (l : List J) :
    extract (.arr l) [['$', '[', '*', ']', '[', '*', ']']] = .arr (l.filter present) := by
  have e : legs ['$', '[', '*', ']', '[', '*', ']'] = [.name ['*'], .name ['*']] := by
    have := legs_w [.brack ['*'], .brack ['*']] (by
      intro x hx
      simp only [List.mem_cons, List.not_mem_nil, or_false] at hx
      rcases hx with rfl | rfl <;> simp [W.Ok])
    simpa [tail, star_leg] using this
  rw [extract_one _ (by simp), e, getP, if_pos rfl, if_neg (by simp)]
  simp only [getP, if_true]
  congr 1
  rw [List.map_id']
  exact List.filter_congr fun x _ => by cases x <;> rfl

/-- **C181 is violated by MySQL's way to quote names**, `."name"`: the member looked for is the one whose name holds the quotes. -/
theorem C181_quoted_violated (d : List (Str × J)) (n : Str) (hn : '.' ∉ n ∧ '[' ∉ n ∧ ']' ∉ n) :
    extract (.obj d) ['$' :: '.' :: '"' :: (n ++ ['"'])] = (entry ('"' :: (n ++ ['"'])) d).getD .null := by
  have e : legs ('$' :: '.' :: '"' :: (n ++ ['"'])) = [.name ('"' :: (n ++ ['"']))] := by
    have := legs_w [.dot ('"' :: (n ++ ['"']))] (by simp [W.Ok, hn])
    simpa [tail, W.leg] using this
  rw [extract_one _ (by simp), e, getP, if_neg (by simp)]
  simp only [lookup_entry]
  cases entry ('"' :: (n ++ ['"'])) d <;> simp [getP]

/-- **C181 is violated by `["*"]`**, which is the wildcard and not the member named `*`. -/
theorem C181_star_name_violated (d : List (Str × J)) :
    extract (.obj d) [['$', '[', '"', '*', '"', ']']] = .obj d := by
  have e : legs ['$', '[', '"', '*', '"', ']'] = [.name ['*']] := by
    have := legs_w [.brack ['"', '*', '"']] (by simp [W.Ok])
    have b : bracket ['"', '*', '"'] = .name ['*'] := bracket_quoted ['*']
    simpa [tail, W.leg, b] using this
  rw [extract_one _ (by simp), e]
  simp [getP]

/-- **C181 is violated by JSON_SET with a wildcard**, which SQL refuses: a member named `*` is put in. -/
theorem C181_set_violated (d : List (Str × J)) (v : J) :
    jsonSet (.obj d) [(['$', '.', '*'], v)] = .obj (put ['*'] v d) := by
  have e1 : legs ['$', '.', '*'] = [.name ['*']] := by
    have := legs_w [.dot ['*']] (by simp [W.Ok])
    simpa [tail, W.leg] using this
  rw [jsonSet, jsonSet, e1, setP]
  simp

namespace JsonWildCases

/-- `{"a b.c": [{"x": 1}, {"y": 2}, {"x": 3}]}` and `$["a b.c"][*].x`. -/
def doc : J := .obj [(['a', ' ', 'b', '.', 'c'], .arr [.obj [(['x'], .int 1)], .obj [(['y'], .int 2)], .obj [(['x'], .int 3)]])]

example : extract doc ["$[\"a b.c\"][*].x".toList] = .arr [.int 1, .int 3] := by
  have := (C181_elements_partial doc (by simp [doc]) [.bracketed ['a', ' ', 'b', '.', 'c']] [.name ['x']] (by simp [Step.Ok])
    (by simp [Step.Ok]) _ (.member rfl (.here _))).2 [.int 1, .int 3] (by simp)
    (.hit (.member rfl (.here _)) (by simp) (.miss (by
      intro x hx
      cases hx with
      | member h _ => cases h) (by
      intro pre n post s hp
      simp only [List.map_cons, List.map_nil, Step.leg] at hp
      rcases pre with _ | ⟨a, _ | ⟨b, pre⟩⟩ <;> simp at hp) (.hit (.member rfl (.here _)) (by simp) .nil)))
  exact this

example : (Step.bracketed ['a', ' ', 'b', '.', 'c']).Ok ∧ (Step.name ['x']).Ok := by simp [Step.Ok]

end JsonWildCases
end Verif.Props
