import Verif.Spec.SubArgs
/-!
C184: the options of a statement reach its subqueries.
-/
namespace Verif.Props
open Verif.Val (Str)
open Verif.SubArgs Verif.SubArgsSpec

namespace SubArgsLemmas

theorem put_ne {k x : Str} (h : ¬ x = k) (v : Arg) (d : Args) : put k v d x = d x := if_neg h

theorem put_congr {d e : Args} {x : Str} (h : d x = e x) (k : Str) (v : Arg) : put k v d x = put k v e x := by
  unfold put
  rw [h]

theorem finish_congr {d e : Args} {x : Str} (h : d x = e x) (stop : End) : finish stop d x = finish stop e x := by
  cases stop with
  | keep => exact h
  | limit n => exact put_congr h _ _
  | all => exact put_congr (put_congr h _ _) _ _

theorem after_append (p r : Str) : after p (p ++ r) = some r := by
  induction p with
  | nil => rfl
  | cons c p ih => simp only [List.cons_append, after, if_true]; exact ih

theorem after_some {p k r : Str} (h : after p k = some r) : k = p ++ r := by
  induction p generalizing k with
  | nil => cases h; rfl
  | cons c p ih =>
    cases k with
    | nil => cases h
    | cons d k =>
      simp only [after] at h
      split at h
      · rename_i e; rw [e, ih h]; rfl
      · cases h

theorem after_none {p k : Str} (h : ¬ p <+: k) : after p k = none := by
  cases hr : after p k with
  | none => rfl
  | some r => exact absurd ⟨r, (after_some hr).symm⟩ h

/-- A name does not begin with the separator. -/
def Good (n : Str) : Prop := n ≠ [] ∧ n.head? ≠ some '@'

theorem good_at {n : Str} (h : Good n) (r t : Str) : '@' :: t ≠ n ++ r := by
  cases n with
  | nil => exact absurd rfl h.1
  | cons c n => intro e; exact h.2 (by simp only [List.cons_append, List.cons.injEq] at e; rw [← e.1]; rfl)

theorem at_iff {k : Str} : k.head? = some '@' ↔ ∃ t, k = '@' :: t := by
  cases k with
  | nil => simp
  | cons c k => simp

theorem const_at {k : Str} (h : k ∈ constKeys) : ∃ t, k = '@' :: t := by
  simp only [constKeys, List.mem_cons, List.not_mem_nil, or_false] at h
  rcases h with rfl | rfl | rfl | rfl | rfl | rfl | rfl | rfl | rfl <;> exact ⟨_, rfl⟩

theorem run_at {k : Str} (h : k ∈ runKeys) : ∃ t, k = '@' :: t := by
  rcases List.mem_append.1 h with h | h
  · exact const_at h
  · rw [List.mem_singleton.1 h]; exact ⟨_, rfl⟩

theorem putAll_at {n : Str} (hn : Good n) (sub d : Args) (t : Str) : putAll n sub d ('@' :: t) = d ('@' :: t) := by
  unfold putAll
  rw [after_none]
  rintro ⟨r, e⟩
  rw [List.append_assoc] at e
  exact good_at hn _ _ e.symm

theorem putLoops_at {n : Str} (hn : Good n) (ls : List Str) (d : Args) (t : Str) : putLoops n ls d ('@' :: t) = d ('@' :: t) := by
  induction ls generalizing d with
  | nil => rfl
  | cons l ls ih =>
    rw [putLoops, ih]
    unfold put
    rw [if_neg, if_neg]
    · rw [List.append_assoc, List.append_assoc]; exact good_at hn _ _
    · rw [List.append_assoc, List.append_assoc]; exact good_at hn _ _

/-- What one subquery does to the options. -/
def stepSub (d : Args) (q : Query) : Args :=
  let d' := putAll q.name (compile (inherited d) q) d
  match q.place with
  | .member => putLoops q.name q.loops d'
  | .inner => put "@primary_order".toList (.bool false) d'
  | .branch => d'

theorem compileSubs_cons (d : Args) (q : Query) (qs : List Query) : compileSubs d (q :: qs) = compileSubs (stepSub d q) qs := by
  cases q with
  | mk name place subs loops stop => cases place <;> rfl

theorem step_at (d : Args) (q : Query) (hq : Good q.name) (ho : d "@primary_order".toList = some (.bool false)) (t : Str) :
    stepSub d q ('@' :: t) = d ('@' :: t) := by
  unfold stepSub
  cases q.place with
  | member => exact (putLoops_at hq _ _ _).trans (putAll_at hq _ _ _)
  | inner =>
    simp only [put]
    split
    · rename_i e; rw [e, ho]
    · exact putAll_at hq _ _ _
  | branch => exact putAll_at hq _ _ _

theorem good_of {q : Query} (h : Named q) : Good q.name := by
  cases q; exact ⟨h.1, h.2.1⟩

theorem subs_at (qs : List Query) (hq : NamedAll qs) : ∀ d : Args, d "@primary_order".toList = some (.bool false) →
    ∀ t, compileSubs d qs ('@' :: t) = d ('@' :: t) := by
  induction qs with
  | nil => intro d _ t; rfl
  | cons q qs ih =>
    intro d ho t
    have hs := step_at d q (good_of hq.1) ho
    rw [compileSubs_cons, ih hq.2.2 _ (by rw [← ho]; exact hs _), hs]

theorem inherited_congr {d e : Args} (h : ∀ t, d ('@' :: t) = e ('@' :: t)) : inherited d = inherited e := by
  funext k
  unfold inherited
  split
  · rename_i hk
    obtain ⟨t, rfl⟩ := const_at hk
    exact h t
  · rfl

theorem inherited_twice (d : Args) : inherited (inherited d) = inherited d := by
  funext k
  unfold inherited
  split
  · rfl
  · rfl

theorem inherited_none (d : Args) (k : Str) (h : k.head? ≠ some '@') : inherited d k = none := by
  unfold inherited
  rw [if_neg]
  intro hk
  obtain ⟨t, rfl⟩ := const_at hk
  exact h rfl

/-- The options of the recursive parts, as they look from the member of WITH. -/
def loopOn : List Str → Args → Args
  | [], d => d
  | l :: ls, d => loopOn ls (put (l ++ "@@loop".toList) (.bool true) (put (l ++ "@@batch".toList) (.int 1) d))

theorem under_put (n x : Str) (v : Arg) (d : Args) : under n (put (n ++ ['@'] ++ x) v d) = put x v (under n d) := by
  funext k
  simp only [under, put]
  by_cases h : k = x
  · simp [h]
  · rw [if_neg, if_neg h]
    intro e
    exact h (List.append_cancel_left e)

theorem under_putLoops (n : Str) (ls : List Str) (d : Args) : under n (putLoops n ls d) = loopOn ls (under n d) := by
  induction ls generalizing d with
  | nil => rfl
  | cons l ls ih =>
    rw [putLoops, ih, loopOn]
    have e1 : n ++ ['@'] ++ l ++ "@@loop".toList = n ++ ['@'] ++ (l ++ "@@loop".toList) := by rw [List.append_assoc (n ++ ['@'])]
    have e2 : n ++ ['@'] ++ l ++ "@@batch".toList = n ++ ['@'] ++ (l ++ "@@batch".toList) := by rw [List.append_assoc (n ++ ['@'])]
    rw [e1, e2, under_put, under_put]

theorem under_putAll (n : Str) (sub d : Args) (h : ∀ k, d (n ++ ['@'] ++ k) = none) : under n (putAll n sub d) = sub := by
  funext k
  simp only [under, putAll, after_append, h]
  cases sub k <;> rfl

/-- A key under one name is not under another that is told apart. -/
theorem apart_not {a b : Str} (h : Apart a b) (k : Str) : ¬ (a ++ ['@']) <+: (b ++ ['@'] ++ k) := by
  intro hp
  rcases List.prefix_or_prefix_of_prefix hp (List.prefix_append (b ++ ['@']) k) with h' | h'
  · exact h.1 h'
  · exact h.2 h'

theorem putAll_apart {a b : Str} (h : Apart a b) (sub d : Args) (k : Str) : putAll a sub d (b ++ ['@'] ++ k) = d (b ++ ['@'] ++ k) := by
  unfold putAll
  rw [after_none (apart_not h k)]

theorem putLoops_apart {a b : Str} (h : Apart a b) (ls : List Str) (d : Args) (k : Str) :
    putLoops a ls d (b ++ ['@'] ++ k) = d (b ++ ['@'] ++ k) := by
  induction ls generalizing d with
  | nil => rfl
  | cons l ls ih =>
    rw [putLoops, ih]
    have key : ∀ x, b ++ ['@'] ++ k ≠ a ++ ['@'] ++ l ++ x := fun x e =>
      apart_not h k ⟨l ++ x, by rw [e, List.append_assoc (a ++ ['@'])]⟩
    unfold put
    rw [if_neg (key _), if_neg (key _)]

theorem step_apart (d : Args) (q : Query) (b : Str) (hb : Good b) (h : Apart q.name b) (k : Str) :
    stepSub d q (b ++ ['@'] ++ k) = d (b ++ ['@'] ++ k) := by
  unfold stepSub
  cases q.place with
  | member => exact (putLoops_apart h _ _ _).trans (putAll_apart h _ _ _)
  | inner =>
    simp only [put]
    rw [if_neg]
    · exact putAll_apart h _ _ _
    · rw [List.append_assoc]; exact (good_at hb _ _).symm
  | branch => exact putAll_apart h _ _ _

theorem subs_apart (qs : List Query) (b : Str) (hb : Good b) (h : ∀ q ∈ qs, Apart q.name b) : ∀ (d : Args) (k : Str),
    compileSubs d qs (b ++ ['@'] ++ k) = d (b ++ ['@'] ++ k) := by
  induction qs with
  | nil => intro d k; rfl
  | cons q qs ih =>
    intro d k
    rw [compileSubs_cons, ih (fun r hr => h r (List.mem_cons_of_mem _ hr)), step_apart d q b hb (h q List.mem_cons_self)]

theorem apart_symm {a b : Str} (h : Apart a b) : Apart b a := ⟨h.2, h.1⟩

/-- What a subquery gets back, but for what the query around says of recursive parts. -/
theorem under_step (d : Args) (q : Query) (hq : Named q) (h : ∀ k, d (q.name ++ ['@'] ++ k) = none) :
    under q.name (stepSub d q) = loopOn q.loops (compile (inherited d) q) := by
  have hl : q.place ≠ .member → q.loops = [] := by cases q; exact hq.2.2.1
  unfold stepSub
  cases hp : q.place with
  | member => simp only []; rw [under_putLoops, under_putAll _ _ _ h]
  | inner =>
    rw [hl (by rw [hp]; exact fun e => by cases e)]
    simp only []
    rw [loopOn]
    refine Eq.trans ?_ (under_putAll q.name (compile (inherited d) q) d h)
    funext k
    simp only [under, put]
    rw [if_neg]
    rw [List.append_assoc]; exact (good_at (good_of hq) _ _).symm
  | branch =>
    rw [hl (by rw [hp]; exact fun e => by cases e)]
    simp only []
    rw [loopOn, under_putAll _ _ _ h]

theorem under_subs (qs : List Query) (hq : NamedAll qs) : ∀ d : Args, d "@primary_order".toList = some (.bool false) →
    (∀ q ∈ qs, ∀ k, d (q.name ++ ['@'] ++ k) = none) →
    ∀ q ∈ qs, under q.name (compileSubs d qs) = loopOn q.loops (compile (inherited d) q) := by
  induction qs with
  | nil => intro d _ _ q h; cases h
  | cons r qs ih =>
    intro d ho hn q hm
    have hs := step_at d r (good_of hq.1) ho
    rw [compileSubs_cons]
    rcases List.mem_cons.1 hm with rfl | hm
    · rw [← under_step d q hq.1 (hn q List.mem_cons_self)]
      funext k
      exact subs_apart qs q.name (good_of hq.1) (fun r hr => apart_symm (hq.2.1 r hr)) _ k
    · have hgood : ∀ q ∈ qs, Good q.name := by
        have : ∀ l : List Query, NamedAll l → ∀ q ∈ l, Good q.name := by
          intro l
          induction l with
          | nil => intro _ q h; cases h
          | cons a l ih => intro h q hq; exact (List.mem_cons.1 hq).elim (fun e => e ▸ good_of h.1) (ih h.2.2 q)
        exact this qs hq.2.2
      rw [ih hq.2.2 _ (by rw [← ho]; exact hs _) ?_ q hm, inherited_congr hs]
      intro p hp k
      rw [step_apart d r p.name (hgood p hp) (hq.2.1 p hp)]
      exact hn p (List.mem_cons_of_mem _ hp) k

theorem finish_under (e : End) (d : Args) (n : Str) (hn : Good n) : under n (finish e d) = under n d := by
  have key : ∀ (t : Str) v d, under n (put ('@' :: t) v d) = under n d := by
    intro t v d
    funext k
    simp only [under, put]
    rw [if_neg]
    rw [List.append_assoc]; exact (good_at hn _ _).symm
  cases e with
  | keep => rfl
  | limit m => exact key _ _ _
  | all => exact (key _ _ _).trans (key _ _ _)

/-- What is said of a recursive part. -/
def extra (b : Bool) (d : Args) : Args :=
  if b then put "@loop".toList (.bool true) (put "@batch".toList (.int 1) d) else d

/-- The options a subquery of `q` is started with. -/
def child (o : Args) (loops : List Str) (s : Query) : Args := extra (decide (s.name ∈ loops)) (loopOn s.loops (compile (inherited o) s))

/-- Options that concern the task itself. -/
def vis (d : Args) : Str → Option Arg := fun k => if k ∈ runKeys then d k else none

theorem under_extra (b : Bool) (d : Args) (n : Str) (hn : Good n) : under n (extra b d) = under n d := by
  have key : ∀ (t : Str) v d, under n (put ('@' :: t) v d) = under n d := by
    intro t v d
    funext k
    simp only [under, put]
    rw [if_neg]
    rw [List.append_assoc]; exact (good_at hn _ _).symm
  cases b with
  | false => rfl
  | true => exact (key _ _ _).trans (key _ _ _)

theorem extra_twice (b : Bool) (d : Args) : extra b (extra true d) = extra true d := by
  cases b with
  | false => rfl
  | true =>
    funext k
    simp only [extra, if_true, put]
    split
    · rfl
    · split <;> rfl

theorem under_loopOn (ls : List Str) (n : Str) (h : ∀ l ∈ ls, l = n ∨ Apart l n) : ∀ d : Args,
    under n (loopOn ls d) = extra (decide (n ∈ ls)) (under n d) := by
  induction ls with
  | nil => intro d; simp [loopOn, extra]
  | cons l ls ih =>
    intro d
    rw [loopOn, ih fun x hx => h x (List.mem_cons_of_mem _ hx)]
    rcases h l List.mem_cons_self with rfl | ha
    · have e1 : l ++ "@@loop".toList = l ++ ['@'] ++ "@loop".toList := by rw [List.append_assoc]; rfl
      have e2 : l ++ "@@batch".toList = l ++ ['@'] ++ "@batch".toList := by rw [List.append_assoc]; rfl
      rw [e1, e2, under_put, under_put]
      rw [show put "@loop".toList (.bool true) (put "@batch".toList (.int 1) (under l d)) = extra true (under l d) from rfl, extra_twice]
      simp
    · have hne : n ≠ l := fun e => ha.1 (e ▸ List.prefix_refl _)
      have key : ∀ (t : Str) v d, under n (put (l ++ ('@' :: t)) v d) = under n d := by
        intro t v d
        funext k
        simp only [under, put]
        rw [if_neg]
        intro e
        exact apart_not ha k ⟨t, by rw [e, List.append_assoc]; rfl⟩
      rw [show (put (l ++ "@@loop".toList) (.bool true) (put (l ++ "@@batch".toList) (.int 1) d)) =
        put (l ++ ('@' :: "@loop".toList)) (.bool true) (put (l ++ ('@' :: "@batch".toList)) (.int 1) d) from rfl, key, key]
      simp [hne]

theorem loopOn_at (ls : List Str) (h : ∀ l ∈ ls, Good l) : ∀ (d : Args) (t : Str), loopOn ls d ('@' :: t) = d ('@' :: t) := by
  induction ls with
  | nil => intro d t; rfl
  | cons l ls ih =>
    intro d t
    have hl := h l List.mem_cons_self
    rw [loopOn, ih fun x hx => h x (List.mem_cons_of_mem _ hx)]
    unfold put
    rw [if_neg (good_at hl _ _), if_neg (good_at hl _ _)]

theorem namedAll_mem : ∀ (l : List Query), NamedAll l → ∀ q ∈ l, Named q := by
  intro l
  induction l with
  | nil => intro _ q h; cases h
  | cons a l ih => intro h q hq; exact (List.mem_cons.1 hq).elim (fun e => e ▸ h.1) (ih h.2.2 q)

theorem namedAll_apart : ∀ (l : List Query), NamedAll l → ∀ q ∈ l, ∀ r ∈ l, q.name = r.name ∨ Apart q.name r.name := by
  intro l
  induction l with
  | nil => intro _ q h; cases h
  | cons a l ih =>
    intro h q hq r hr
    rcases List.mem_cons.1 hq with e | hq'
    · rcases List.mem_cons.1 hr with e' | hr'
      · exact .inl (by rw [e, e'])
      · exact .inr (e ▸ h.2.1 r hr')
    · rcases List.mem_cons.1 hr with e' | hr'
      · exact .inr (e' ▸ apart_symm (h.2.1 q hq'))
      · exact ih h.2.2 q hq' r hr'

/-- The options a task gets for itself. -/
theorem vis_base (o d : Args) (ho : o "@primary_order".toList = some (.bool false)) (hl : o "@loop".toList = none)
    (hd : ∀ k ∈ runKeys, d k = o k) (b : Bool) (s : Query) (hs : Named s) :
    vis (extra b (loopOn s.loops (compile d s))) = own o s.stop b := by
  obtain ⟨name, place, subs, loops, stop⟩ := s
  have hgood : ∀ l ∈ loops, Good l := fun l h => by
    obtain ⟨q, hq, e⟩ := hs.2.2.2.1 l h
    exact e ▸ good_of (namedAll_mem subs hs.2.2.2.2 q hq)
  have hio : d "@primary_order".toList = some (.bool false) := by
    rw [hd _ (by decide)]; exact ho
  funext k
  unfold vis own
  rcases Decidable.em (k ∈ runKeys) with hk | hk
  case inr => rw [if_neg hk, if_pos hk]
  rw [if_pos hk, if_neg (fun h => h hk)]
  have hat := run_at hk
  have hbase : loopOn loops (compile (d) (.mk name place subs loops stop)) k =
      finish stop (d) k := by
    obtain ⟨t, rfl⟩ := hat
    rw [loopOn_at loops hgood, compile]
    exact finish_congr (subs_at subs hs.2.2.2.2 d hio t) stop
  have hinh : d k = o k := hd k hk
  have hloop : d "@loop".toList = none := by rw [hd _ (by decide)]; exact hl
  show extra b (loopOn loops (compile (d) (.mk name place subs loops stop))) k = _
  have hex : extra b (loopOn loops (compile (d) (.mk name place subs loops stop))) k =
      if b = true ∧ k = "@loop".toList then some (.bool true) else if b = true ∧ k = "@batch".toList then some (.int 1)
        else finish stop (d) k := by
    cases b with
    | false => simp only [extra, Bool.false_eq_true, if_false, false_and]; exact hbase
    | true => simp only [extra, if_true, put, true_and]; rw [hbase]
  rw [hex]
  by_cases h1 : k = "@limit".toList
  · subst h1
    rw [if_neg (by simp), if_neg (by simp), if_pos rfl]
    cases stop with
    | keep => exact hinh
    | limit n => rfl
    | all => rfl
  rw [if_neg h1]
  have hfin : finish stop (d) k = d k := by
    cases stop with
    | keep => rfl
    | limit n => simp only [finish, put, if_neg h1]
    | all =>
      simp only [finish, put, if_neg h1]
      split
      · rename_i e; rw [e, hio]
      · rfl
  rw [hfin]
  by_cases h2 : k = "@loop".toList
  · subst h2
    rw [hloop]
    cases b <;> simp
  rw [if_neg (fun h => h2 h.2), if_neg (show ¬ k = "@loop".toList from h2), hinh]

theorem inherited_run (o : Args) (hl : o "@loop".toList = none) : ∀ k ∈ runKeys, inherited o k = o k := by
  intro k hk
  rcases List.mem_append.1 hk with h | h
  · unfold inherited; rw [if_pos h]
  · rw [List.mem_singleton.1 h, hl]; unfold inherited; rw [if_neg (by decide)]

theorem vis_child (o : Args) (ho : o "@primary_order".toList = some (.bool false)) (hl : o "@loop".toList = none) (loops : List Str) (s : Query)
    (hs : Named s) : vis (child o loops s) = own o s.stop (decide (s.name ∈ loops)) :=
  vis_base o (inherited o) ho hl (inherited_run o hl) _ s hs

/-- What is under the name of a subquery of a subquery. -/
theorem under_child (o : Args) (ho : o "@primary_order".toList = some (.bool false)) (loops : List Str) (s : Query) (hs : Named s) :
    ∀ g ∈ s.subs, under g.name (child o loops s) = child o s.loops g := by
  obtain ⟨name, place, subs, ls, stop⟩ := s
  intro g hg
  have hg : g ∈ subs := hg
  have hall : NamedAll subs := hs.2.2.2.2
  have hio : inherited o "@primary_order".toList = some (.bool false) := by
    unfold inherited; rw [if_pos (by decide)]; exact ho
  have hgg := good_of (namedAll_mem subs hall g hg)
  unfold child
  rw [under_extra _ _ _ hgg]
  show under g.name (loopOn ls (compile (inherited o) (.mk name place subs ls stop))) = _
  have h1 : ∀ q ∈ subs, ∀ k, inherited o (q.name ++ ['@'] ++ k) = none := by
    intro q hq k
    exact inherited_none o _ (by
      have := good_of (namedAll_mem subs hall q hq)
      cases hn : q.name with
      | nil => exact absurd hn this.1
      | cons c n => have h2 := this.2; rw [hn] at h2; simpa using h2)
  have h2 : ∀ l ∈ ls, l = g.name ∨ Apart l g.name := by
    intro l hl
    obtain ⟨q, hq, e⟩ := hs.2.2.2.1 l hl
    exact e ▸ namedAll_apart subs hall q hq g hg
  rw [under_loopOn ls g.name h2, compile, finish_under _ _ _ hgg, under_subs subs hall (inherited o) hio h1 g hg, inherited_twice]
  rfl

mutual
theorem tasks_expected (o : Args) (ho : o "@primary_order".toList = some (.bool false)) (hl : o "@loop".toList = none) (A : Args) (loop : Bool)
    (q : Query) (hq : Named q) (hv : vis A = own o q.stop loop) (hu : ∀ s ∈ q.subs, under s.name A = child o q.loops s) :
    (tasks A q).map (fun p => (p.1, vis p.2)) = expected o loop q := by
  match q with
  | .mk name place subs loops stop =>
    rw [tasks, expected, List.map_cons, tasksOf_expected o ho hl A loops subs hq.2.2.2.2 hu, hv]
    rfl
theorem tasksOf_expected (o : Args) (ho : o "@primary_order".toList = some (.bool false)) (hl : o "@loop".toList = none) (A : Args)
    (loops : List Str) (qs : List Query) (hq : NamedAll qs) (hu : ∀ s ∈ qs, under s.name A = child o loops s) :
    (tasksOf A qs).map (fun p => (p.1, vis p.2)) = expectedOf o loops qs := by
  match qs with
  | [] => rfl
  | .mk name place subs ls stop :: rest =>
    have h0 := hu _ List.mem_cons_self
    have h0 : under name A = child o loops (.mk name place subs ls stop) := h0
    rw [tasksOf, expectedOf, List.map_append, h0,
      tasks_expected o ho hl _ (decide (name ∈ loops)) (.mk name place subs ls stop) hq.1
        (vis_child o ho hl loops _ hq.1) (under_child o ho loops _ hq.1),
      tasksOf_expected o ho hl A loops rest hq.2.2 fun s hs => hu s (List.mem_cons_of_mem _ hs)]
end

theorem child_other (o : Args) (ho : o "@primary_order".toList = some (.bool false)) (loops : List Str) (s : Query) (hs : Named s)
    (t : Str) (ht : '@' :: t ∉ runKeys) : child o loops s ('@' :: t) = none := by
  obtain ⟨name, place, subs, ls, stop⟩ := s
  have hgood : ∀ l ∈ ls, Good l := fun l h => by
    obtain ⟨q, hq, e⟩ := hs.2.2.2.1 l h
    exact e ▸ good_of (namedAll_mem subs hs.2.2.2.2 q hq)
  have hio : inherited o "@primary_order".toList = some (.bool false) := by
    unfold inherited; rw [if_pos (by decide)]; exact ho
  have hne : ∀ k ∈ runKeys, ¬ '@' :: t = k := fun k hk e => ht (e ▸ hk)
  have hi : inherited o ('@' :: t) = none := by
    unfold inherited
    rw [if_neg fun h => ht (List.mem_append_left _ h)]
  have hc : compile (inherited o) (.mk name place subs ls stop) ('@' :: t) = none := by
    have := (subs_at subs hs.2.2.2.2 (inherited o) hio t).trans hi
    rw [compile]
    cases stop with
    | keep => exact this
    | limit n => exact (put_ne (hne _ (by decide)) _ _).trans this
    | all => exact (put_ne (hne _ (by decide)) _ _).trans ((put_ne (hne _ (by decide)) _ _).trans this)
  have h2 : loopOn ls (compile (inherited o) (.mk name place subs ls stop)) ('@' :: t) = none := (loopOn_at ls hgood _ t).trans hc
  show extra _ (loopOn ls (compile (inherited o) (.mk name place subs ls stop))) ('@' :: t) = none
  generalize decide (Query.name (.mk name place subs ls stop) ∈ loops) = b
  cases b with
  | false => exact h2
  | true => exact (put_ne (hne _ (by decide)) _ _).trans ((put_ne (hne _ (by decide)) _ _).trans h2)

mutual
theorem tasks_other (o : Args) (ho : o "@primary_order".toList = some (.bool false)) (t : Str) (ht : '@' :: t ∉ runKeys) (A : Args)
    (q : Query) (hq : Named q) (hv : A ('@' :: t) = none) (hu : ∀ s ∈ q.subs, under s.name A = child o q.loops s) :
    ∀ p ∈ tasks A q, p.2 ('@' :: t) = none := by
  match q with
  | .mk name place subs loops stop =>
    intro p hp
    rw [tasks] at hp
    rcases List.mem_cons.1 hp with rfl | hp
    · exact hv
    · exact tasksOf_other o ho t ht A loops subs hq.2.2.2.2 hu p hp
theorem tasksOf_other (o : Args) (ho : o "@primary_order".toList = some (.bool false)) (t : Str) (ht : '@' :: t ∉ runKeys) (A : Args)
    (loops : List Str) (qs : List Query) (hq : NamedAll qs) (hu : ∀ s ∈ qs, under s.name A = child o loops s) :
    ∀ p ∈ tasksOf A qs, p.2 ('@' :: t) = none := by
  match qs with
  | [] => intro p hp; cases hp
  | .mk name place subs ls stop :: rest =>
    intro p hp
    have h0 : under name A = child o loops (.mk name place subs ls stop) := hu _ List.mem_cons_self
    rw [tasksOf, h0] at hp
    rcases List.mem_append.1 hp with hp | hp
    · exact tasks_other o ho t ht _ (.mk name place subs ls stop) hq.1 (child_other o ho loops _ hq.1 t ht)
        (under_child o ho loops _ hq.1) p hp
    · exact tasksOf_other o ho t ht A loops rest hq.2.2 (fun s hs => hu s (List.mem_cons_of_mem _ hs)) p hp
end

theorem top_under (o : Args) (ho : Statement o) (q : Query) (hq : Named q) (htop : q.loops = []) :
    ∀ s ∈ q.subs, under s.name (compile o q) = child o q.loops s := by
  obtain ⟨name, place, subs, loops, stop⟩ := q
  have htop : loops = [] := htop
  subst htop
  have hall : NamedAll subs := hq.2.2.2.2
  have hno : ∀ n : Str, Good n → ∀ k, o (n ++ ['@'] ++ k) = none := by
    intro n hn k
    cases hk : o (n ++ ['@'] ++ k) with
    | none => rfl
    | some v =>
      have := ho.names _ (by rw [hk]; exact fun e => by cases e)
      cases n with
      | nil => exact absurd rfl hn.1
      | cons c n => exact absurd (by simpa using this) hn.2
  intro s hs
  have hs : s ∈ subs := hs
  have hg := good_of (namedAll_mem subs hall s hs)
  rw [compile, finish_under _ _ _ hg, under_subs subs hall o ho.order (fun r hr k => hno r.name (good_of (namedAll_mem subs hall r hr)) k) s hs]
  rfl

end SubArgsLemmas
open SubArgsLemmas

/-- **C184**: every task of a statement, at any depth, runs with the options of the statement, but its own `@limit` if it has one (and one
row at a time for the recursive part of a WITH); nothing that another subquery, or the query around, sets reaches it. -/
theorem C184_options (o : Args) (ho : Statement o) (q : Query) (hq : Named q) (htop : q.loops = []) :
    (tasks (compile o q) q).map (fun p => (p.1, fun k => if k ∈ runKeys then p.2 k else none)) = expected o false q := by
  refine tasks_expected o ho.order ho.noLoop _ false q hq ?_ (top_under o ho q hq htop)
  have := vis_base o o ho.order ho.noLoop (fun _ _ => rfl) false q hq
  rwa [htop] at this

/-- **C184**: the options that are not for subqueries (`@use_input`, `@use_output`, `@use_output_type` and whatever else) reach none, at
any depth. -/
theorem C184_others (o : Args) (ho : Statement o) (q : Query) (hq : Named q) (htop : q.loops = []) (t : Str) (ht : '@' :: t ∉ runKeys) :
    ∀ p ∈ tasksOf (compile o q) q.subs, p.2 ('@' :: t) = none := by
  have hall : NamedAll q.subs := by cases q; exact hq.2.2.2.2
  exact tasksOf_other o ho.order t ht _ q.loops q.subs hall (top_under o ho q hq htop)

/-! ### Examples -/

namespace SubArgsCases

/-- `SET @batch = 100; WITH RECURSIVE t AS (… UNION ALL … t …) SELECT … FROM (SELECT … LIMIT 3) s … LIMIT 5`. -/
def statement : Args := fun k =>
  if k = "@batch".toList then some (.int 100) else if k = "@limit".toList then some (.int 0)
  else if k = "@primary_order".toList then some (.bool false) else if k = "@use_output".toList then some (.text "U".toList) else none

theorem statement_ok : Statement statement where
  names k hk := by
    unfold statement at hk
    split at hk
    · rename_i e; rw [e]; rfl
    split at hk
    · rename_i e; rw [e]; rfl
    split at hk
    · rename_i e; rw [e]; rfl
    split at hk
    · rename_i e; rw [e]; rfl
    · exact absurd rfl hk
  order := by decide
  noLoop := by decide

def query : Query :=
  .mk "q".toList .inner
    [.mk "q#t#select".toList .member
      [.mk "q#unionquery_1".toList .branch [] [] .keep, .mk "q#unionquery_2".toList .branch [] [] .keep] ["q#unionquery_2".toList] .all,
     .mk "q#subquery_3_s".toList .inner [] [] (.limit 3)] [] (.limit 5)

theorem query_ok : Named query :=
  ⟨by decide, by decide, by decide, fun l h => (List.not_mem_nil h).elim,
    ⟨by decide, by decide, fun h => absurd rfl h,
      fun l h => ⟨_, List.mem_cons_of_mem _ List.mem_cons_self, (List.mem_singleton.1 h).symm⟩,
      ⟨by decide, by decide, fun _ => rfl, fun l h => (List.not_mem_nil h).elim, trivial⟩,
      fun r hr => by rw [List.mem_singleton.1 hr]; exact ⟨by decide, by decide⟩,
      ⟨by decide, by decide, fun _ => rfl, fun l h => (List.not_mem_nil h).elim, trivial⟩,
      fun r hr => (List.not_mem_nil hr).elim, trivial⟩,
    fun r hr => by rw [List.mem_singleton.1 hr]; exact ⟨by decide, by decide⟩,
    ⟨by decide, by decide, fun _ => rfl, fun l h => (List.not_mem_nil h).elim, trivial⟩,
    fun r hr => (List.not_mem_nil hr).elim, trivial⟩

/-- The subquery reads three rows, the query five, the recursive part is read row by row, the other tasks have the statement's options. -/
example : (tasks (compile statement query) query).map (fun p => (p.1, p.2 "@limit".toList, p.2 "@batch".toList)) =
    [("q".toList, some (.int 5), some (.int 100)), ("q#t#select".toList, some (.int 0), some (.int 100)),
     ("q#unionquery_1".toList, some (.int 0), some (.int 100)), ("q#unionquery_2".toList, some (.int 0), some (.int 1)),
     ("q#subquery_3_s".toList, some (.int 3), some (.int 100))] := by decide +kernel

end SubArgsCases

end Verif.Props
