import Verif.Spec.ItemKind
namespace Verif.Props.ItemLemmas
open Verif.ItemKind Verif.ItemSpec

theorem isWindow_iff (x : Node) : isWindow x = true ↔ IsWindow x := by simp [isWindow, IsWindow]

theorem isAggregate_iff (reg : Reg) (x : Node) : isAggregate reg x = true ↔ IsAggregate reg x := by
  obtain ⟨c, as⟩ := x
  cases c <;> simp [isAggregate, IsAggregate, Node.cls]

/-- A test for calls. -/
def CallTest (reg : Reg) (test : Node → Bool) : Prop := test = isWindow ∨ test = isAggregate reg

theorem CallTest.call {reg : Reg} {test : Node → Bool} (h : CallTest reg test) {x : Node} (hx : test x = true) : IsCall reg x := by
  rcases h with rfl | rfl
  · exact Or.inl ((isWindow_iff x).1 hx)
  · exact Or.inr ((isAggregate_iff reg x).1 hx)

theorem filter_none {α : Type} (p : α → Bool) (l : List α) (h : ∀ x ∈ l, ¬ p x = true) : l.filter p = [] :=
  List.filter_eq_nil_iff.2 h

theorem self_mem (e : Node) : e ∈ parts e := by
  obtain ⟨c, as⟩ := e
  simp [parts]

theorem parts_cons (e : Node) : parts e = e :: inner e := by
  obtain ⟨c, as⟩ := e
  simp [inner, parts]

mutual
theorem calls_eq (reg : Reg) (test : Node → Bool) (ht : CallTest reg test) (e : Node) (h : Written reg e) :
    calls test e = (parts e).filter test := by
  match e with
  | .mk c as =>
    have hw := h (.mk c as) (self_mem _)
    have hin : ∀ y ∈ partsAll as, c ≠ .query → c ≠ .window → y ∈ parts (.mk c as) := by
      intro y hy h1 h2
      simp [parts, h1, h2, hy]
    have key : ∀ d : Bool, (if d then [Node.mk c as] else []) ++ ([] : List Node).filter test = if d then [Node.mk c as] else [] := by
      intro d; simp
    rw [calls, parts, List.filter_cons]
    by_cases hq : c = .query
    · subst hq
      simp [isCalculate, isQuery, Node.cls]
    · by_cases hwin : c = .window
      · subst hwin
        have := hw.1 (by simp [Node.cls])
        have hnil : (inner (.mk .window as)).filter test = [] :=
          filter_none _ _ (fun y hy hy' => this y hy (ht.call hy'))
        simp only [inner, parts, List.tail_cons] at hnil
        simp only [hnil]
        simp [isCalculate, Node.cls]
      · simp only [if_neg hq, if_neg hwin]
        by_cases hs : c ∈ [Cls.column, .dot, .literal, .param, .star, .interval, .bracket, .other, .window]
        · have := hw.1 hs
          have hnil : (inner (.mk c as)).filter test = [] :=
            filter_none _ _ (fun y hy hy' => this y hy (ht.call hy'))
          simp only [inner, parts, List.tail_cons, if_neg hq, if_neg hwin] at hnil
          have hall : callsAll test as = [] := by
            rw [callsAll_eq reg test ht as (fun x hx => h x (hin x hx hq hwin)), hnil]
          rw [hnil, hall]
          simp [isQuery, Node.cls, hq]
        · have hall := callsAll_eq reg test ht as (fun x hx => h x (hin x hx hq hwin))
          rw [← hall]
          have hc : (!isCalculate (.mk c as) && c ≠ .paren) = false := by
            cases c <;> simp_all [isCalculate, Node.cls]
          simp only [hc, isQuery, Node.cls, hq]
          simp only [Bool.false_eq_true, if_false, decide_false]
          split <;> rfl
theorem callsAll_eq (reg : Reg) (test : Node → Bool) (ht : CallTest reg test) (es : List Node)
    (h : ∀ x ∈ partsAll es,
      (x.cls ∈ [Cls.column, .dot, .literal, .param, .star, .interval, .bracket, .other, .window] → ∀ y ∈ inner x, ¬ IsCall reg y) ∧
      (x.cls = .cast ∨ x.cls = .neg → ∀ y ∈ partsAll x.args.tail, ¬ IsCall reg y) ∧
      (IsAggregate reg x → ∀ y ∈ inner x, ¬ IsCall reg y)) :
    callsAll test es = (partsAll es).filter test := by
  match es with
  | [] => simp [callsAll, partsAll]
  | a :: as =>
    rw [callsAll, partsAll, List.filter_append,
      calls_eq reg test ht a (fun x hx => h x (by simp [partsAll, hx])),
      callsAll_eq reg test ht as (fun x hx => h x (by simp [partsAll, hx]))]
end

theorem partsAll_mem {as : List Node} {y : Node} : y ∈ partsAll as ↔ ∃ a ∈ as, y ∈ parts a := by
  induction as with
  | nil => simp [partsAll]
  | cons a as ih => simp [partsAll, ih]

theorem written_arg {reg : Reg} {c : Cls} {as : List Node} (h : Written reg (.mk c as)) (hq : c ≠ .query) (hw : c ≠ .window)
    {a : Node} (ha : a ∈ as) : Written reg a := by
  intro x hx
  refine h x ?_
  simp only [parts, if_neg hq, if_neg hw, List.mem_cons]
  exact Or.inr (partsAll_mem.2 ⟨a, ha, hx⟩)

/-- A plain column has no calls. -/
theorem plain_none (reg : Reg) (e : Node) (hp : isPlainColumn e = true) (h : Written reg e) : ∀ y ∈ parts e, ¬ IsCall reg y := by
  obtain ⟨c, as⟩ := e
  have hc : c = .column ∨ c = .dot := by
    cases c <;> simp_all [isPlainColumn]
  intro y hy
  rw [parts_cons] at hy
  rcases List.mem_cons.1 hy with rfl | hy
  · rcases hc with rfl | rfl <;> simp [IsCall, IsWindow, IsAggregate, Node.cls]
  · refine (h _ (self_mem _)).1 ?_ y hy
    rcases hc with rfl | rfl <;> simp [Node.cls]

theorem column_none (reg : Reg) (hr : Conversions reg) (e : Node) (hp : isColumn reg e = true) (h : Written reg e) :
    ∀ y ∈ parts e, ¬ IsCall reg y := by
  unfold isColumn at hp
  split at hp
  · rename_i a rest
    have ha := plain_none reg a hp (written_arg h (by decide) (by decide) (by simp))
    intro y hy
    simp only [parts, partsAll] at hy
    simp only [reduceCtorEq, if_false, List.mem_cons, List.mem_append] at hy
    rcases hy with rfl | hy | hy
    · simp [IsCall, IsWindow, IsAggregate, Node.cls]
    · exact ha y hy
    · exact (h _ (self_mem _)).2.1 (Or.inl rfl) y hy
  · rename_i n a
    simp only [Bool.and_eq_true, decide_eq_true_eq] at hp
    have ha := plain_none reg a hp.2 (written_arg h (by simp) (by simp) (by simp))
    intro y hy
    simp only [parts, partsAll] at hy
    simp only [reduceCtorEq, if_false, List.mem_cons, List.mem_append, List.not_mem_nil, or_false] at hy
    rcases hy with rfl | hy
    · have h1 := hr (lower n) hp.1.1 hp.1.2
      simp only [IsCall, IsWindow, IsAggregate, Node.cls, reduceCtorEq, false_or, Cls.anon.injEq, exists_eq_left', h1, or_false,
        Bool.false_eq_true]
      intro hg
      have h2 := hp.1.1
      revert h2
      have : ∀ m ∈ groupFuncs, ¬ m.take 8 = convertPrefix := by decide
      exact this _ hg
    · exact ha y hy
  · exact plain_none reg e hp h

theorem const_none (reg : Reg) (e : Node) (hp : isConst e = true) (h : Written reg e) : ∀ y ∈ parts e, ¬ IsCall reg y := by
  match e with
  | .mk .neg (a :: rest) =>
    simp only [isConst] at hp
    split at hp
    · cases hp
    · have ha := const_none reg a hp (written_arg h (by decide) (by decide) (by simp))
      intro y hy
      simp only [parts, partsAll] at hy
      simp only [reduceCtorEq, if_false, List.mem_cons, List.mem_append] at hy
      rcases hy with rfl | hy | hy
      · simp [IsCall, IsWindow, IsAggregate, Node.cls]
      · exact ha y hy
      · exact (h _ (self_mem _)).2.1 (Or.inr rfl) y hy
  | .mk .literal as | .mk .param as =>
    intro y hy
    rw [parts_cons] at hy
    rcases List.mem_cons.1 hy with rfl | hy
    · simp [IsCall, IsWindow, IsAggregate, Node.cls]
    · exact (h _ (self_mem _)).1 (by simp [Node.cls]) y hy

end Verif.Props.ItemLemmas

namespace Verif.Props
open Verif.ItemKind Verif.ItemSpec Verif.Props.ItemLemmas

/-- What `kind` gives for a calculation. -/
theorem calculation_kind (reg : Reg) (e : Node) (hw : Written reg e) :
    (∀ l, calculation reg e = .window l ↔ (∃ x ∈ parts e, IsWindow x) ∧ l = (parts e).filter (fun x => decide (IsWindow x))) ∧
    (∀ l, calculation reg e = .aggregate l ↔ (¬ ∃ x ∈ parts e, IsWindow x) ∧ (∃ x ∈ parts e, IsAggregate reg x) ∧
      l = (parts e).filter (fun x => decide (IsAggregate reg x))) := by
  have hcalcW := calls_eq reg isWindow (Or.inl rfl) e hw
  have hcalcA := calls_eq reg (isAggregate reg) (Or.inr rfl) e hw
  have e1 : calls isWindow e ≠ [] ↔ ∃ x ∈ parts e, IsWindow x := by
    rw [hcalcW, Ne, List.filter_eq_nil_iff]
    simp [isWindow_iff]
  have e2 : calls (isAggregate reg) e ≠ [] ↔ ∃ x ∈ parts e, IsAggregate reg x := by
    rw [hcalcA, Ne, List.filter_eq_nil_iff]
    simp [isAggregate_iff]
  have p1 : (parts e).filter isWindow = (parts e).filter (fun x => decide (IsWindow x)) := rfl
  have p2 : (parts e).filter (isAggregate reg) = (parts e).filter (fun x => decide (IsAggregate reg x)) := by
    refine List.filter_congr fun x _ => ?_
    rw [Bool.eq_iff_iff, isAggregate_iff, decide_eq_true_eq]
  unfold calculation
  rw [← p1, ← p2, ← hcalcW, ← hcalcA]
  by_cases h1 : calls isWindow e ≠ []
  · rw [if_pos h1]
    have := e1.1 h1
    simp only [this, Kind.window.injEq, true_and, not_true_eq_false, false_and, reduceCtorEq, and_true, iff_self, implies_true]
    exact fun l => eq_comm
  · rw [if_neg h1]
    have hn : ¬ ∃ x ∈ parts e, IsWindow x := fun h => h1 (e1.2 h)
    by_cases h2 : calls (isAggregate reg) e ≠ []
    · rw [if_pos h2]
      have := e2.1 h2
      simp only [hn, this, Kind.aggregate.injEq, true_and, not_false_eq_true, false_and, reduceCtorEq, iff_self, implies_true]
      exact fun l => eq_comm
    · rw [if_neg h2]
      have hn2 : ¬ ∃ x ∈ parts e, IsAggregate reg x := fun h => h2 (e2.2 h)
      simp only [hn, hn2, false_and, and_false, reduceCtorEq, iff_self, implies_true, and_self]

/-- **C170**, one column of a select list: it is compiled as a window if and only if there is a window in its expression, wherever
(but not in a subquery), as an aggregate if and only if there is none but a call of an aggregate function; and the windows, or the
aggregate calls, it is compiled with are all there are, in order, each as often as it is written.  Missing: calls inside INTERVAL,
and aggregates next to or inside windows (violated below). -/
theorem C170_kind_partial (reg : Reg) (hr : Conversions reg) (aliased : Bool) (e : Node) (k : Kind) (hk : kind reg aliased e = some k)
    (hw : Written reg e) :
    (∀ l, k = .window l ↔ (∃ x ∈ parts e, IsWindow x) ∧ l = (parts e).filter (fun x => decide (IsWindow x))) ∧
    (∀ l, k = .aggregate l ↔ (¬ ∃ x ∈ parts e, IsWindow x) ∧ (∃ x ∈ parts e, IsAggregate reg x) ∧
      l = (parts e).filter (fun x => decide (IsAggregate reg x))) := by
  have none : (∀ y ∈ parts e, ¬ IsCall reg y) → (¬ ∃ x ∈ parts e, IsWindow x) ∧ ¬ ∃ x ∈ parts e, IsAggregate reg x := by
    intro h
    exact ⟨fun ⟨x, hx, h'⟩ => h x hx (Or.inl h'), fun ⟨x, hx, h'⟩ => h x hx (Or.inr h')⟩
  have hcalc := calculation_kind reg e hw
  unfold kind at hk
  split at hk
  · rename_i h
    obtain ⟨h1, h2⟩ := none (column_none reg hr e h hw)
    cases hk
    simp only [h1, h2, false_and, and_false, reduceCtorEq, iff_self, implies_true, and_self]
  · split at hk
    · rename_i h
      obtain ⟨h1, h2⟩ := none (const_none reg e h hw)
      cases hk
      simp only [h1, h2, false_and, and_false, reduceCtorEq, iff_self, implies_true, and_self]
    · split at hk
      · rename_i h
        have hself := (isWindow_iff e).1 h
        have hex : ∃ x ∈ parts e, IsWindow x := ⟨e, self_mem e, hself⟩
        have hin := (hw e (self_mem e)).1 (by rw [show e.cls = .window from hself]; simp)
        have hf : (parts e).filter (fun x => decide (IsWindow x)) = [e] := by
          rw [parts_cons, List.filter_cons, if_pos (by simpa using hself),
            filter_none _ _ (fun y hy h' => hin y hy (Or.inl (by simpa using h')))]
        cases hk
        simp only [hex, hf, Kind.window.injEq, true_and, not_true_eq_false, false_and, reduceCtorEq, iff_self, implies_true, and_true]
        exact fun l => eq_comm
      · split at hk
        · rename_i hnw h
          have hself := (isAggregate_iff reg e).1 h
          have hex : ∃ x ∈ parts e, IsAggregate reg x := ⟨e, self_mem e, hself⟩
          have hin := (hw e (self_mem e)).2.2 hself
          have hf : (parts e).filter (fun x => decide (IsAggregate reg x)) = [e] := by
            rw [parts_cons, List.filter_cons, if_pos (by simpa using hself),
              filter_none _ _ (fun y hy h' => hin y hy (Or.inr (by simpa using h')))]
          have hnone : ¬ ∃ x ∈ parts e, IsWindow x := by
            rintro ⟨x, hx, hx'⟩
            rw [parts_cons] at hx
            rcases List.mem_cons.1 hx with rfl | hx
            · exact hnw ((isWindow_iff x).2 hx')
            · exact hin x hx (Or.inl hx')
          cases hk
          simp only [hex, hf, hnone, Kind.aggregate.injEq, true_and, not_false_eq_true, false_and, reduceCtorEq, iff_self,
            implies_true]
          exact fun l => eq_comm
        · split at hk
          · cases hk; exact hcalc
          · split at hk
            · cases hk; exact hcalc
            · cases hk

/-- **C170**: a column with an alias is never refused; one without is refused only if it is in parentheses, an INTERVAL, a bracket or
a star. -/
theorem C170_named (reg : Reg) (e : Node) :
    (kind reg true e).isSome = true ∧ (Nameable e → (kind reg false e).isSome = true) := by
  constructor
  · unfold kind
    repeat' split
    all_goals simp_all
  · intro h
    unfold kind
    repeat' split
    all_goals try rfl
    all_goals simp_all
    rename_i h1 h2 h3 h4 h5
    obtain ⟨c, as⟩ := e
    cases c <;> simp_all [Nameable, isCalculate, isColumn, isPlainColumn, isConst, isWindow, isAggregate, Node.cls]

/-- **C170**, `SELECT (a + 1)`: refused for its parentheses, although `SELECT a + 1` and `SELECT (a + 1) AS b` are accepted; for
every expression. -/
theorem C170_paren_violated (reg : Reg) (e : Node) : kind reg false (.mk .paren [e]) = none := rfl

theorem mapM_some_mem {α β : Type} (f : α → Option β) (l : List α) (r : List β) (h : l.mapM f = some r) :
    (∀ b ∈ r, ∃ a ∈ l, f a = some b) ∧ (∀ a ∈ l, ∃ b ∈ r, f a = some b) := by
  induction l generalizing r with
  | nil => simp at h; subst h; simp
  | cons a l ih =>
    rw [List.mapM_cons] at h
    cases ha : f a with
    | none => simp [ha] at h
    | some b =>
      cases hl : l.mapM f with
      | none => simp [ha, hl] at h
      | some bs =>
        simp [ha, hl] at h
        subst h
        obtain ⟨h1, h2⟩ := ih bs hl
        constructor
        · intro x hx
          rcases List.mem_cons.1 hx with rfl | hx
          · exact ⟨a, by simp, ha⟩
          · obtain ⟨y, hy, hy'⟩ := h1 x hx
            exact ⟨y, by simp [hy], hy'⟩
        · intro x hx
          rcases List.mem_cons.1 hx with rfl | hx
          · exact ⟨b, by simp, ha⟩
          · obtain ⟨y, hy, hy'⟩ := h2 x hx
            exact ⟨y, by simp [hy], hy'⟩

/-- **C170**, a statement: it has one row per group exactly when SQL says so, for select lists in which no column has both a window
and an aggregate call of its own. -/
theorem C170_grouped_partial (reg : Reg) (hr : Conversions reg) (groupBy distinct : Bool) (items : List (Bool × Node)) (g : Bool)
    (hs : statement reg groupBy distinct items = some g) (hw : ∀ i ∈ items, Written reg i.2)
    (hone : ∀ i ∈ items, ¬ ((∃ x ∈ parts i.2, IsWindow x) ∧ ∃ x ∈ parts i.2, IsAggregate reg x)) :
    g = true ↔ Grouped reg groupBy distinct (items.map (·.2)) := by
  unfold statement at hs
  cases hm : items.mapM fun i => kind reg i.1 i.2 with
  | none => simp [hm] at hs
  | some ks =>
    simp only [hm, Option.map_some, Option.some.injEq] at hs
    subst hs
    obtain ⟨h1, h2⟩ := mapM_some_mem _ items ks hm
    simp only [grouped, Grouped, Bool.or_eq_true, List.any_eq_true, List.mem_map]
    constructor
    · rintro ((⟨k, hk, hk'⟩ | h) | h)
      · obtain ⟨i, hi, hik⟩ := h1 k hk
        cases k with
        | aggregate l =>
          exact Or.inr (Or.inr ⟨i.2, ⟨i, hi, rfl⟩, (((C170_kind_partial reg hr _ _ _ hik (hw i hi)).2 l).1 rfl).2.1⟩)
        | _ => cases hk'
      · exact Or.inl h
      · exact Or.inr (Or.inl h)
    · rintro (h | h | ⟨e, ⟨i, hi, rfl⟩, hx⟩)
      · exact Or.inl (Or.inr h)
      · exact Or.inr h
      · obtain ⟨k, hk, hik⟩ := h2 i hi
        refine Or.inl (Or.inl ⟨k, hk, ?_⟩)
        have := ((C170_kind_partial reg hr _ _ _ hik (hw i hi)).2 _).2 ⟨fun h => hone i hi ⟨h, hx⟩, hx, rfl⟩
        rw [this]

namespace ItemCases

def col : Node := .mk .column []
def count : Node := .mk .aggregate [.mk .star []]
def sum (e : Node) : Node := .mk .aggregate [e]
def plus (a b : Node) : Node := .mk .binary [a, b]
def over (f : Node) (by_ : Node) : Node := .mk .window [f, .mk .other [by_]]
def lit : Node := .mk .literal []
/-- No aggregates of the user's own. -/
def none : Reg := ⟨fun _ => false, fun n => n = ['i','n','t']⟩

theorem conversions : Conversions none := fun _ _ _ => rfl

/-- `CASE WHEN (a) > SUM(b) THEN 1 ELSE GROUP_ARRAY(a) END` -/
def nested : Node :=
  .mk .func [.mk .func [plus (.mk .paren [col]) (sum col), lit], .mk (.anon ['G','R','O','U','P','_','A','R','R','A','Y']) [col]]

theorem nested_written : Written none nested := by
  unfold Written IsCall
  decide

end ItemCases
open ItemCases

/-- The hypotheses of `C170_kind_partial` hold for `CASE WHEN (a) > SUM(b) THEN 1 ELSE GROUP_ARRAY(a) END`, which is compiled with
both aggregates. -/
example : Written none nested ∧ Conversions none ∧ kind none true nested = some (.aggregate
    [sum col, .mk (.anon ['G','R','O','U','P','_','A','R','R','A','Y']) [col]]) :=
  ⟨nested_written, conversions, rfl⟩

/-- Those of `C170_grouped_partial`: `SELECT a, CASE … END AS c, SUM(b) OVER (ORDER BY a)`, a grouped statement. -/
example : (∀ i ∈ [(false, col), (true, nested), (false, over (sum col) col)], Written none i.2) ∧
    (∀ i ∈ [(false, col), (true, nested), (false, over (sum col) col)],
      ¬ ((∃ x ∈ parts i.2, IsWindow x) ∧ ∃ x ∈ parts i.2, IsAggregate none x)) ∧
    statement none false false [(false, col), (true, nested), (false, over (sum col) col)] = some true := by
  refine ⟨?_, ?_, rfl⟩
  · unfold Written IsCall; decide
  · decide

/-- **C170**, an aggregate next to a window, `SUM(a) OVER (ORDER BY b) + SUM(c)`: SQL has one row per group, here the statement is not grouped. -/
theorem C170_mixed_violated :
    let e := plus (over (sum col) col) (sum col)
    statement none false false [(true, e)] = some false ∧ Grouped none false false [e] := by
  refine ⟨rfl, Or.inr (Or.inr ⟨_, List.mem_singleton.2 rfl, ?_⟩)⟩
  decide

/-- **C170**, an aggregate inside a window, `RANK() OVER (ORDER BY COUNT(*))`: the same. -/
theorem C170_window_violated :
    let e := over (.mk (.anon ['R','A','N','K']) []) count
    statement none false false [(false, e)] = some false ∧ Grouped none false false [e] := by
  refine ⟨rfl, Or.inr (Or.inr ⟨_, List.mem_singleton.2 rfl, ?_⟩)⟩
  decide

/-- **C170**, an aggregate inside INTERVAL, `a + INTERVAL COUNT(*) DAY`: the same. -/
theorem C170_interval_violated :
    let e := plus col (.mk .interval [count])
    statement none false false [(true, e)] = some false ∧ Grouped none false false [e] := by
  refine ⟨rfl, Or.inr (Or.inr ⟨_, List.mem_singleton.2 rfl, ?_⟩)⟩
  decide

/-- The calls of functions the parser does not know that are aggregates without any registration, in any case of letters. -/
theorem C170_names (n : Name) (as : List Node) :
    isAggregate none (.mk (.anon n) as) = true ↔ String.ofList (n.map Char.toLower) ∈
      ["group_array", "grouparray", "group_uniq_array", "groupuniqarray", "group_bit_and", "groupbitand", "group_bit_or", "groupbitor",
        "group_bit_xor", "groupbitxor"] := by
  have e : groupFuncs.map String.ofList = ["group_array", "grouparray", "group_uniq_array", "groupuniqarray", "group_bit_and", "groupbitand",
      "group_bit_or", "groupbitor", "group_bit_xor", "groupbitxor"] := by decide +kernel
  rw [← e]
  simp only [isAggregate, Node.cls, ItemCases.none, Bool.or_false, List.contains_iff_mem, ItemKind.lower]
  constructor
  · exact fun h => List.mem_map_of_mem h
  · intro h
    obtain ⟨x, hx, he⟩ := List.mem_map.1 h
    have : x = n.map Char.toLower := by rw [← String.toList_ofList (l := x), he, String.toList_ofList]
    exact this ▸ hx

/-- Constants: literals, variables, and these with a minus sign; `- -1` and `@x := 1` are calculations. -/
theorem C170_const (reg : Reg) (aliased : Bool) (as : List Node) :
    kind reg aliased (.mk .literal as) = some .const ∧ kind reg aliased (.mk .param as) = some .const ∧
    kind reg aliased (.mk .neg [.mk .literal as]) = some .const ∧ kind reg aliased (.mk .neg [.mk .param as]) = some .const ∧
    kind reg aliased (.mk .neg [.mk .neg [.mk .literal as]]) = some .calculate ∧
    kind reg aliased (.mk .assign [.mk .literal as]) = some .calculate := by
  refine ⟨rfl, rfl, rfl, rfl, ?_, ?_⟩ <;> cases aliased <;> rfl

/-- `CONVERT_INT(a)`, in any case, is a column with a conversion, as `CAST(a AS INT)` is; `CONVERTINT(a)` is none. -/
theorem C170_convert (reg : Reg) (as : List Node) (h : reg.types ['i', 'n', 't'] = true) :
    isColumn reg (.mk (.anon ['C', 'O', 'N', 'V', 'E', 'R', 'T', '_', 'I', 'N', 'T']) [.mk .column as]) = true ∧
    isColumn reg (.mk (.anon ['c', 'o', 'n', 'v', 'e', 'r', 't', '_', 'i', 'n', 't']) [.mk .column as]) = true ∧
    isColumn reg (.mk .cast [.mk .column as]) = true ∧
    isColumn reg (.mk (.anon ['C', 'O', 'N', 'V', 'E', 'R', 'T', 'I', 'N', 'T']) [.mk .column as]) = false := by
  refine ⟨?_, ?_, rfl, ?_⟩
  · show (decide (_ = convertPrefix) && reg.types ['i', 'n', 't'] && true) = true
    rw [h]; rfl
  · show (decide (_ = convertPrefix) && reg.types ['i', 'n', 't'] && true) = true
    rw [h]; rfl
  · rfl

end Verif.Props
