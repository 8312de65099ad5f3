import Verif.Spec.Accepted
import Verif.Props.JoinSelect
/-! C157: queries that are accepted. -/
namespace Verif.Props.Accept
open Verif.Val Verif.Expr Verif.Where Verif.Select Verif.AcceptSpec

/-! ### Expressions -/

mutual
theorem cols_parts (e : E) (c : Str) : c ∈ colsE e ↔ E.col c ∈ parts e := by
  match e with
  | .lit v => simp [colsE, parts]
  | .col c => simp [colsE, parts]
  | .cmp op a b => simp [colsE, parts, cols_parts a, cols_parts b]
  | .and a b => simp [colsE, parts, cols_parts a, cols_parts b]
  | .or a b => simp [colsE, parts, cols_parts a, cols_parts b]
  | .not a => simp [colsE, parts, cols_parts a]
  | .is a w => simp [colsE, parts, cols_parts a]
  | .inl a l => simp [colsE, parts, cols_parts a, cols_partsL l]
  | .between a lo hi => simp [colsE, parts, cols_parts a, cols_parts lo, cols_parts hi]
  | .paren a => simp [colsE, parts, cols_parts a]
  | .ite a t f => simp [colsE, parts, cols_parts a, cols_parts t, cols_parts f]
  | .ifnull a b => simp [colsE, parts, cols_parts a, cols_parts b]
  | .coalesce a l => simp [colsE, parts, cols_parts a, cols_partsL l]
  | .caseC ws => simp [colsE, parts, cols_partsW ws]
  | .caseV a ws => simp [colsE, parts, cols_parts a, cols_partsW ws]
  | .call f l => simp [colsE, parts, cols_partsL l]
theorem cols_partsL (l : EL) (c : Str) : c ∈ colsEL l ↔ E.col c ∈ partsL l := by
  match l with
  | .nil => simp [colsEL, partsL]
  | .cons e l => simp [colsEL, partsL, cols_parts e, cols_partsL l]
theorem cols_partsW (ws : WL) (c : Str) : c ∈ colsWL ws ↔ E.col c ∈ partsW ws := by
  match ws with
  | .noElse => simp [colsWL, partsW]
  | .els e => simp [colsWL, partsW, cols_parts e]
  | .when a t ws => simp [colsWL, partsW, cols_parts a, cols_parts t, cols_partsW ws]
end

mutual
theorem between_parts (e : E) : JoinSelect.hasBetween e = true ↔ ∃ a lo hi, E.between a lo hi ∈ parts e := by
  match e with
  | .lit v => simp [JoinSelect.hasBetween, parts]
  | .col c => simp [JoinSelect.hasBetween, parts]
  | .cmp op a b => simp [JoinSelect.hasBetween, parts, between_parts a, between_parts b, exists_or]
  | .and a b => simp [JoinSelect.hasBetween, parts, between_parts a, between_parts b, exists_or]
  | .or a b => simp [JoinSelect.hasBetween, parts, between_parts a, between_parts b, exists_or]
  | .not a => simp [JoinSelect.hasBetween, parts, between_parts a]
  | .is a w => simp [JoinSelect.hasBetween, parts, between_parts a]
  | .inl a l => simp [JoinSelect.hasBetween, parts, between_parts a, between_partsL l, exists_or]
  | .between a lo hi => simp only [JoinSelect.hasBetween, parts, true_iff]; exact ⟨a, lo, hi, List.mem_cons_self⟩
  | .paren a => simp [JoinSelect.hasBetween, parts, between_parts a]
  | .ite a t f => simp [JoinSelect.hasBetween, parts, between_parts a, between_parts t, between_parts f, exists_or, or_assoc]
  | .ifnull a b => simp [JoinSelect.hasBetween, parts, between_parts a, between_parts b, exists_or]
  | .coalesce a l => simp [JoinSelect.hasBetween, parts, between_parts a, between_partsL l, exists_or]
  | .caseC ws => simp [JoinSelect.hasBetween, parts, between_partsW ws]
  | .caseV a ws => simp [JoinSelect.hasBetween, parts, between_parts a, between_partsW ws, exists_or]
  | .call f l => simp [JoinSelect.hasBetween, parts, between_partsL l]
theorem between_partsL (l : EL) : JoinSelect.hasBetweenL l = true ↔ ∃ a lo hi, E.between a lo hi ∈ partsL l := by
  match l with
  | .nil => simp [JoinSelect.hasBetweenL, partsL]
  | .cons e l => simp [JoinSelect.hasBetweenL, partsL, between_parts e, between_partsL l, exists_or]
theorem between_partsW (ws : WL) : JoinSelect.hasBetweenW ws = true ↔ ∃ a lo hi, E.between a lo hi ∈ partsW ws := by
  match ws with
  | .noElse => simp [JoinSelect.hasBetweenW, partsW]
  | .els e => simp [JoinSelect.hasBetweenW, partsW, between_parts e]
  | .when a t ws => simp [JoinSelect.hasBetweenW, partsW, between_parts a, between_parts t, between_partsW ws, exists_or, or_assoc]
end

/-- What remains of WHERE has parts of WHERE only (or constants). -/
theorem split_parts (prim : Str → Bool) (e : E) (qs : Querys) :
    (∀ x ∈ parts (split prim qs e).tree, (∃ c, x = .col c) ∨ (∃ a lo hi, x = .between a lo hi) → x ∈ parts e) ∧
    ∀ r, (split prim qs e).res = some r → ∀ x ∈ parts r, (∃ c, x = .col c) ∨ (∃ a lo hi, x = .between a lo hi) → x ∈ parts e := by
  have keep : ∀ e' : E, (∀ x ∈ parts (⟨some e', e', qs⟩ : Split).tree, (∃ c, x = .col c) ∨ (∃ a lo hi, x = .between a lo hi) → x ∈ parts e') ∧
      ∀ r, (⟨some e', e', qs⟩ : Split).res = some r → ∀ x ∈ parts r, (∃ c, x = .col c) ∨ (∃ a lo hi, x = .between a lo hi) → x ∈ parts e' :=
    fun e' => ⟨fun x hx _ => hx, fun r hr x hx _ => by cases hr; exact hx⟩
  induction e using E.rec (motive_2 := fun _ => True) (motive_3 := fun _ => True) generalizing qs with
  | and a b iha ihb =>
    obtain ⟨a1, a2⟩ := iha qs (fun e' => ⟨fun x hx _ => hx, fun r hr x hx _ => by cases hr; exact hx⟩)
    obtain ⟨b1, b2⟩ := ihb (split prim qs a).querys (fun e' => ⟨fun x hx _ => hx, fun r hr x hx _ => by cases hr; exact hx⟩)
    have tree : ∀ x ∈ parts (E.and (split prim qs a).tree (split prim (split prim qs a).querys b).tree),
        (∃ c, x = .col c) ∨ (∃ a lo hi, x = .between a lo hi) → x ∈ parts (.and a b) := by
      intro x hx hk
      simp only [parts, List.mem_cons, List.mem_append] at hx ⊢
      rcases hx with rfl | hx | hx
      · rcases hk with ⟨_, h⟩ | ⟨_, _, _, h⟩ <;> cases h
      · exact .inr (.inl (a1 x hx hk))
      · exact .inr (.inr (b1 x hx hk))
    refine ⟨tree, ?_⟩
    intro r hr x hx hk
    simp only [split] at hr
    cases ha : (split prim qs a).res with
    | none =>
      cases hb : (split prim (split prim qs a).querys b).res with
      | none => simp [ha, hb] at hr
      | some y =>
        simp only [ha, hb, Option.some.injEq] at hr
        subst hr
        simp only [parts, List.mem_cons, List.mem_append]
        exact .inr (.inr (b2 _ hb x hx hk))
    | some y =>
      cases hb : (split prim (split prim qs a).querys b).res with
      | none =>
        simp only [ha, hb, Option.some.injEq] at hr
        subst hr
        simp only [parts, List.mem_cons, List.mem_append]
        exact .inr (.inl (a2 _ ha x hx hk))
      | some z =>
        simp only [ha, hb, Option.some.injEq] at hr
        subst hr
        exact tree x hx hk
  | cmp op a b =>
    simp only [split]
    split
    · refine ⟨fun x hx hk => ?_, fun r hr => by cases hr⟩
      simp only [parts, List.mem_singleton] at hx
      subst hx
      rcases hk with ⟨_, h⟩ | ⟨_, _, _, h⟩ <;> cases h
    · exact keep _
  | inl a l =>
    simp only [split]
    split
    · refine ⟨fun x hx hk => ?_, fun r hr => by cases hr⟩
      simp only [parts, List.mem_singleton] at hx
      subst hx
      rcases hk with ⟨_, h⟩ | ⟨_, _, _, h⟩ <;> cases h
    · exact keep _
  | paren a iha =>
    obtain ⟨a1, a2⟩ := iha qs (fun e' => ⟨fun x hx _ => hx, fun r hr x hx _ => by cases hr; exact hx⟩)
    refine ⟨fun x hx hk => ?_, fun r hr x hx hk => ?_⟩
    · simp only [split, parts, List.mem_cons] at hx ⊢
      rcases hx with rfl | hx
      · rcases hk with ⟨_, h⟩ | ⟨_, _, _, h⟩ <;> cases h
      · exact .inr (a1 x hx hk)
    · simp only [split] at hr
      simp only [parts, List.mem_cons]
      exact .inr (a2 r hr x hx hk)
  | nil => trivial
  | cons => trivial
  | noElse => trivial
  | els => trivial
  | when => trivial
  | _ => exact keep _

/-! ### HAVING and ORDER BY -/

theorem having_some {e : E} (h : HavingForm e) : ∃ t, compileHaving e = some t := by
  induction h with
  | paren _ ih => obtain ⟨t, ht⟩ := ih; exact ⟨t, by rw [compileHaving, ht]⟩
  | and _ _ ih ih' => obtain ⟨t, ht⟩ := ih; obtain ⟨t', ht'⟩ := ih'; exact ⟨_, by rw [compileHaving, ht, ht']; rfl⟩
  | or _ _ ih ih' => obtain ⟨t, ht⟩ := ih; obtain ⟨t', ht'⟩ := ih'; exact ⟨_, by rw [compileHaving, ht, ht']; rfl⟩
  | _ => exact ⟨_, rfl⟩

theorem havingCols_sub (e : E) (c : Str) (h : c ∈ havingCols e) : c ∈ colsE e := by
  induction e using E.rec (motive_2 := fun _ => True) (motive_3 := fun _ => True) with
  | and a b iha ihb =>
    simp only [havingCols, colsE, List.mem_append] at h ⊢
    exact h.imp iha ihb
  | or a b iha ihb =>
    simp only [havingCols, colsE, List.mem_append] at h ⊢
    exact h.imp iha ihb
  | paren a ih => exact ih h
  | inl a l => exact List.mem_append_left _ h
  | between a lo hi => exact List.mem_append_left _ (List.mem_append_left _ h)
  | _ => first | exact h | trivial

theorem intercept_some {ns ns' : List Str} (hn : ∀ c ∈ ns, c ∈ ns') (h : Option E)
    (hh : ∀ e, h = some e → HavingForm e ∧ ∀ c, E.col c ∈ parts e → c ∈ ns) : ∃ t, compileIntercept ns' h = some t := by
  cases h with
  | none => exact ⟨_, rfl⟩
  | some e =>
    obtain ⟨h1, h2⟩ := hh e rfl
    obtain ⟨t, ht⟩ := having_some h1
    refine ⟨some t, ?_⟩
    rw [compileIntercept, if_pos, ht]; rfl
    rw [List.all_eq_true]
    intro c hc
    exact decide_eq_true (hn c (h2 c ((cols_parts e c).1 (havingCols_sub e c hc))))

theorem addItems_some (cx : Order.Ctx) (items : List (Order.Item × Bool)) (hi : ∀ i ∈ items, i.1 ≠ .expr none) (acc : List Order.Key × List Order.Key) :
    ∃ r, Order.addItems cx acc items = some r ∧
      r.2.map (·.1) = acc.2.map (·.1) ++ items.filterMap fun i => match i.1 with | .expr a => a | .col _ n => some n := by
  induction items generalizing acc with
  | nil => exact ⟨acc, rfl, by simp⟩
  | cons i is ih =>
    obtain ⟨i, d⟩ := i
    have h0 := hi (i, d) List.mem_cons_self
    cases i with
    | expr a =>
      cases a with
      | none => exact absurd rfl h0
      | some a =>
        obtain ⟨r, h1, h2⟩ := ih (fun i h => hi i (List.mem_cons_of_mem _ h)) (acc.1, acc.2 ++ [(a, d)])
        exact ⟨r, by simpa [Order.addItems, Order.addItem] using h1, by rw [h2]; simp⟩
    | col t n =>
      obtain ⟨r, h1, h2⟩ := ih (fun i h => hi i (List.mem_cons_of_mem _ h)) (if Order.isPrimary cx t n then acc.1 ++ [(n, d)] else acc.1, acc.2 ++ [(n, d)])
      exact ⟨r, by simpa [Order.addItems, Order.addItem] using h1, by rw [h2]; simp⟩

theorem addItems_prim (cx : Order.Ctx) (items : List (Order.Item × Bool)) (hi : ∀ i ∈ items, ∃ n, i.1 = .col (some cx.table) n)
    (acc : List Order.Key × List Order.Key) (ha : acc.1.length = acc.2.length) :
    ∃ r, Order.addItems cx acc items = some r ∧ r.1.length = r.2.length := by
  induction items generalizing acc with
  | nil => exact ⟨acc, rfl, ha⟩
  | cons i is ih =>
    obtain ⟨i, d⟩ := i
    obtain ⟨n, h0⟩ := hi (i, d) List.mem_cons_self
    simp only at h0
    subst h0
    obtain ⟨r, h1, h2⟩ := ih (fun i h => hi i (List.mem_cons_of_mem _ h)) (acc.1 ++ [(n, d)], acc.2 ++ [(n, d)]) (by simp [ha])
    exact ⟨r, by simpa [Order.addItems, Order.addItem, Order.isPrimary] using h1, h2⟩

theorem order_some (cx : Order.Ctx) (ns : List Str) (hn : ∀ c ∈ ns, c ∈ cx.schema) (items : List (Order.Item × Bool))
    (h : (∀ i ∈ items, ∃ n ∈ ns, i.1 = .expr (some n) ∨ ∃ t, i.1 = .col t n) ∨ ∀ i ∈ items, ∃ n, i.1 = .col (some cx.table) n) :
    ∃ r, Order.compile cx items = some r := by
  rcases h with h | h
  · obtain ⟨⟨p, s⟩, h1, h2⟩ := addItems_some cx items (by
      intro i hi he
      obtain ⟨n, _, h | ⟨t, h⟩⟩ := h i hi <;> rw [he] at h <;> cases h) ([], [])
    simp only [Order.compile, h1, Option.bind_eq_bind, Option.bind_some]
    split
    · rw [if_pos]; exact ⟨_, rfl⟩
      rw [List.all_eq_true]
      intro k hk
      have : k.1 ∈ s.map (·.1) := List.mem_map_of_mem hk
      simp only at h2
      rw [h2] at this
      simp only [List.map_nil, List.nil_append, List.mem_filterMap] at this
      obtain ⟨i, hi, e⟩ := this
      obtain ⟨n, hn', h | ⟨t, h⟩⟩ := h i hi <;> rw [h] at e <;> cases e <;> exact decide_eq_true (hn _ hn')
    · exact ⟨_, rfl⟩
  · obtain ⟨⟨p, s⟩, h1, h2⟩ := addItems_prim cx items h ([], []) rfl
    simp only [Order.compile, h1, Option.bind_eq_bind, Option.bind_some]
    rw [if_neg (by simp only at h2; omega)]
    exact ⟨_, rfl⟩

/-! ### The columns -/

variable {S : Type}

theorem mem_put {β : Type} (k : Str) (v : β) (d : List (Str × β)) (c : Str) : c ∈ (Select.put k v d).map (·.1) ↔ c = k ∨ c ∈ d.map (·.1) := by
  induction d with
  | nil => simp [Select.put]
  | cons p d ih =>
    obtain ⟨k', v'⟩ := p
    simp only [Select.put]
    split
    · next h => subst h; simp
    · simp only [List.map_cons, List.mem_cons, ih]
      exact or_left_comm

theorem get_put {β : Type} (k c : Str) (v : β) (d : List (Str × β)) : Select.get c (Select.put k v d) = if c = k then some v else Select.get c d := by
  induction d with
  | nil => simp [Select.put, Select.get, eq_comm]
  | cons p d ih =>
    obtain ⟨k', v'⟩ := p
    simp only [Select.put]
    split
    · next h =>
      subst h
      simp only [Select.get]
      by_cases h : k' = c
      · simp [h]
      · simp [h, Ne.symm h]
    · next h =>
      simp only [Select.get, ih]
      by_cases h1 : k' = c
      · subst h1; simp [h]
      · simp [h1]

section
variable {K : Type} (cc : E → Option K)

/-- The columns so far: none carries a key, and the aggregates are columns of the query. -/
def SoFar (cols : List (Str × Item S)) (s : JoinSelect.Schema K S) : Prop :=
  ∀ c k, Select.get c s = some k → (∃ t, k = .calc t) ∨ ∃ args final, (c, Item.agg args final) ∈ cols

theorem keyCol_some {cols : List (Str × Item S)} {s : JoinSelect.Schema K S} (hs : SoFar cols s) (g : GKey)
    (hg : ∀ c, g = .bare c → (∀ args final, (c, Item.agg args final) ∉ cols) ∧ ∃ k, cc (.col c) = some k)
    (he : ∀ e, g = .expr e → ∃ k, cc e = some k) : ∃ k, JoinSelect.keyCol cc s g = some k := by
  cases g with
  | expr e => exact he e rfl
  | bare c =>
    obtain ⟨h1, h2⟩ := hg c rfl
    simp only [JoinSelect.keyCol]
    cases h : Select.get c s with
    | none => exact h2
    | some k =>
      rcases hs c k h with ⟨t, rfl⟩ | ⟨args, final, hm⟩
      · exact ⟨t, rfl⟩
      · exact absurd hm (h1 args final)

theorem keyCols_some {cols : List (Str × Item S)} {s : JoinSelect.Schema K S} (hs : SoFar cols s) (gs : List GKey)
    (hg : ∀ c, GKey.bare c ∈ gs → (∀ args final, (c, Item.agg args final) ∉ cols) ∧ ∃ k, cc (.col c) = some k)
    (he : ∀ e, GKey.expr e ∈ gs → ∃ k, cc e = some k) : ∃ k, JoinSelect.keyCols cc s gs = some k := by
  induction gs with
  | nil => exact ⟨_, rfl⟩
  | cons g gs ih =>
    obtain ⟨k, hk⟩ := keyCol_some cc hs g (fun c h => hg c (h ▸ List.mem_cons_self)) fun e h => he e (h ▸ List.mem_cons_self)
    obtain ⟨ks, hks⟩ := ih (fun c h => hg c (List.mem_cons_of_mem _ h)) fun e h => he e (List.mem_cons_of_mem _ h)
    exact ⟨k :: ks, by simp [JoinSelect.keyCols, hk, hks]⟩

theorem argCols_some (as : List (Aggr S × E)) (h : ∀ a ∈ as, ∃ k, cc a.2 = some k) : ∃ k, JoinSelect.argCols cc as = some k := by
  induction as with
  | nil => exact ⟨_, rfl⟩
  | cons a as ih =>
    obtain ⟨k, hk⟩ := h a List.mem_cons_self
    obtain ⟨ks, hks⟩ := ih fun a h' => h a (List.mem_cons_of_mem _ h')
    exact ⟨(a.1, k) :: ks, by simp only [JoinSelect.argCols, hk, hks, Option.bind_some, Option.map_some]⟩

theorem addCols_some (q : Query S) (hc : ∀ e, ExprOf { q with cond := none } e → ∃ k, cc e = some k)
    (hk : ∀ v, ∃ k, cc (.lit v) = some k)
    (hg : ∀ c, GKey.bare c ∈ q.group → ∀ args final, (c, Item.agg args final) ∉ q.cols) (cols : List (Str × Item S))
    (hsub : ∀ x ∈ cols, x ∈ q.cols) (s : JoinSelect.Schema K S) (hs : SoFar q.cols s) :
    ∃ s', JoinSelect.addCols cc q.group s cols = some s' ∧ SoFar q.cols s' ∧ ∀ c ∈ s.map (·.1) ++ cols.map (·.1), c ∈ s'.map (·.1) := by
  induction cols generalizing s with
  | nil => exact ⟨s, rfl, hs, by simp⟩
  | cons col cols ih =>
    obtain ⟨n, it⟩ := col
    have hm := hsub _ List.mem_cons_self
    have step : ∃ k, JoinSelect.addCol cc q.group s (n, it) = some (Select.put n k s) ∧ ((∃ t, k = .calc t) ∨ ∃ args final, it = .agg args final) := by
      cases it with
      | expr e =>
        obtain ⟨k, hk⟩ := hc e (.column hm)
        exact ⟨.calc k, by simp only [JoinSelect.addCol, hk, Option.map_some], .inl ⟨k, rfl⟩⟩
      | agg args final =>
        obtain ⟨as, has⟩ := argCols_some cc args fun a ha => hc a.2 (.arg hm ha)
        have : ∃ k, JoinSelect.groupKey cc s q.group = some k := by
          unfold JoinSelect.groupKey
          split
          · obtain ⟨k, h⟩ := hk (.str "__k_g__".toList)
            rw [h]; exact ⟨_, rfl⟩
          · exact keyCols_some cc hs q.group (fun c h => ⟨hg c h, hc _ (.name h)⟩) fun e h => hc e (.key h)
        obtain ⟨k, hk'⟩ := this
        exact ⟨.agg k as final, by simp only [JoinSelect.addCol, hk', has, Option.bind_some, Option.map_some], .inr ⟨args, final, rfl⟩⟩
    obtain ⟨k, h1, h2⟩ := step
    have hs' : SoFar q.cols (Select.put n k s) := by
      intro c k' hk'
      rw [get_put] at hk'
      split at hk'
      · next h =>
        cases hk'
        subst h
        rcases h2 with h2 | ⟨args, final, rfl⟩
        · exact .inl h2
        · exact .inr ⟨args, final, hm⟩
      · exact hs c k' hk'
    obtain ⟨s', h3, h4, h5⟩ := ih (fun x h => hsub x (List.mem_cons_of_mem _ h)) _ hs'
    refine ⟨s', by simp only [JoinSelect.addCols, h1, Option.bind_some, h3], h4, fun c hc => h5 c ?_⟩
    simp only [List.map_cons, List.mem_append, List.mem_cons] at hc ⊢
    rw [mem_put]
    rcases hc with h | h | h
    · exact .inl (.inr h)
    · exact .inl (.inl h)
    · exact .inr h

theorem select_some (q : Query S) (hq : QueryOk q) (hk : ∀ v, ∃ k, cc (.lit v) = some k)
    (hc : ∀ e, ExprOf { q with cond := none } e → ∃ k, cc e = some k)
    (hw : ∀ e r, q.cond = some e → (split JoinSelect.isPrim [] e).res = some r → ∃ k, cc r = some k) :
    ∃ p, JoinSelect.compileSelect cc q = some p := by
  obtain ⟨s, h1, h2, h3⟩ := addCols_some cc q hc hk hq.group q.cols (fun _ h => h) [] (by intro c k h; cases h)
  have hn : ∀ c ∈ names q, c ∈ s.map (·.1) := fun c hc => h3 c (by simpa [names] using hc)
  obtain ⟨w, h4⟩ : ∃ w, JoinSelect.whereOf cc q = some w := by
    unfold JoinSelect.whereOf
    cases h : q.cond with
    | none => exact ⟨_, rfl⟩
    | some e =>
      simp only
      cases hr : (split JoinSelect.isPrim [] e).res with
      | none => exact ⟨_, rfl⟩
      | some r => obtain ⟨k, hk⟩ := hw e r h hr; simp only [hk]; exact ⟨_, rfl⟩
  obtain ⟨i, h5⟩ := intercept_some hn q.having hq.having
  obtain ⟨od, h6⟩ := order_some ⟨s.map (·.1), q.columns, q.table, q.aliased, JoinSelect.aggNames s⟩ (names q) hn q.order hq.order
  obtain ⟨f, h7⟩ : ∃ f, JoinSelect.finish cc q s = some f := by
    unfold JoinSelect.finish
    split
    · split
      · obtain ⟨k, hk⟩ := keyCols_some cc h2 q.group (fun c h => ⟨hq.group c h, hc _ (.name h)⟩) fun e h => hc e (.key h)
        rw [hk]; exact ⟨_, rfl⟩
      · split <;> exact ⟨_, rfl⟩
    · exact ⟨_, rfl⟩
  simp only [JoinSelect.compileSelect, h1, h4, h5, h6, h7, Option.bind_some, Option.map_some]
  exact ⟨_, rfl⟩

end

/-! ### Joins -/

open Verif.Join Verif.SqlJoin Verif.Proofs.JoinSelect

/-- The columns ON records are none of the table itself. -/
theorem joinCols_foreign {V : Type} (o : Ops V) (own : Join.Name) (s T : Table V) (cs : List (Cond V)) (hself : ∀ c ∈ cs, NoSelf own c)
    (h : parseOn o own s cs = some T) (r : Ref) (hr : r ∈ T.joinCols) : r ∈ s.joinCols ∨ r.table ≠ some own := by
  have hEq : ∀ (s s' : Table V) (k : Join.Name) (x : X V), (∀ f ∈ fields x, f.table ≠ some own) → addEq o s k x = some s' →
      r ∈ s'.joinCols → r ∈ s.joinCols ∨ r.table ≠ some own := by
    intro s s' k x hx h hr
    unfold addEq at h
    split at h
    · cases h; exact .inl hr
    · unfold addKey at h
      split at h
      · cases h
      · cases h; exact (List.mem_append.1 hr).imp id (hx r)
  have hH : ∀ (s s' : Table V) (c : Cond V) (rs : List Ref), addHaving o own s c rs = some s' → r ∈ s'.joinCols →
      r ∈ s.joinCols ∨ r.table ≠ some own := by
    intro s s' c rs h hr
    cases h
    refine (List.mem_append.1 hr).imp id fun h => ?_
    have := (List.mem_filter.1 h).2
    simpa using this
  have hO : ∀ (s s' : Table V) (c : Cond V) (l x : X V) (q : V → V → Bool), addOther o own s c l x q = some s' → r ∈ s'.joinCols →
      r ∈ s.joinCols ∨ r.table ≠ some own := by
    intro s s' c l x q h hr
    unfold addOther at h
    split at h
    · split at h
      · cases h
      · split at h
        · cases h; exact .inl hr
        · exact hH _ _ _ _ h hr
    · exact hH _ _ _ _ h hr
  have own_eq : ∀ (x : X V) k, ownCol own x = some k → x = .col ⟨some own, k⟩ := by
    intro x k h
    unfold ownCol at h
    split at h
    · next a =>
      split at h
      · next ha => cases h; cases a; simp only at ha; subst ha; rfl
      · cases h
    · cases h
  have hC : ∀ (s s' : Table V) (c : Cond V), NoSelf own c → parseCond o own s c = some s' → r ∈ s'.joinCols →
      r ∈ s.joinCols ∨ r.table ≠ some own := by
    intro s s' c hn h hr
    cases c with
    | cmp op l x =>
      simp only [parseCond] at h
      split at h
      · next hop =>
        subst hop
        split at h
        · next k hk => exact hEq _ _ _ _ (hn.1 k (own_eq l k hk)) h hr
        · split at h
          · next k hk => exact hEq _ _ _ _ (hn.2 k (own_eq x k hk)) h hr
          · exact hO _ _ _ _ _ _ h hr
      · exact hO _ _ _ _ _ _ h hr
    | isin l vs =>
      simp only [parseCond] at h
      split at h
      · split at h
        · cases h
        · cases h; exact .inl hr
      · exact hH _ _ _ _ h hr
    | other x => exact hH _ _ _ _ h hr
  induction cs generalizing s with
  | nil => cases h; exact .inl hr
  | cons c cs ih =>
    simp only [parseOn] at h
    obtain ⟨s', hs', h⟩ := Option.bind_eq_some_iff.1 h
    rcases ih s' (fun c hc => hself c (List.mem_cons_of_mem _ hc)) h with h | h
    · exact hC s s' c (hself c List.mem_cons_self) hs' h
    · exact .inr h

theorem parseJoins_some (o : Ops Val) (joins : List (Join Val)) (h : ∀ j ∈ joins, (parseOn o j.name noTable j.on).isSome = true) :
    ∃ info, JoinSelect.parseJoins o joins = some info := by
  induction joins with
  | nil => exact ⟨_, rfl⟩
  | cons j js ih =>
    obtain ⟨info, hi⟩ := ih fun j hj => h j (List.mem_cons_of_mem _ hj)
    obtain ⟨t, ht⟩ := Option.isSome_iff_exists.1 (h j List.mem_cons_self)
    have ht' : parseOn o j.name ⟨[], [], [], []⟩ j.on = some t := ht
    simp only [JoinSelect.parseJoins, ht', hi, Option.bind_some, Option.map_some]
    exact ⟨_, rfl⟩

theorem exprsOf_iff (q : Query S) (e : E) : e ∈ JoinSelect.exprsOf q ↔ ExprOf q e ∨ q.having = some e := by
  simp only [JoinSelect.exprsOf, List.mem_append, List.mem_flatMap, List.mem_map, Option.mem_toList]
  constructor
  · rintro ((⟨⟨n, i⟩, hc, he⟩ | ⟨g, hg, he⟩) | hc | hh)
    · cases i with
      | expr x => rw [List.mem_singleton.1 he]; exact .inl (.column hc)
      | agg args final => obtain ⟨a, ha, rfl⟩ := List.mem_map.1 he; exact .inl (.arg hc ha)
    · cases g with
      | bare c => subst he; exact .inl (.name hg)
      | expr x => subst he; exact .inl (.key hg)
    · exact .inl (.cond hc)
    · exact .inr hh
  · rintro (h | h)
    · cases h with
      | column h => exact .inl (.inl ⟨_, h, List.mem_singleton.2 rfl⟩)
      | arg h ha => exact .inl (.inl ⟨_, h, List.mem_map.2 ⟨_, ha, rfl⟩⟩)
      | key h => exact .inl (.inr ⟨_, h, rfl⟩)
      | name h => exact .inl (.inr ⟨_, h, rfl⟩)
      | cond h => exact .inr (.inl h)
    · exact .inr (.inr h)

/-- `mentions` is `Used`. -/
theorem mentions_iff (joins : List (Join Val)) (q : Query S) (t : Join.Name) : JoinSelect.mentions joins q t = true ↔ Used q joins t := by
  simp only [JoinSelect.mentions, Bool.or_eq_true, List.any_eq_true, decide_eq_true_eq, Used, or_assoc]
  refine or_congr ⟨fun ⟨j, h1, c, h2, r, h3, h⟩ => ⟨j, h1, c, h2, r, h3, h⟩, fun ⟨j, h1, c, h2, r, h3, h⟩ => ⟨j, h1, c, h2, r, h3, h⟩⟩ (or_congr ?_ ?_)
  · constructor
    · rintro ⟨e, he, ht⟩
      simp only [JoinSelect.tablesOf, List.mem_eraseDups, List.mem_filterMap] at ht
      obtain ⟨c, hc, ht⟩ := ht
      exact ⟨e, c, (exprsOf_iff q e).1 he, (cols_parts e c).1 hc, ht⟩
    · rintro ⟨e, c, he, hc, ht⟩
      refine ⟨e, (exprsOf_iff q e).2 he, ?_⟩
      simp only [JoinSelect.tablesOf, List.mem_eraseDups, List.mem_filterMap]
      exact ⟨c, (cols_parts e c).2 hc, ht⟩
  · constructor
    · rintro ⟨⟨i, d⟩, hi, h⟩
      cases i with
      | expr c => cases h
      | col tb n => cases tb with
        | none => cases h
        | some tb =>
          have h : String.ofList tb = t := of_decide_eq_true h
          subst h
          exact ⟨n, d, by rw [String.toList_ofList]; exact hi⟩
    · rintro ⟨n, d, h⟩
      exact ⟨_, h, decide_eq_true (String.ofList_toList (s := t))⟩

/-- The tables a table refers to are joined before it. -/
theorem refs_left (o : Ops Val) (primary : Join.Name) (joins : List (Join Val)) (hj : JoinsOk o primary joins) (info : Join.Name → Table Val)
    (hi : JoinSelect.parseJoins o joins = some info) (t u : Join.Name) (hu : u ∈ refs primary (info t)) :
    u ∈ joins.map (·.name) ∧ (joins.map (·.name)).idxOf u < (joins.map (·.name)).idxOf t := by
  by_cases ht : t ∈ joins.map (·.name)
  · obtain ⟨j, hjm, rfl⟩ := List.mem_map.1 ht
    have hp := parseJoins_mem primary hj.names hi j hjm
    unfold refs at hu
    rw [List.mem_eraseDups, List.mem_filterMap] at hu
    obtain ⟨r, hr, hu⟩ := hu
    have hcol := (joinCols_sub o j.name noTable (info j.name) j.on hp r hr).resolve_left (by simp [noTable])
    have hown := (joinCols_foreign o j.name noTable (info j.name) j.on (fun c hc => (hj.on j hjm c hc).2.1) hp r hr).resolve_left (by simp [noTable])
    obtain ⟨c, hc, h⟩ := hcol
    split at hu
    · next n hn =>
      split at hu
      · cases hu
      · next hne =>
        obtain rfl : n = u := by simpa using hu
        have hin := (hj.known j hjm c hc r h _ hn).resolve_left hne
        refine ⟨hin, ?_⟩
        have hne' : n ≠ j.name := fun e => hown (by rw [hn, e])
        have hs := hj.names
        clear hi hp hr hj hown ht
        induction joins with
        | nil => cases hjm
        | cons k js ih =>
          simp only [List.map_cons] at hin ⊢
          rcases List.mem_cons.1 hjm with rfl | hjm
          · exfalso
            rcases List.mem_cons.1 hin with e | hin
            · exact hne' e
            · obtain ⟨k', hk', e⟩ := List.mem_map.1 hin
              exact (hs.2.1 k' hk').2 c hc r h (by rw [hn, e])
          · have h2 : k.name ≠ j.name := fun e => (hs.2.1 j hjm).1 e.symm
            have e1 : (k.name :: js.map (·.name)).idxOf j.name = (js.map (·.name)).idxOf j.name + 1 := by
              rw [List.idxOf_cons, show (k.name == j.name) = false from beq_false_of_ne h2, cond_false]
            rw [e1]
            rcases List.mem_cons.1 hin with e | hin
            · rw [e, List.idxOf_cons_self]; omega
            · by_cases e : k.name = n
              · rw [← e, List.idxOf_cons_self]; omega
              · rw [List.idxOf_cons, show (k.name == n) = false from beq_false_of_ne e, cond_false]
                have := ih hjm hin hs.2.2
                omega
    · cases hu
  · rw [parseJoins_other hi t ht] at hu
    simp [refs, noTable] at hu

variable (py : Py) (calls : Str → List Val → Val)

theorem compileE_some (o : Ops Val) (primary : Join.Name) (joins : List (Join Val)) (hj : JoinsOk o primary joins)
    (info : Join.Name → Table Val) (hi : JoinSelect.parseJoins o joins = some info) (order : List Join.Name → List Join.Name)
    (ho : ∀ l, (order l).Perm l) (fuel : Nat) (hf : joins.length + 2 ≤ fuel) (x : E)
    (ht : ∀ c t, c ∈ colsE x → OfTable c t → t ∈ joins.map (·.name))
    (hb : ¬ (JoinSelect.hasBetween x = true ∧ ∃ c t, c ∈ colsE x ∧ OfTable c t)) :
    ∃ k, JoinSelect.compileE py calls ⟨primary, joins.map (·.name), info, order, fuel⟩ x = some k := by
  have hmem : ∀ t, t ∈ JoinSelect.tablesOf x ↔ ∃ c ∈ colsE x, OfTable c t := by
    intro t
    simp only [JoinSelect.tablesOf, List.mem_eraseDups, List.mem_filterMap, OfTable]
  have hnames : ∀ t ∈ JoinSelect.tablesOf x, t ∈ joins.map (·.name) := by
    intro t h
    obtain ⟨c, hc, h⟩ := (hmem t).1 h
    exact ht c t hc h
  have hcond : ((JoinSelect.tablesOf x).all (fun t => decide (t ∈ joins.map (·.name))) &&
      !(JoinSelect.hasBetween x && !(JoinSelect.tablesOf x).isEmpty)) = true := by
    rw [Bool.and_eq_true]
    refine ⟨List.all_eq_true.2 fun t h => decide_eq_true (hnames t h), ?_⟩
    cases hbt : JoinSelect.hasBetween x with
    | false => rfl
    | true =>
      cases hl : JoinSelect.tablesOf x with
      | nil => rfl
      | cons t l =>
        obtain ⟨c, hc, h⟩ := (hmem t).1 (by rw [hl]; exact List.mem_cons_self)
        exact absurd ⟨hbt, c, t, hc, h⟩ hb
  obtain ⟨n, rfl⟩ : ∃ n, fuel = n + 2 := ⟨fuel - 2, by omega⟩
  have hrank : ∀ t ∈ order (JoinSelect.tablesOf x), (joins.map (·.name)).idxOf t ≤ n := by
    intro t h
    have := List.idxOf_lt_length_of_mem (hnames t ((ho _).mem_iff.1 h))
    simp only [List.length_map] at this
    omega
  obtain ⟨tables, hch⟩ := C44_terminates (fun t => refs primary (info t)) order ho (joins.map (·.name)).idxOf
    (fun t u h => (refs_left o primary joins hj info hi t u h).2) _ n hrank
  have hin : ∀ t ∈ tables, t ∈ joins.map (·.name) := by
    intro t h
    have hr := ((Verif.Proofs.Join.chain_mem _ order ho _ _ [] tables hch t).1 h).resolve_left (by simp)
    clear h
    induction hr with
    | base hb => exact hnames _ ((ho _).mem_iff.1 hb)
    | step _ hu _ => exact (refs_left o primary joins hj info hi _ _ hu).1
  obtain ⟨c, hc, _⟩ := C122_value_partial Val.null (fun _ _ => true) (fun _ => true) (fun _ _ => none) primary info order ho (n + 2)
    (JoinSelect.exprX py calls x) trivial (order (JoinSelect.tablesOf x)) tables
    ((ho _).nodup_iff.2 (Verif.Proofs.Join.nodup_eraseDups _))
    (by
      intro r hr t ht _
      rw [(ho _).mem_iff, JoinSelect.tablesOf, List.mem_eraseDups, List.mem_filterMap]
      obtain ⟨c, hc, rfl⟩ := List.mem_map.1 (show r ∈ (Select.colsE x).map JoinSelect.refOf from hr)
      exact ⟨c, hc, ht⟩) hch (fun hm => scoped_primary primary joins hj.names (hin _ hm))
    (by
      intro t h
      obtain ⟨j, hjm, rfl⟩ := List.mem_map.1 (hin t h)
      exact C53_recorded_partial o primary j.name (info j.name) j.on (fun c hc => (hj.on j hjm c hc).2.2) (parseJoins_mem primary hj.names hi j hjm))
    (fun _ _ => .null) (fun _ _ => rfl)
  refine ⟨c, ?_⟩
  unfold JoinSelect.compileE
  rw [if_pos hcond]
  simp only
  rw [hch, Option.bind_some, hc]

end Verif.Props.Accept

namespace Verif.Props
open Verif.Val Verif.Expr Verif.Where Verif.Select Verif.AcceptSpec Verif.Join Verif.Proofs.JoinSelect Accept

variable {S : Type} (py : Py) (calls : Str → List Val → Val)

/-- C157: every query on one table whose HAVING, ORDER BY and GROUP BY are as they should be is accepted: any number of columns,
expressions, aggregates, whatever WHERE, LIMIT and DISTINCT. -/
theorem C157_select_accepted (q : Query S) (hq : QueryOk q) : ∃ p, Select.compileSelect q = some p := by
  have h := select_some (S := S) (fun e => some (compile e)) { q with prim := JoinSelect.isPrim }
    ⟨hq.having, hq.order, hq.group⟩ (fun _ => ⟨_, rfl⟩) (fun _ _ => ⟨_, rfl⟩) (fun _ _ _ _ => ⟨_, rfl⟩)
  obtain ⟨p, hp⟩ := h
  obtain ⟨p0, hp0, _⟩ := compile_rel (cc := fun e => some (compile e)) (ev := fun _ _ => Val.null) (ev0 := fun _ _ => Val.null) (fun _ _ _ => rfl) _ _ hp
  simp only [Select.compileSelect, Option.bind_eq_some_iff, Option.map_eq_some_iff] at hp0 ⊢
  obtain ⟨s, h1, i, h2, od, h3, f, h4, _⟩ := hp0
  exact ⟨_, s, h1, i, h2, od, h3, f, h4, rfl⟩

/-- C157: every query with LEFT JOINs is accepted when, moreover, its ON conditions are as C53 asks, name their tables, refer to tables
before them only, no column of a table is equated twice, and BETWEEN is not used with columns of joined tables; the recursion over the
tables takes no more than two steps more than there are joins, in whatever order Python enumerates them. -/
theorem C157_join_accepted (o : Ops Val) (order : List Join.Name → List Join.Name) (ho : ∀ l, (order l).Perm l) (q : Query S)
    (joins : List (Join Val)) (hj : JoinsOk o (String.ofList q.table) joins)
    (hon : ∀ j ∈ joins, (∀ c ∈ j.on, ∀ r ∈ condFields c, r.table ≠ none) ∧ (j.on.filterMap (keyColumn j.name)).Nodup)
    (hu : ∀ j ∈ joins, Used q joins j.name) (hq : QueryOk q) (he : ExprsOk q joins) (fuel : Nat) (hf : joins.length + 2 ≤ fuel) :
    ∃ p, JoinSelect.compile py calls o order fuel joins q = some p := by
  obtain ⟨info, hi⟩ := parseJoins_some o joins fun j h => C53_accepted o j.name j.on (hon j h).1 (hon j h).2
  have hk : (joins.all (fun j => JoinSelect.keyFound info joins q j && JoinSelect.refsKnown info (String.ofList q.table) (joins.map (·.name)) j) &&
      JoinSelect.condKnown (joins.map (·.name)) q.cond) = true := by
    rw [Bool.and_eq_true]
    refine ⟨List.all_eq_true.2 fun j hjm => ?_, ?_⟩
    · rw [JoinSelect.keyFound, (mentions_iff joins q j.name).2 (hu j hjm), Bool.or_true, Bool.true_and]
      exact List.all_eq_true.2 fun t ht => decide_eq_true (refs_left o (String.ofList q.table) joins hj info hi j.name t ht).1
    · refine List.all_eq_true.2 fun e h => List.all_eq_true.2 fun t ht => decide_eq_true ?_
      simp only [JoinSelect.tablesOf, List.mem_eraseDups, List.mem_filterMap] at ht
      obtain ⟨c, hc, ht⟩ := ht
      exact (he e (.cond (Option.mem_toList.1 h))).1 c t ((cols_parts e c).1 hc) ht
  rw [JoinSelect.compile, hi, Option.bind_some, if_pos hk]
  have hc : ∀ e, ExprOf q e → ∃ k, JoinSelect.compileE py calls ⟨String.ofList q.table, joins.map (·.name), info, order, fuel⟩ e = some k := by
    intro e h
    obtain ⟨h1, h2⟩ := he e h
    refine compileE_some py calls o _ joins hj info hi order ho fuel hf e (fun c t h => h1 c t ((cols_parts e c).1 h)) ?_
    rintro ⟨hb, c, t, hcol, ht⟩
    exact h2 ⟨(between_parts e).1 hb, c, t, (cols_parts e c).1 hcol, ht⟩
  refine select_some _ q hq (fun v => ?_) (fun e h => hc e ?_) (fun e r hcond hr => ?_)
  · exact compileE_some py calls o _ joins hj info hi order ho fuel hf (.lit v) (fun c t h => by simp [colsE] at h)
      (by rintro ⟨h, _⟩; simp [JoinSelect.hasBetween] at h)
  · cases h with
    | column h => exact .column h
    | arg h ha => exact .arg h ha
    | key h => exact .key h
    | name h => exact .name h
    | cond h => cases h
  · obtain ⟨h1, h2⟩ := he e (.cond hcond)
    have hp := (split_parts JoinSelect.isPrim e []).2 r hr
    refine compileE_some py calls o _ joins hj info hi order ho fuel hf r
      (fun c t h => h1 c t (hp _ ((cols_parts r c).1 h) (.inl ⟨c, rfl⟩))) ?_
    rintro ⟨hb, c, t, hcol, ht⟩
    obtain ⟨a, lo, hi', hb⟩ := (between_parts r).1 hb
    exact h2 ⟨⟨a, lo, hi', hp _ hb (.inr ⟨a, lo, hi', rfl⟩)⟩, c, t, hp _ ((cols_parts r c).1 hcol) (.inl ⟨c, rfl⟩), ht⟩

theorem own_mentioned {own k : Join.Name} {x : X Val} (h : ownCol own x = some k) : ∃ r ∈ fields x, r.table = some own := by
  cases x with
  | col a =>
    simp only [ownCol] at h
    split at h
    · next e => exact ⟨a, List.mem_singleton.2 rfl, e⟩
    · cases h
  | _ => cases h

/-- Conditions without columns of the joined table give it no key. -/
theorem noKey_unmentioned (o : Ops Val) (own : Join.Name) (cs : List (Cond Val)) (hc : ∀ c ∈ cs, ∀ r ∈ condFields c, r.table ≠ some own)
    (s t : Table Val) (h : parseOn o own s cs = some t) : t.keys = s.keys := by
  have hO : ∀ (s t : Table Val) (c : Cond Val) (l r : X Val) (q : Val → Val → Bool), addOther o own s c l r q = some t → t.keys = s.keys := by
    intro s t c l r q h
    cases l with
    | col a =>
      simp only [addOther] at h
      split at h
      · cases h
      · split at h <;> (cases h; rfl)
    | _ => cases h; rfl
  induction cs generalizing s with
  | nil => cases h; rfl
  | cons c cs ih =>
    obtain ⟨s', hs, h⟩ := Option.bind_eq_some_iff.1 h
    rw [ih (fun c hm => hc c (List.mem_cons_of_mem _ hm)) s' h]
    have hf := hc c List.mem_cons_self
    cases c with
    | cmp op l r =>
      simp only [parseCond] at hs
      split at hs
      · split at hs
        · next k hk =>
          obtain ⟨x, hx, he⟩ := own_mentioned hk
          exact absurd he (hf x (List.mem_append_left _ hx))
        · split at hs
          · next k hk =>
            obtain ⟨x, hx, he⟩ := own_mentioned hk
            exact absurd he (hf x (List.mem_append_right _ hx))
          · exact hO _ _ _ _ _ _ hs
      · exact hO _ _ _ _ _ _ hs
    | isin l vs =>
      cases l with
      | col a =>
        simp only [parseCond] at hs
        split at hs <;> (cases hs; try rfl)
      | _ => cases hs; rfl
    | other x => cases hs; rfl

/-- C157 is violated by a joined table that the query does not use: `SELECT a.x FROM a LEFT JOIN b ON 1 = 1` and `SELECT a.x FROM a, b`
are refused.  (`C157_join_accepted` has no other condition about this, so the queries with the right ON are refused for this
exactly.) -/
theorem C157_unused_violated (o : Ops Val) (order : List Join.Name → List Join.Name) (fuel : Nat) (q : Query S) (joins : List (Join Val))
    (j : Join Val) (hj : j ∈ joins) (hu : ¬ Used q joins j.name) : JoinSelect.compile py calls o order fuel joins q = none := by
  rw [Option.eq_none_iff_forall_ne_some]
  intro p hp
  obtain ⟨info, hi, hp⟩ := Option.bind_eq_some_iff.1 hp
  have hkeys : ∀ (js : List (Join Val)) (info : Join.Name → Table Val), JoinSelect.parseJoins o js = some info →
      (∀ k ∈ js, k ∈ joins) → (info j.name).keys = [] := by
    intro js
    induction js with
    | nil => intro info h _; cases h; rfl
    | cons k js ih =>
      intro info h hk
      obtain ⟨t, ht, h⟩ := Option.bind_eq_some_iff.1 h
      obtain ⟨rest, hr, rfl⟩ := Option.map_eq_some_iff.1 h
      show (if j.name = k.name then t else rest j.name).keys = []
      split
      · next e => exact noKey_unmentioned o k.name k.on (fun c hc r hr' he => hu (.inl ⟨k, hk k List.mem_cons_self, c, hc, r, hr', by rw [e]; exact he⟩)) _ _ ht
      · exact ih rest hr fun k' h' => hk k' (List.mem_cons_of_mem _ h')
  split at hp
  · next hall =>
    have := ((Bool.and_eq_true _ _).mp (List.all_eq_true.1 ((Bool.and_eq_true _ _).mp hall).1 j hj)).1
    rw [JoinSelect.keyFound, hkeys joins info hi fun _ h => h] at this
    exact hu ((mentions_iff joins q j.name).1 this)
  · cases hp

/-- Expressions with BETWEEN and columns of joined tables, and only these, are outside of the model of queries with joins (what becomes
of them is `C122_between_violated`): no theorem about compiled queries speaks of them. -/
theorem C157_between_excluded (cx : JoinSelect.Ctx) (e : E) (hb : Between e) (hj : Joined e) : JoinSelect.compileE py calls cx e = none := by
  unfold JoinSelect.compileE
  rw [if_neg]
  intro h
  rw [Bool.and_eq_true] at h
  have h2 := h.2
  rw [(between_parts e).2 hb] at h2
  obtain ⟨c, t, hc, ht⟩ := hj
  have : t ∈ JoinSelect.tablesOf e := by
    simp only [JoinSelect.tablesOf, List.mem_eraseDups, List.mem_filterMap]
    exact ⟨c, (cols_parts e c).2 hc, ht⟩
  cases hl : JoinSelect.tablesOf e with
  | nil => rw [hl] at this; cases this
  | cons a l => rw [hl] at h2; simp at h2

end Verif.Props
