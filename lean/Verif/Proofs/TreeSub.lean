import Verif.Spec.Tree
import Verif.Props.Where
/-! The WHERE clauses of `Model.Tree` are compiled to what `Model.SubOperand` compiles them to. -/
namespace Verif.Props.TreeLemmas
open Verif.Val Verif.Expr Verif.Where Verif.Tree

/-- A subquery that is compared has one row at most. -/
def Singles : SubOperand.S → Prop
  | .and a b => Singles a ∧ Singles b
  | .or a b => Singles a ∧ Singles b
  | .not a => Singles a
  | .paren a => Singles a
  | .cmpSub _ _ s => s.rows.length ≤ 1
  | .subCmp _ s _ => s.rows.length ≤ 1
  | .e _ => True
  | .inSub _ _ => True
  | .exist _ => True

theorem compile_known (s : SubOperand.Sub) : compile (known (s.values.headD .null)) = SubOperand.first s := by
  simp only [known, compile, SubOperand.first]

theorem operand_first (s : SubOperand.Sub) (h : s.rows.length ≤ 1) : SubOperand.operand s = SubOperand.first s := by
  have hv : s.values.length ≤ 1 := by simpa [SubOperand.Sub.values] using h
  unfold SubOperand.operand
  split
  · rename_i a b l he; rw [he] at hv; simp at hv
  · rfl

theorem compile_lits (l : List Val) : compileL (lits l) = SubOperand.consts l := by
  induction l with
  | nil => rfl
  | cons v l ih => simp only [lits, compileL, SubOperand.consts, ih, compile]

theorem compile_asE (s : SubOperand.S) (h : Singles s) : compile (asE s) = SubOperand.compileS s := by
  induction s with
  | e x => rfl
  | and a b iha ihb => simp only [asE, compile, SubOperand.compileS, iha h.1, ihb h.2]
  | or a b iha ihb => simp only [asE, compile, SubOperand.compileS, iha h.1, ihb h.2]
  | not a ih =>
    by_cases he : ∃ x, a = .e x
    · obtain ⟨x, rfl⟩ := he
      simp only [asE, SubOperand.compileS]
    · have hn : SubOperand.compileS (.not a) = .not (SubOperand.compileS a) := by
        cases a with
        | e x => exact absurd ⟨x, rfl⟩ he
        | _ => rfl
      rw [asE, hn, compile_not _ (fun x w hx => ?_), ih h]
      cases a with
      | e y => exact he ⟨y, rfl⟩
      | _ => simp only [asE] at hx; cases hx
  | paren a ih => simpa only [asE, compile, SubOperand.compileS] using ih h
  | cmpSub op a s => simp only [asE, compile, SubOperand.compileS, compile_known, operand_first s h]
  | subCmp op s a => simp only [asE, compile, SubOperand.compileS, compile_known, operand_first s h]
  | inSub a s => simp only [asE, compile, SubOperand.compileS, compile_lits]
  | exist s => simp only [asE, compile, SubOperand.compileS]

theorem asE_split (prim : Str → Bool) (s : SubOperand.S) (h : Singles s) (qs : Querys) :
    Where.split prim qs (asE s) = ⟨(SubOperand.split prim qs s).res.map asE, asE (SubOperand.split prim qs s).tree,
      (SubOperand.split prim qs s).querys⟩ ∧ (∀ x, (SubOperand.split prim qs s).res = some x → Singles x) ∧
    Singles (SubOperand.split prim qs s).tree := by
  induction s generalizing qs with
  | e x =>
    refine ⟨?_, ?_, trivial⟩
    · simp only [asE, SubOperand.split]
      cases hr : (Where.split prim qs x).res with
      | none => simp only [Option.map_none]; rw [← hr]
      | some y => simp only [Option.map_some, asE]; rw [← hr]
    · intro y hy
      simp only [SubOperand.split, Option.map_eq_some_iff] at hy
      obtain ⟨z, _, rfl⟩ := hy
      trivial
  | and a b iha ihb =>
    obtain ⟨h1, h2, h3⟩ := iha h.1 qs
    obtain ⟨g1, g2, g3⟩ := ihb h.2 (SubOperand.split prim qs a).querys
    simp only [asE, Where.split, SubOperand.split, h1, g1]
    refine ⟨?_, ?_, h3, g3⟩
    · cases (SubOperand.split prim qs a).res <;>
        cases (SubOperand.split prim (SubOperand.split prim qs a).querys b).res <;> rfl
    · intro x hx
      cases hl : (SubOperand.split prim qs a).res <;>
        cases hr : (SubOperand.split prim (SubOperand.split prim qs a).querys b).res <;> rw [hl, hr] at hx <;> cases hx
      · exact g2 _ hr
      · exact h2 _ hl
      · exact ⟨h3, g3⟩
  | or a b => exact ⟨rfl, fun x hx => by cases hx; exact h, h⟩
  | not a => exact ⟨rfl, fun x hx => by cases hx; exact h, h⟩
  | exist s => exact ⟨rfl, fun x hx => by cases hx; exact h, h⟩
  | paren a ih =>
    obtain ⟨h1, h2, h3⟩ := ih h qs
    simp only [asE, Where.split, SubOperand.split, h1]
    exact ⟨trivial, h2, h3⟩
  | cmpSub op a s =>
    have hp : parseCondition prim a (known (s.values.headD .null)) = (SubOperand.pushes prim a).map fun c => (c, SubOperand.first s) := by
      rw [← compile_known]
      cases a with
      | col c => cases h : prim c <;> simp [parseCondition, SubOperand.pushes, known, hasCol, h]
      | _ => rfl
    simp only [asE, Where.split, SubOperand.split, hp]
    cases SubOperand.pushes prim a with
    | none => exact ⟨rfl, fun x hx => by cases hx; exact h, h⟩
    | some c => exact ⟨rfl, fun x hx => by (cases hx), trivial⟩
  | subCmp op s a =>
    have hp : parseCondition prim (known (s.values.headD .null)) a = (SubOperand.pushes prim a).map fun c => (c, SubOperand.first s) := by
      rw [← compile_known]
      cases a with
      | col c => cases h : prim c <;> simp [parseCondition, SubOperand.pushes, known, hasCol, h]
      | _ => rfl
    simp only [asE, Where.split, SubOperand.split, hp]
    cases SubOperand.pushes prim a with
    | none => exact ⟨rfl, fun x hx => by cases hx; exact h, h⟩
    | some c => exact ⟨rfl, fun x hx => by (cases hx), trivial⟩
  | inSub a s =>
    have hp : parseIn prim a (lits s.values) = (SubOperand.pushes prim a).map fun c => (c, SubOperand.consts s.values) := by
      cases a with
      | col c => cases h : prim c <;> simp [parseIn, SubOperand.pushes, compile_lits, h]
      | _ => rfl
    simp only [asE, Where.split, SubOperand.split, hp]
    cases SubOperand.pushes prim a with
    | none => exact ⟨rfl, fun x hx => by cases hx; exact h, h⟩
    | some c => exact ⟨rfl, fun x hx => by (cases hx), trivial⟩

/-- The clause is compiled to what `SubOperand` compiles it to. -/
theorem asE_compile (prim : Str → Bool) (s : SubOperand.S) (h : Singles s) :
    Where.compileWhere prim (asE s) = SubOperand.compileWhere prim s := by
  obtain ⟨h1, h2, _⟩ := asE_split prim s h []
  simp only [Where.compileWhere, SubOperand.compileWhere, h1]
  cases hr : (SubOperand.split prim [] s).res with
  | none => rfl
  | some x => simp only [Option.map_some, compile_asE x (h2 x hr)]

/-! ### Whether a statement compiles does not depend on the rows of its subqueries -/

/-- A value, as a constant or as one that is known. -/
inductive Fixed : E → Prop where
  | lit (v : Val) : Fixed (.lit v)
  | known (v : Val) : Fixed (known v)

/-- Clauses that differ in what is known of their subqueries. -/
inductive Like : E → E → Prop where
  | refl (e : E) : Like e e
  | and {a a' b b' : E} : Like a a' → Like b b' → Like (.and a b) (.and a' b')
  | or {a a' b b' : E} : Like a a' → Like b b' → Like (.or a b) (.or a' b')
  | not {a a' : E} : Like a a' → Like (.not a) (.not a')
  | paren {a a' : E} : Like a a' → Like (.paren a) (.paren a')
  | right (op : Cmp) (a : E) {b b' : E} : Fixed b → Fixed b' → Like (.cmp op a b) (.cmp op a b')
  | left (op : Cmp) (a : E) {b b' : E} : Fixed b → Fixed b' → Like (.cmp op b a) (.cmp op b' a)
  | inl (a : E) (l l' : List Val) : Like (.inl a (lits l)) (.inl a (lits l'))
  | exist (v v' : Val) : Like (.lit v) (.lit v')

theorem asE_like (s s' : Nat → SubOperand.Sub) (w : Cond) : Like (asE (w.toS s)) (asE (w.toS s')) := by
  induction w with
  | e x => exact .refl x
  | and a b iha ihb => exact .and iha ihb
  | or a b iha ihb => exact .or iha ihb
  | not a ih => exact .not ih
  | paren a ih => exact .paren ih
  | cmpSub op a i => exact .right op a (.known _) (.known _)
  | subCmp op i a => exact .left op a (.known _) (.known _)
  | inSub a i => exact .inl a _ _
  | exist i => exact .exist _ _

theorem listOf_eq (l : List Val) : SqlTree.listOf l = lits l := by
  induction l with
  | nil => rfl
  | cons v l ih => rw [SqlTree.listOf, lits, ih]

theorem given_like (vals : Nat → List Val) (s : Nat → SubOperand.Sub) (w : Cond) : Like (SqlTree.given vals w) (asE (w.toS s)) := by
  induction w with
  | e x => exact .refl x
  | and a b iha ihb => exact .and iha ihb
  | or a b iha ihb => exact .or iha ihb
  | not a ih => exact .not ih
  | paren a ih => exact .paren ih
  | cmpSub op a i => exact .right op a (.lit _) (.known _)
  | subCmp op i a => exact .left op a (.lit _) (.known _)
  | inSub a i =>
    rw [SqlTree.given, listOf_eq]
    exact .inl a _ _
  | exist i => exact .exist _ _

theorem lits_cols (l : List Val) : Select.colsEL (lits l) = [] ∧ JoinSelect.hasBetweenL (lits l) = false := by
  induction l with
  | nil => exact ⟨rfl, rfl⟩
  | cons v l ih => simp only [lits, Select.colsEL, Select.colsE, JoinSelect.hasBetweenL, JoinSelect.hasBetween, ih.1, ih.2]; exact ⟨rfl, rfl⟩

theorem Like.cols {e e' : E} (h : Like e e') : Select.colsE e = Select.colsE e' ∧ JoinSelect.hasBetween e = JoinSelect.hasBetween e' := by
  induction h with
  | refl e => exact ⟨rfl, rfl⟩
  | and _ _ iha ihb => simp only [Select.colsE, JoinSelect.hasBetween, iha.1, ihb.1, iha.2, ihb.2, and_self]
  | or _ _ iha ihb => simp only [Select.colsE, JoinSelect.hasBetween, iha.1, ihb.1, iha.2, ihb.2, and_self]
  | not _ ih => simpa only [Select.colsE, JoinSelect.hasBetween] using ih
  | paren _ ih => simpa only [Select.colsE, JoinSelect.hasBetween] using ih
  | right op a hb hb' => cases hb <;> cases hb' <;> exact ⟨rfl, rfl⟩
  | left op a hb hb' => cases hb <;> cases hb' <;> exact ⟨rfl, rfl⟩
  | inl a l l' => simp only [Select.colsE, JoinSelect.hasBetween, (lits_cols l).1, (lits_cols l').1, (lits_cols l).2, (lits_cols l').2, and_self]
  | exist n n' => exact ⟨rfl, rfl⟩

/-- What is left of a clause does not depend on the conditions pushed before. -/
theorem split_indep (prim : Str → Bool) (e : E) (qs qs' : Querys) :
    (Where.split prim qs e).res = (Where.split prim qs' e).res ∧ (Where.split prim qs e).tree = (Where.split prim qs' e).tree := by
  fun_induction Where.split prim qs e generalizing qs' with
  | case1 qs a b l r tree iha ihb =>
    obtain ⟨h1, h2⟩ := iha qs'
    obtain ⟨g1, g2⟩ := ihb (Where.split prim qs' a).querys
    simp only [Where.split]
    rw [show tree = E.and l.tree r.tree from rfl, show l.res = _ from h1, show l.tree = _ from h2, show r.res = _ from g1,
      show r.tree = _ from g2]
    exact ⟨rfl, rfl⟩
  | case2 qs op a b c t hp => simp only [Where.split, hp, and_self]
  | case3 qs op a b hp => simp only [Where.split, hp, and_self]
  | case4 qs a l c t hp => simp only [Where.split, hp, and_self]
  | case5 qs a l hp => simp only [Where.split, hp, and_self]
  | case6 qs a x ih =>
    obtain ⟨h1, h2⟩ := ih qs'
    simp only [Where.split]
    exact ⟨h1, by rw [show x.tree = _ from h2]⟩
  | case7 qs e h1 h2 h3 h4 =>
    cases e with
    | and a b => exact absurd rfl (h1 a b)
    | cmp op a b => exact absurd rfl (h2 op a b)
    | inl a l => exact absurd rfl (h3 a l)
    | paren a => exact absurd rfl (h4 a)
    | _ => exact ⟨rfl, rfl⟩

/-- Alike, or both nothing. -/
inductive LikeO : Option E → Option E → Prop where
  | none : LikeO none none
  | some {e e' : E} : Like e e' → LikeO (some e) (some e')

theorem LikeO.refl (x : Option E) : LikeO x x := by
  cases x with
  | none => exact .none
  | some e => exact .some (.refl e)

theorem split_like (prim : Str → Bool) {e e' : E} (h : Like e e') (qs qs' : Querys) :
    LikeO (Where.split prim qs e).res (Where.split prim qs' e').res ∧ Like (Where.split prim qs e).tree (Where.split prim qs' e').tree := by
  induction h generalizing qs qs' with
  | refl e =>
    obtain ⟨h1, h2⟩ := split_indep prim e qs qs'
    rw [h1, h2]
    exact ⟨.refl _, .refl _⟩
  | @and a a' b b' ha hb iha ihb =>
    obtain ⟨h1, h2⟩ := iha qs qs'
    obtain ⟨g1, g2⟩ := ihb (Where.split prim qs a).querys (Where.split prim qs' a').querys
    simp only [Where.split]
    refine ⟨?_, .and h2 g2⟩
    generalize (Where.split prim qs a).res = r1 at h1
    generalize (Where.split prim qs' a').res = r2 at h1
    generalize (Where.split prim (Where.split prim qs a).querys b).res = r3 at g1
    generalize (Where.split prim (Where.split prim qs' a').querys b').res = r4 at g1
    cases h1 with
    | none => cases g1 with
      | none => exact .none
      | some g => exact .some g
    | some h => cases g1 with
      | none => exact .some h
      | some g => exact .some (.and h2 g2)
  | or ha hb => exact ⟨.some (.or ha hb), .or ha hb⟩
  | not ha => exact ⟨.some (.not ha), .not ha⟩
  | paren ha ih =>
    obtain ⟨h1, h2⟩ := ih qs qs'
    simp only [Where.split]
    exact ⟨h1, .paren h2⟩
  | right op a hb hb' =>
    have hp : ∀ b, Fixed b → parseCondition prim a b = (SubOperand.pushes prim a).map fun c => (c, compile b) := by
      intro b hb
      cases a with
      | col c => cases hb <;> cases h : prim c <;> simp [parseCondition, SubOperand.pushes, known, hasCol, h]
      | _ => cases hb <;> rfl
    simp only [Where.split, hp _ hb, hp _ hb']
    cases SubOperand.pushes prim a with
    | none => exact ⟨.some (.right op a hb hb'), .right op a hb hb'⟩
    | some c => exact ⟨.none, .refl _⟩
  | left op a hb hb' =>
    have hp : ∀ b, Fixed b → parseCondition prim b a = (SubOperand.pushes prim a).map fun c => (c, compile b) := by
      intro b hb
      cases a with
      | col c => cases hb <;> cases h : prim c <;> simp [parseCondition, SubOperand.pushes, known, hasCol, h]
      | _ => cases hb <;> rfl
    simp only [Where.split, hp _ hb, hp _ hb']
    cases SubOperand.pushes prim a with
    | none => exact ⟨.some (.left op a hb hb'), .left op a hb hb'⟩
    | some c => exact ⟨.none, .refl _⟩
  | inl a l l' =>
    have hp : ∀ l, parseIn prim a (lits l) = (SubOperand.pushes prim a).map fun c => (c, compileL (lits l)) := by
      intro l
      cases a with
      | col c => cases h : prim c <;> simp [parseIn, SubOperand.pushes, h]
      | _ => rfl
    simp only [Where.split, hp]
    cases SubOperand.pushes prim a with
    | none => exact ⟨.some (.inl ..), .inl ..⟩
    | some c => exact ⟨.none, .refl _⟩
  | exist n n' => exact ⟨.some (.exist ..), .exist ..⟩

section
variable {S : Type} (py : Py) (calls : Str → List Val → Val)

theorem compileJoin_some (primary : Join.Name) (info : Join.Name → Join.Table Val) (tables : List Join.Name) (y y' : Join.Y Val) (n : Nat) :
    (Join.compileJoin primary info tables y n).isSome = (Join.compileJoin primary info tables y' n).isSome := by
  induction n with
  | zero => rfl
  | succ n ih =>
    simp only [Join.compileJoin]
    cases h : Join.compileJoin primary info tables y n with
    | none =>
      rw [h] at ih
      cases h' : Join.compileJoin primary info tables y' n with
      | none => rfl
      | some _ => rw [h'] at ih; cases ih
    | some c =>
      rw [h] at ih
      cases h' : Join.compileJoin primary info tables y' n with
      | none => rw [h'] at ih; cases ih
      | some c' =>
        simp only [bind, Option.bind_some]
        cases Join.mapAll (fun kx => (Join.compileX primary tables (n + 1) kx.2).map fun y => (kx.1, y)) (info (tables.getD n "")).keys with
        | none => rfl
        | some ks =>
          cases Join.mapAll (Join.compileX primary tables n) (info (tables.getD n "")).having <;> rfl

theorem compileE_like (cx : JoinSelect.Ctx) {e e' : E} (h : Like e e') :
    (JoinSelect.compileE py calls cx e).isSome = (JoinSelect.compileE py calls cx e').isSome := by
  have ht : JoinSelect.tablesOf e = JoinSelect.tablesOf e' := by simp only [JoinSelect.tablesOf, h.cols.1]
  simp only [JoinSelect.compileE, ht, h.cols.2]
  split
  · cases Join.chain (fun t => Join.refs cx.primary (cx.info t)) cx.order cx.fuel (cx.order (JoinSelect.tablesOf e')) [] with
    | none => rfl
    | some tables =>
      simp only [Option.bind_some, Join.compileColumn, JoinSelect.exprX, Join.compileX, h.cols.1]
      cases Join.mapAll (fun r => (Join.depth cx.primary tables 0 r).map fun d => (d, r.col)) ((Select.colsE e').map JoinSelect.refOf) with
      | none => rfl
      | some ds => exact compileJoin_some cx.primary cx.info tables _ _ _
  · rfl

theorem joinSelect_like {K : Type} (cc : E → Option K) (q : Select.Query S) {c c' : Option E}
    (hc : ∀ e e', Like e e' → (cc e).isSome = (cc e').isSome) (h : LikeO c c') :
    (JoinSelect.compileSelect cc { q with cond := c }).isSome = (JoinSelect.compileSelect cc { q with cond := c' }).isSome := by
  have hw : (JoinSelect.whereOf cc { q with cond := c }).isSome = (JoinSelect.whereOf cc { q with cond := c' }).isSome := by
    cases h with
    | none => rfl
    | @some e e' h =>
      obtain ⟨h1, _⟩ := split_like JoinSelect.isPrim h [] []
      simp only [JoinSelect.whereOf]
      generalize (Where.split JoinSelect.isPrim [] e).querys = q1
      generalize (Where.split JoinSelect.isPrim [] e').querys = q2
      generalize (Where.split JoinSelect.isPrim [] e).res = r1 at h1
      generalize (Where.split JoinSelect.isPrim [] e').res = r2 at h1
      cases h1 with
      | none => rfl
      | some h1 => simp only [Option.isSome_map, hc _ _ h1]
  simp only [JoinSelect.compileSelect]
  cases JoinSelect.addCols cc q.group [] q.cols with
  | none => rfl
  | some schema =>
    simp only [Option.bind_some]
    cases h1 : JoinSelect.whereOf cc { q with cond := c } with
    | none =>
      rw [h1] at hw
      cases h2 : JoinSelect.whereOf cc { q with cond := c' } with
      | none => rfl
      | some _ => rw [h2] at hw; cases hw
    | some w =>
      rw [h1] at hw
      cases h2 : JoinSelect.whereOf cc { q with cond := c' } with
      | none => rw [h2] at hw; cases hw
      | some w' =>
        simp only [Option.bind_some]
        cases Select.compileIntercept (schema.map (·.1)) q.having with
        | none => rfl
        | some i =>
          simp only [Option.bind_some]
          cases Order.compile ⟨schema.map (·.1), q.columns, q.table, q.aliased, JoinSelect.aggNames schema⟩ q.order with
          | none => rfl
          | some ord =>
            simp only [Option.bind_some, Option.isSome_map]
            rfl

theorem andAll_like (rs : List Join.Ref) {e e' : E} (h : Like e e') : Like (JoinSelect.andAll e rs) (JoinSelect.andAll e' rs) := by
  unfold JoinSelect.andAll
  induction rs generalizing e e' with
  | nil => exact h
  | cons r rs ih => exact ih (.and h (.refl _))

theorem innerWhere_like (rs : List Join.Ref) {e e' : E} (h : Like e e') :
    LikeO (JoinSelect.innerWhere (some e) rs) (JoinSelect.innerWhere (some e') rs) := by
  cases h with
  | refl e => exact .refl _
  | or ha hb => exact .some (andAll_like rs (.paren (.or ha hb)))
  | and ha hb => exact .some (andAll_like rs (.and ha hb))
  | not ha => exact .some (andAll_like rs (.not ha))
  | paren ha => exact .some (andAll_like rs (.paren ha))
  | right op a hb hb' => exact .some (andAll_like rs (.right op a hb hb'))
  | left op a hb hb' => exact .some (andAll_like rs (.left op a hb hb'))
  | inl a l l' => exact .some (andAll_like rs (.inl a l l'))
  | exist n n' => exact .some (andAll_like rs (.exist n n'))

theorem any_append_congr {α : Type} (p : α → Bool) {a a' b b' : List α} (h : a.any p = a'.any p) (h' : b.any p = b'.any p) :
    (a ++ b).any p = (a' ++ b').any p := by rw [List.any_append, List.any_append, h, h']

theorem tables_like {e e' : E} (h : Like e e') : JoinSelect.tablesOf e = JoinSelect.tablesOf e' := by
  simp only [JoinSelect.tablesOf, h.cols.1]

theorem mentions_cond (js : List (Join.Join Val)) (q : Select.Query S) {c c' : Option E} (h : LikeO c c') (t : Join.Name) :
    JoinSelect.mentions js { q with cond := c } t = JoinSelect.mentions js { q with cond := c' } t := by
  simp only [JoinSelect.mentions, JoinSelect.exprsOf]
  congr 2
  refine any_append_congr _ rfl (any_append_congr _ ?_ rfl)
  cases h with
  | none => rfl
  | some h => simp only [Option.toList_some, List.any_cons, List.any_nil, tables_like h]

theorem mentions_having (js : List (Join.Join Val)) (q : Select.Query S) {e e' : E} (h : Like e e') (t : Join.Name) :
    JoinSelect.mentions js { q with having := some e } t = JoinSelect.mentions js { q with having := some e' } t := by
  simp only [JoinSelect.mentions, JoinSelect.exprsOf]
  congr 2
  refine any_append_congr _ rfl (any_append_congr _ rfl ?_)
  simp only [Option.toList_some, List.any_cons, List.any_nil, tables_like h]

theorem joins_like (o : Join.Ops Val) (order : List Join.Name → List Join.Name) (fuel : Nat) (joins : List (Join.Join Val))
    (q : Select.Query S) {e e' : E} (h : Like e e') :
    (JoinSelect.compileJoins py calls o order fuel joins { q with cond := some e }).isSome =
      (JoinSelect.compileJoins py calls o order fuel joins { q with cond := some e' }).isSome := by
  simp only [JoinSelect.compileJoins, JoinSelect.rewriteInner]
  have key : ∀ (js : List (Join.Join Val)) (c c' : Option E), LikeO c c' →
      (JoinSelect.compile py calls o order fuel js { q with cond := c }).isSome =
        (JoinSelect.compile py calls o order fuel js { q with cond := c' }).isSome := by
    intro js c c' hc
    simp only [JoinSelect.compile]
    cases JoinSelect.parseJoins o js with
    | none => rfl
    | some info =>
      have hk : JoinSelect.keyFound info js { q with cond := c } = JoinSelect.keyFound info js { q with cond := c' } := by
        funext j
        rw [JoinSelect.keyFound, JoinSelect.keyFound, mentions_cond js q hc]
      have hc' : JoinSelect.condKnown (js.map (·.name)) c = JoinSelect.condKnown (js.map (·.name)) c' := by
        cases hc with
        | none => rfl
        | some h => simp only [JoinSelect.condKnown, Option.toList_some, List.all_cons, List.all_nil, tables_like h]
      simp only [Option.bind_some, hk, hc']
      split
      · exact joinSelect_like _ q (fun e e' h => compileE_like py calls _ h) hc
      · rfl
  by_cases h1 : (joins.any fun j => decide (j.kind = .inner)) = true
  · by_cases h2 : Join.innerFields (String.ofList q.table) joins = []
    · simp only [h1, h2, if_true, Option.isSome_none]
    · simp only [h1, h2, if_true, if_false]
      split
      · rfl
      · exact key _ _ _ (innerWhere_like _ h)
  · simp only [h1, Bool.false_eq_true, if_false]
    exact key joins _ _ (.some h)

/-- A condition that is no comparison goes to no ON. -/
theorem multiJoins_other (cs : List (Join.Cond Val)) (x : Join.X Val) (can ts : List Join.Name) :
    Join.multiJoins (cs ++ [.other x]) can ts = Join.multiJoins cs can ts := by
  induction ts generalizing can with
  | nil => rfl
  | cons t ts ih =>
    rw [Join.multiJoins, Join.multiJoins, ih, List.filter_append]
    simp [Join.toOn]

theorem where_snoc (primary : Join.Name) (w : List JoinSelect.Conj) (e : E) :
    JoinSelect.whereE primary (w ++ [.other e]) = some (match JoinSelect.whereE primary w with | none => e | some a => .and a e) := by
  cases w with
  | nil => rfl
  | cons c w => simp [JoinSelect.whereE, List.foldl_append, JoinSelect.Conj.toE]

theorem from_like (o : Join.Ops Val) (order : List Join.Name → List Join.Name) (fuel : Nat) (ts : List Join.Name) (w : List JoinSelect.Conj)
    (q : Select.Query S) {e e' : E} (h : Like e e') :
    (JoinSelect.compileFrom py calls o order fuel ts [] (w ++ [.other e]) q).isSome =
      (JoinSelect.compileFrom py calls o order fuel ts [] (w ++ [.other e']) q).isSome := by
  simp only [JoinSelect.compileFrom, List.map_append, List.map_cons, List.map_nil, JoinSelect.Conj.toCond, multiJoins_other, where_snoc]
  refine joins_like py calls o order fuel _ q ?_
  cases JoinSelect.whereE (String.ofList q.table) w with
  | none => exact h
  | some a => exact .and (.refl a) h

theorem select_cond (q : Select.Query S) (c c' : Option E) :
    (Select.compileSelect { q with cond := c }).isSome = (Select.compileSelect { q with cond := c' }).isSome := by
  simp only [Select.compileSelect]
  cases Select.addCols q.group [] q.cols with
  | none => rfl
  | some schema =>
    simp only [Option.bind_some]
    cases Select.compileIntercept (schema.map (·.1)) q.having with
    | none => rfl
    | some i =>
      simp only [Option.bind_some]
      cases Order.compile ⟨schema.map (·.1), q.columns, q.table, q.aliased, Select.aggNames schema⟩ q.order with
      | none => rfl
      | some ord =>
        simp only [Option.bind_some, Option.isSome_map]
        rfl

theorem win_cond (q : WinSelect.Query S) (c c' : Option E) :
    (WinSelect.compileSelect { q with cond := c }).isSome = (WinSelect.compileSelect { q with cond := c' }).isSome := by
  simp only [WinSelect.compileSelect]
  cases WinSelect.addCols q.windows {} q.cols with
  | none => rfl
  | some cols =>
    simp only [Option.bind_some]
    cases Select.compileIntercept (cols.schema.map (·.1)) q.having with
    | none => rfl
    | some i => simp only [Option.bind_some, Option.isSome_map]

theorem withWhere_eq (c : E) (k : Kind S) : SqlTree.withWhere c k = k.withCond c := by
  induction k with
  | sub w k ih => exact ih
  | hav h k ih => exact congrArg (Kind.hav h) ih
  | _ => rfl

/-! ### HAVING -/

theorem havingThis_eq (c : E) (k : Kind S) : SqlTree.havingThis c k = k.withHaving c := by
  induction k with
  | sub w k ih => exact congrArg (Kind.sub w) ih
  | _ => rfl

theorem having_cond (c h : E) (k : Kind S) : (k.withCond c).withHaving h = (k.withHaving h).withCond c := by
  induction k with
  | sub w k ih => exact ih
  | _ => rfl

/-- A subquery that is compared has one row at most. -/
def SinglesH : HavingSub.H → Prop
  | .and a b => SinglesH a ∧ SinglesH b
  | .or a b => SinglesH a ∧ SinglesH b
  | .paren a => SinglesH a
  | .cmpSub _ _ s => s.rows.length ≤ 1
  | .e _ => True
  | .inSub _ _ => True
  | .notIn _ _ => True
  | .exist _ => True
  | .like _ _ => False

/-- The clause is compiled to something with the value of what `HavingSub` compiles it to. -/
theorem asH_eval (row : Str → Val) (h : HavingSub.H) (hs : SinglesH h) (t : T) (ht : HavingSub.compileH h = some t) :
    ∃ t', compileHaving (asH h) = some t' ∧ eval py calls row t' = eval py calls row t := by
  induction h generalizing t with
  | e x => exact ⟨t, ht, rfl⟩
  | and a b iha ihb =>
    simp only [HavingSub.compileH, Option.bind_eq_some_iff, Option.map_eq_some_iff] at ht
    obtain ⟨x, hx, y, hy, rfl⟩ := ht
    obtain ⟨x', h1, h2⟩ := iha hs.1 x hx
    obtain ⟨y', g1, g2⟩ := ihb hs.2 y hy
    exact ⟨.iff x' y' (.const (.int 0)), by simp [asH, compileHaving, h1, g1], by simp only [eval, h2, g2]⟩
  | or a b iha ihb =>
    simp only [HavingSub.compileH, Option.bind_eq_some_iff, Option.map_eq_some_iff] at ht
    obtain ⟨x, hx, y, hy, rfl⟩ := ht
    obtain ⟨x', h1, h2⟩ := iha hs.1 x hx
    obtain ⟨y', g1, g2⟩ := ihb hs.2 y hy
    exact ⟨.iff x' (.const (.int 1)) y', by simp [asH, compileHaving, h1, g1], by simp only [eval, h2, g2]⟩
  | paren a ih => exact ih hs t ht
  | cmpSub op a s =>
    simp only [HavingSub.compileH] at ht
    split at ht
    · cases ht
    · cases ht
      exact ⟨_, rfl, by rw [compile_known]⟩
  | inSub a s =>
    simp only [HavingSub.compileH] at ht
    split at ht
    · cases ht
    · cases ht
      exact ⟨_, rfl, by rw [compile_lits]⟩
  | notIn a s =>
    cases ht
    exact ⟨_, rfl, by simp only [compile, compile_lits]⟩
  | exist s =>
    cases ht
    refine ⟨_, rfl, ?_⟩
    cases s.rows.isEmpty
    · exact (rfl : py.cmp .eq (.int 1) (.int 1) = .int 1)
    · exact (rfl : py.cmp .eq (.int 1) (.int 0) = .int 0)
  | like a p => exact hs.elim

theorem asH_like (s s' : Nat → SubOperand.Sub) (h : HCond) : Like (asH (h.toH s)) (asH (h.toH s')) := by
  induction h with
  | e x => exact .refl x
  | and a b iha ihb => exact .and iha ihb
  | or a b iha ihb => exact .or iha ihb
  | paren a ih => exact .paren ih
  | cmpSub op a i => exact .right op a (.known _) (.known _)
  | inSub a i => exact .inl a _ _
  | notIn a i => exact .not (.inl a _ _)
  | exist i => exact .right _ _ (.lit _) (.lit _)

theorem having_like {e e' : E} (h : Like e e') : (compileHaving e).isSome = (compileHaving e').isSome := by
  induction h with
  | refl e => rfl
  | @and a a' b b' _ _ iha ihb =>
    simp only [compileHaving]
    cases h1 : compileHaving a <;> cases h2 : compileHaving a' <;> rw [h1, h2] at iha <;> first | rfl | (exfalso; simp at iha; done) | skip
    cases h3 : compileHaving b <;> cases h4 : compileHaving b' <;> rw [h3, h4] at ihb <;> first | rfl | (exfalso; simp at ihb; done)
  | @or a a' b b' _ _ iha ihb =>
    simp only [compileHaving]
    cases h1 : compileHaving a <;> cases h2 : compileHaving a' <;> rw [h1, h2] at iha <;> first | rfl | (exfalso; simp at iha; done) | skip
    cases h3 : compileHaving b <;> cases h4 : compileHaving b' <;> rw [h3, h4] at ihb <;> first | rfl | (exfalso; simp at ihb; done)
  | not _ ih => rfl
  | paren _ ih => exact ih
  | right op a hb hb' => rfl
  | left op a hb hb' => rfl
  | inl a l l' => rfl
  | exist n n' => rfl

theorem Like.havingCols {e e' : E} (h : Like e e') : Select.havingCols e = Select.havingCols e' := by
  induction h with
  | refl e => rfl
  | and _ _ iha ihb => simp only [Select.havingCols, iha, ihb]
  | or _ _ iha ihb => simp only [Select.havingCols, iha, ihb]
  | not h ih => exact (Like.not h).cols.1
  | paren _ ih => simpa only [Select.havingCols] using ih
  | right op a hb hb' => exact (Like.right op a hb hb').cols.1
  | left op a hb hb' => exact (Like.left op a hb hb').cols.1
  | inl a l l' => rfl
  | exist n n' => rfl

theorem intercept_like (names : List Str) {e e' : E} (h : Like e e') :
    (Select.compileIntercept names (some e)).isSome = (Select.compileIntercept names (some e')).isSome := by
  simp only [Select.compileIntercept, h.havingCols]
  split
  · simp only [Option.isSome_map, having_like h]
  · rfl

theorem bind_like {α β : Type} {x x' : Option α} (h : x.isSome = x'.isSome) (f f' : α → Option β) (hf : ∀ a a', (f a).isSome = (f' a').isSome) :
    (x.bind f).isSome = (x'.bind f').isSome := by
  cases x <;> cases x' <;> first | rfl | (exfalso; simp at h; done) | exact hf _ _

theorem select_having (q : Select.Query S) {e e' : E} (h : Like e e') :
    (Select.compileSelect { q with having := some e }).isSome = (Select.compileSelect { q with having := some e' }).isSome := by
  simp only [Select.compileSelect]
  cases Select.addCols q.group [] q.cols with
  | none => rfl
  | some schema =>
    simp only [Option.bind_some]
    refine bind_like (intercept_like _ h) _ _ fun a a' => ?_
    cases Order.compile ⟨schema.map (·.1), q.columns, q.table, q.aliased, Select.aggNames schema⟩ q.order with
    | none => rfl
    | some ord =>
      simp only [Option.bind_some, Option.isSome_map]
      rfl

theorem win_having (q : WinSelect.Query S) {e e' : E} (h : Like e e') :
    (WinSelect.compileSelect { q with having := some e }).isSome = (WinSelect.compileSelect { q with having := some e' }).isSome := by
  simp only [WinSelect.compileSelect]
  cases WinSelect.addCols q.windows {} q.cols with
  | none => rfl
  | some cols =>
    simp only [Option.bind_some]
    refine bind_like (intercept_like _ h) _ _ fun a a' => ?_
    simp only [Option.isSome_map]

theorem joinSelect_having {K : Type} (cc : E → Option K) (q : Select.Query S) {e e' : E} (h : Like e e') :
    (JoinSelect.compileSelect cc { q with having := some e }).isSome = (JoinSelect.compileSelect cc { q with having := some e' }).isSome := by
  simp only [JoinSelect.compileSelect]
  cases JoinSelect.addCols cc q.group [] q.cols with
  | none => rfl
  | some schema =>
    simp only [Option.bind_some]
    have hw : JoinSelect.whereOf cc { q with having := some e } = JoinSelect.whereOf cc { q with having := some e' } := rfl
    rw [hw]
    cases JoinSelect.whereOf cc { q with having := some e' } with
    | none => rfl
    | some w =>
      simp only [Option.bind_some]
      refine bind_like (intercept_like _ h) _ _ fun a a' => ?_
      cases Order.compile ⟨schema.map (·.1), q.columns, q.table, q.aliased, JoinSelect.aggNames schema⟩ q.order with
      | none => rfl
      | some ord =>
        simp only [Option.bind_some, Option.isSome_map]
        rfl

theorem joins_having (o : Join.Ops Val) (order : List Join.Name → List Join.Name) (fuel : Nat) (joins : List (Join.Join Val))
    (q : Select.Query S) {e e' : E} (h : Like e e') :
    (JoinSelect.compileJoins py calls o order fuel joins { q with having := some e }).isSome =
      (JoinSelect.compileJoins py calls o order fuel joins { q with having := some e' }).isSome := by
  simp only [JoinSelect.compileJoins, JoinSelect.rewriteInner]
  have key : ∀ (js : List (Join.Join Val)) (c : Option E),
      (JoinSelect.compile py calls o order fuel js { q with having := some e, cond := c }).isSome =
        (JoinSelect.compile py calls o order fuel js { q with having := some e', cond := c }).isSome := by
    intro js c
    simp only [JoinSelect.compile]
    cases JoinSelect.parseJoins o js with
    | none => rfl
    | some info =>
      have hk : JoinSelect.keyFound info js { q with having := some e, cond := c } =
          JoinSelect.keyFound info js { q with having := some e', cond := c } := by
        funext j
        rw [JoinSelect.keyFound, JoinSelect.keyFound]
        congr 1
        exact mentions_having js { q with cond := c } h _
      simp only [Option.bind_some, hk]
      split
      · exact joinSelect_having _ { q with cond := c } h
      · rfl
  by_cases h1 : (joins.any fun j => decide (j.kind = .inner)) = true
  · by_cases h2 : Join.innerFields (String.ofList q.table) joins = []
    · simp only [h1, h2, if_true, Option.isSome_none]
    · simp only [h1, h2, if_true, if_false]
      split
      · rfl
      · exact key _ _
  · simp only [h1, Bool.false_eq_true, if_false]
    exact key joins q.cond

theorem from_having (o : Join.Ops Val) (order : List Join.Name → List Join.Name) (fuel : Nat) (ts : List Join.Name) (w : List JoinSelect.Conj)
    (q : Select.Query S) {e e' : E} (h : Like e e') :
    (JoinSelect.compileFrom py calls o order fuel ts [] w { q with having := some e }).isSome =
      (JoinSelect.compileFrom py calls o order fuel ts [] w { q with having := some e' }).isSome := by
  simp only [JoinSelect.compileFrom]
  split
  · exact joins_having py calls o order fuel _ { q with cond := JoinSelect.whereE (String.ofList q.table) w } h
  · exact joins_having py calls o order fuel _ { q with cond := JoinSelect.whereE (String.ofList q.table) w } h

end

end Verif.Props.TreeLemmas
