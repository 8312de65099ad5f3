import Verif.Props.Session
import Verif.Spec.VarScript
/-! Whether a statement compiles does not depend on what functions compute. -/
namespace Verif.Props.VarLemmas
open Verif.Val Verif.Expr Verif.Where Verif.Select Verif.Tree
open Verif.JoinSelect (Col argCols)

section
variable {K K' S : Type} (f : K → K') (cc : E → Option K)

/-- The schema with other columns. -/
def mapS (s : JoinSelect.Schema K S) : JoinSelect.Schema K' S := s.map fun c => (c.1, c.2.map f)

theorem get_map (s : JoinSelect.Schema K S) (n : Str) : Select.get n (mapS f s) = (Select.get n s).map (Col.map f) := by
  induction s with
  | nil => rfl
  | cons c s ih =>
    simp only [mapS, List.map_cons, Select.get]
    split
    · rfl
    · exact ih

theorem put_map (s : JoinSelect.Schema K S) (n : Str) (c : Col K S) : Select.put n (c.map f) (mapS f s) = mapS f (Select.put n c s) := by
  induction s with
  | nil => rfl
  | cons d s ih =>
    simp only [mapS, List.map_cons, Select.put]
    split
    · rfl
    · simp only [List.map_cons]
      exact congrArg _ ih

theorem keyCol_map (s : JoinSelect.Schema K S) (g : GKey) : JoinSelect.keyCol (fun e => (cc e).map f) (mapS f s) g = (JoinSelect.keyCol cc s g).map f := by
  cases g with
  | expr e => rfl
  | bare c =>
    simp only [JoinSelect.keyCol, get_map]
    cases h : Select.get c s with
    | none => rfl
    | some d => cases d <;> rfl

theorem keyCols_map (s : JoinSelect.Schema K S) (gs : List GKey) :
    JoinSelect.keyCols (fun e => (cc e).map f) (mapS f s) gs = (JoinSelect.keyCols cc s gs).map (List.map f) := by
  induction gs with
  | nil => rfl
  | cons g gs ih =>
    simp only [JoinSelect.keyCols, keyCol_map, ih]
    cases JoinSelect.keyCol cc s g with
    | none => rfl
    | some k => cases JoinSelect.keyCols cc s gs <;> rfl

theorem groupKey_map (s : JoinSelect.Schema K S) (gs : List GKey) :
    JoinSelect.groupKey (fun e => (cc e).map f) (mapS f s) gs = (JoinSelect.groupKey cc s gs).map (List.map f) := by
  simp only [JoinSelect.groupKey]
  split
  · cases cc (.lit (.str "__k_g__".toList)) <;> rfl
  · exact keyCols_map f cc s gs

theorem argCols_map (as : List (Aggr S × E)) :
    argCols (fun e => (cc e).map f) as = (argCols cc as).map (List.map fun a => (a.1, f a.2)) := by
  induction as with
  | nil => rfl
  | cons a as ih =>
    simp only [argCols, ih]
    cases cc a.2 with
    | none => rfl
    | some k => cases argCols cc as <;> rfl

theorem addCol_map (group : List GKey) (s : JoinSelect.Schema K S) (c : Str × Select.Item S) :
    JoinSelect.addCol (fun e => (cc e).map f) group (mapS f s) c = (JoinSelect.addCol cc group s c).map (mapS f) := by
  obtain ⟨n, i⟩ := c
  cases i with
  | expr e =>
    simp only [JoinSelect.addCol]
    cases cc e with
    | none => rfl
    | some k => exact congrArg some (put_map f s n (.calc k))
  | agg args final =>
    simp only [JoinSelect.addCol, groupKey_map, argCols_map]
    cases JoinSelect.groupKey cc s group with
    | none => rfl
    | some k =>
      simp only [Option.map_some, Option.bind_some]
      cases argCols cc args with
      | none => rfl
      | some as => exact congrArg some (put_map f s n (.agg k as final))

theorem addCols_map (group : List GKey) (cs : List (Str × Select.Item S)) (s : JoinSelect.Schema K S) :
    JoinSelect.addCols (fun e => (cc e).map f) group (mapS f s) cs = (JoinSelect.addCols cc group s cs).map (mapS f) := by
  induction cs generalizing s with
  | nil => rfl
  | cons c cs ih =>
    simp only [JoinSelect.addCols, addCol_map]
    cases JoinSelect.addCol cc group s c with
    | none => rfl
    | some s' => exact ih s'

theorem names_map (s : JoinSelect.Schema K S) : (mapS f s).map (·.1) = s.map (·.1) := by simp [mapS, List.map_map, Function.comp_def]

theorem aggNames_map (s : JoinSelect.Schema K S) : JoinSelect.aggNames (mapS f s) = JoinSelect.aggNames s := by
  induction s with
  | nil => rfl
  | cons c s ih =>
    obtain ⟨n, c⟩ := c
    simp only [JoinSelect.aggNames, mapS, List.map_cons] at ih ⊢
    cases c with
    | agg k as fin =>
      rw [List.filter_cons_of_pos (by rfl), List.filter_cons_of_pos (by rfl), List.map_cons, List.map_cons, ih]
    | «calc» t => rw [List.filter_cons_of_neg (by simp [Col.map]), List.filter_cons_of_neg (by simp), ih]
    | last k t => rw [List.filter_cons_of_neg (by simp [Col.map]), List.filter_cons_of_neg (by simp), ih]

/-- A query compiles when its expressions do. -/
theorem compileSelect_map (q : Query S) :
    (JoinSelect.compileSelect (fun e => (cc e).map f) q).isSome = (JoinSelect.compileSelect cc q).isSome := by
  have h0 : JoinSelect.addCols (fun e => (cc e).map f) q.group [] q.cols = (JoinSelect.addCols cc q.group [] q.cols).map (mapS f) :=
    addCols_map f cc q.group q.cols []
  have hw : (JoinSelect.whereOf (fun e => (cc e).map f) q).isSome = (JoinSelect.whereOf cc q).isSome := by
    simp only [JoinSelect.whereOf]
    cases q.cond with
    | none => rfl
    | some e =>
      simp only
      cases (Where.split JoinSelect.isPrim [] e).res with
      | none => rfl
      | some r => simp only [Option.isSome_map]
  simp only [JoinSelect.compileSelect, h0]
  cases JoinSelect.addCols cc q.group [] q.cols with
  | none => rfl
  | some s =>
    simp only [Option.map_some, Option.bind_some]
    cases h1 : JoinSelect.whereOf (fun e => (cc e).map f) q with
    | none =>
      rw [h1] at hw
      cases h2 : JoinSelect.whereOf cc q with
      | none => rfl
      | some _ => rw [h2] at hw; cases hw
    | some w =>
      rw [h1] at hw
      cases h2 : JoinSelect.whereOf cc q with
      | none => rw [h2] at hw; cases hw
      | some w' =>
        simp only [Option.bind_some, names_map, aggNames_map]
        cases Select.compileIntercept (s.map (·.1)) q.having with
        | none => rfl
        | some i =>
          simp only [Option.bind_some]
          cases Order.compile ⟨s.map (·.1), q.columns, q.table, q.aliased, JoinSelect.aggNames s⟩ q.order with
          | none => rfl
          | some ord =>
            simp only [Option.bind_some, Option.isSome_map, JoinSelect.finish, aggNames_map]
            split
            · split
              · simp only [Option.isSome_map, keyCols_map]
              · split <;> rfl
            · rfl

end

section
variable {S : Type} (py : Py) (calls calls' : Str → List Val → Val) (o : Join.Ops Val)
  (order : List Join.Name → List Join.Name) (fuel : Nat)

theorem compileE_calls (cx : JoinSelect.Ctx) (e : E) :
    (JoinSelect.compileE py calls cx e).isSome = (JoinSelect.compileE py calls' cx e).isSome := by
  simp only [JoinSelect.compileE]
  split
  · cases Join.chain (fun t => Join.refs cx.primary (cx.info t)) cx.order cx.fuel (cx.order (JoinSelect.tablesOf e)) [] with
    | none => rfl
    | some tables =>
      simp only [Option.bind_some, Join.compileColumn, JoinSelect.exprX, Join.compileX]
      cases Join.mapAll (fun r => (Join.depth cx.primary tables 0 r).map fun d => (d, r.col)) ((Select.colsE e).map JoinSelect.refOf) with
      | none => rfl
      | some ds => exact TreeLemmas.compileJoin_some cx.primary cx.info tables _ _ _
  · rfl

theorem joins_calls (joins : List (Join.Join Val)) (q : Query S) :
    (JoinSelect.compileJoins py calls o order fuel joins q).isSome = (JoinSelect.compileJoins py calls' o order fuel joins q).isSome := by
  simp only [JoinSelect.compileJoins]
  split
  · rfl
  · simp only [JoinSelect.compile]
    cases JoinSelect.parseJoins o (JoinSelect.rewriteInner joins q).1 with
    | none => rfl
    | some info =>
      simp only [Option.bind_some]
      rw [apply_ite Option.isSome, apply_ite Option.isSome]
      refine ite_congr rfl (fun _ => ?_) fun _ => rfl
      rw [← compileSelect_map (fun _ => ()), ← compileSelect_map (cc := JoinSelect.compileE py calls' _) (fun _ => ())]
      congr 2
      funext e
      have := compileE_calls py calls calls' ⟨String.ofList (JoinSelect.rewriteInner joins q).2.table,
        (JoinSelect.rewriteInner joins q).1.map (·.name), info, order, fuel⟩ e
      generalize JoinSelect.compileE py calls _ e = a at this ⊢
      generalize JoinSelect.compileE py calls' _ e = b at this ⊢
      cases a <;> cases b <;> first | rfl | cases this

/-! ### Whether ON compiles does not depend on what its functions give -/

/-- An expression without its values. -/
def sh : Join.X Val → Join.X Unit
  | .col r => .col r
  | .const _ => .const ()
  | .un _ x => .un (fun _ => ()) (sh x)
  | .bin _ x y => .bin (fun _ _ => ()) (sh x) (sh y)
  | .between _ x lo hi => .between (fun _ _ _ => ()) (sh x) (sh lo) (sh hi)
  | .app _ rs => .app (fun _ => ()) rs

def shC : Join.Cond Val → Join.Cond Unit
  | .cmp op l r => .cmp op (sh l) (sh r)
  | .isin l _ => .isin (sh l) []
  | .other x => .other (sh x)

def unitOps : Join.Ops Unit := ⟨fun _ _ _ => (), fun _ _ => (), fun _ => true⟩

def shT (t : Join.Table Val) : Join.Table Unit :=
  ⟨t.joinCols, t.keys.map fun k => (k.1, sh k.2), t.querys.map fun k => (k.1, fun _ => true), t.having.map sh⟩

theorem sh_fields (x : Join.X Val) : Join.fields (sh x) = Join.fields x := by
  induction x with
  | un f x ih => exact ih
  | bin f x y ihx ihy => simp only [sh, Join.fields, ihx, ihy]
  | between f x lo hi h1 h2 h3 => simp only [sh, Join.fields, h1, h2, h3]
  | _ => rfl

theorem sh_closed (x : Join.X Val) : Join.closed (sh x) = (Join.closed x).map fun _ => () := by
  induction x with
  | col r => rfl
  | const v => rfl
  | un f x ih => simp only [sh, Join.closed, ih, Option.map_map]; rfl
  | bin f x y ihx ihy =>
    simp only [sh, Join.closed, ihx, ihy, bind]
    cases Join.closed x <;> cases Join.closed y <;> rfl
  | between f x lo hi h1 h2 h3 =>
    simp only [sh, Join.closed, h1, h2, h3, bind]
    cases Join.closed x <;> cases Join.closed lo <;> cases Join.closed hi <;> rfl
  | app f rs =>
    simp only [sh, Join.closed]
    split <;> rfl

theorem sh_condX (c : Join.Cond Val) : sh (Join.condX o c) = Join.condX unitOps (shC c) := by
  cases c <;> rfl

theorem sh_ownCol (own : Join.Name) (x : Join.X Val) : Join.ownCol own (sh x) = Join.ownCol own x := by
  cases x <;> rfl

theorem sh_addHaving (own : Join.Name) (s : Join.Table Val) (c : Join.Cond Val) (rs : List Join.Ref) :
    Join.addHaving unitOps own (shT s) (shC c) rs = (Join.addHaving o own s c rs).map shT := by
  simp [Join.addHaving, shT, sh_condX]

theorem sh_addQuery (s : Join.Table Val) (k : Join.Name) (q : Val → Bool) (q' : Unit → Bool) (h : ∀ u, q' u = true) :
    Join.addQuery (shT s) k q' = (Join.addQuery s k q).map shT := by
  have : q' = fun _ => true := funext h
  simp [Join.addQuery, shT, this]

theorem sh_addKey (s : Join.Table Val) (k : Join.Name) (x : Join.X Val) (rs : List Join.Ref) :
    Join.addKey (shT s) k (sh x) rs = (Join.addKey s k x rs).map shT := by
  have hk : (shT s).keys.map (·.1) = s.keys.map (·.1) := by simp [shT, List.map_map, Function.comp_def]
  simp only [Join.addKey, hk]
  split
  · rfl
  · simp [shT]

theorem sh_addEq (s : Join.Table Val) (k : Join.Name) (x : Join.X Val) :
    Join.addEq unitOps (shT s) k (sh x) = (Join.addEq o s k x).map shT := by
  simp only [Join.addEq, sh_closed, sh_fields]
  cases Join.closed x with
  | none => exact sh_addKey s k x _
  | some v => exact sh_addQuery s k _ _ fun _ => rfl

theorem sh_addOther (own : Join.Name) (s : Join.Table Val) (c : Join.Cond Val) (l r : Join.X Val) (q : Val → Val → Bool)
    (q' : Unit → Unit → Bool) (h : ∀ u v, q' u v = true) :
    Join.addOther unitOps own (shT s) (shC c) (sh l) (sh r) q' = (Join.addOther o own s c l r q).map shT := by
  cases l with
  | col a =>
    simp only [Join.addOther, sh]
    split
    · rfl
    · rw [sh_closed]
      cases Join.closed r with
      | none => simp only [Option.map_none, sh_fields, Join.fields]; exact sh_addHaving o own s c _
      | some v => exact sh_addQuery s a.col _ _ fun _ => h _ _
  | const v => exact sh_addHaving o own s c _
  | un f x => simp only [Join.addOther, sh, Join.fields, sh_fields]; exact sh_addHaving o own s c _
  | bin f x y => simp only [Join.addOther, sh, Join.fields, sh_fields]; exact sh_addHaving o own s c _
  | between f x lo hi => simp only [Join.addOther, sh, Join.fields, sh_fields]; exact sh_addHaving o own s c _
  | app f rs => exact sh_addHaving o own s c _

theorem sh_parseCond (own : Join.Name) (s : Join.Table Val) (c : Join.Cond Val) :
    Join.parseCond unitOps own (shT s) (shC c) = (Join.parseCond o own s c).map shT := by
  cases c with
  | cmp op l r =>
    simp only [Join.parseCond, shC, sh_ownCol]
    split
    · split
      · exact sh_addEq o s _ r
      · split
        · exact sh_addEq o s _ l
        · exact sh_addOther o own s (.cmp op l r) l r _ _ fun _ _ => rfl
    · exact sh_addOther o own s (.cmp op l r) l r _ _ fun _ _ => rfl
  | isin l vs =>
    cases l with
    | col a =>
      simp only [Join.parseCond, shC, sh]
      split
      · rfl
      · exact sh_addQuery s a.col _ _ fun _ => rfl
    | const v => exact sh_addHaving o own s _ _
    | un f x => simp only [Join.parseCond, shC, sh, Join.fields, sh_fields]; exact sh_addHaving o own s (.isin (.un f x) vs) _
    | bin f x y => simp only [Join.parseCond, shC, sh, Join.fields, sh_fields]; exact sh_addHaving o own s (.isin (.bin f x y) vs) _
    | between f x lo hi => simp only [Join.parseCond, shC, sh, Join.fields, sh_fields]; exact sh_addHaving o own s (.isin (.between f x lo hi) vs) _
    | app f rs => exact sh_addHaving o own s (.isin (.app f rs) vs) _
  | other x => simp only [Join.parseCond, shC, sh_fields]; exact sh_addHaving o own s (.other x) _

theorem sh_parseOn (own : Join.Name) (cs : List (Join.Cond Val)) (s : Join.Table Val) :
    Join.parseOn unitOps own (shT s) (cs.map shC) = (Join.parseOn o own s cs).map shT := by
  induction cs generalizing s with
  | nil => rfl
  | cons c cs ih =>
    simp only [List.map_cons, Join.parseOn, sh_parseCond o, bind]
    cases Join.parseCond o own s c with
    | none => rfl
    | some s' => exact ih s'

/-- The joins without their values. -/
def shJ (j : Join.Join Val) : Join.Name × List (Join.Cond Unit) := (j.name, j.on.map shC)

theorem parseJoins_sh (js js' : List (Join.Join Val)) (h : js.map shJ = js'.map shJ) :
    (JoinSelect.parseJoins o js).map (fun info n => shT (info n)) = (JoinSelect.parseJoins o js').map (fun info n => shT (info n)) := by
  induction js generalizing js' with
  | nil =>
    cases js' with
    | nil => rfl
    | cons j js' => cases h
  | cons j js ih =>
    cases js' with
    | nil => cases h
    | cons j' js' =>
      simp only [List.map_cons, List.cons.injEq, shJ, Prod.mk.injEq] at h
      obtain ⟨⟨h1, h2⟩, h3⟩ := h
      have ih := ih js' h3
      have hon : (Join.parseOn o j.name ⟨[], [], [], []⟩ j.on).map shT = (Join.parseOn o j'.name ⟨[], [], [], []⟩ j'.on).map shT := by
        rw [← sh_parseOn, ← sh_parseOn, h1, h2]
      simp only [JoinSelect.parseJoins]
      rw [← h1] at hon ⊢
      generalize Join.parseOn o j.name ⟨[], [], [], []⟩ j.on = a at hon ⊢
      generalize Join.parseOn o j.name ⟨[], [], [], []⟩ j'.on = b at hon ⊢
      generalize JoinSelect.parseJoins o js = c at ih ⊢
      generalize JoinSelect.parseJoins o js' = d at ih ⊢
      cases a with
      | none => cases b with
        | none => rfl
        | some _ => cases hon
      | some a => cases b with
        | none => cases hon
        | some b =>
          simp only [Option.map_some, Option.some.injEq] at hon
          cases c with
          | none => cases d with
            | none => rfl
            | some _ => cases ih
          | some c => cases d with
            | none => cases ih
            | some d =>
              simp only [Option.map_some, Option.some.injEq, Option.bind_some] at ih ⊢
              funext n
              have := congrFun ih n
              split
              · exact hon
              · exact this

theorem mapAll_isSome {α β : Type} (f : α → Option β) (l : List α) : (Join.mapAll f l).isSome = l.all fun a => (f a).isSome := by
  induction l with
  | nil => rfl
  | cons a l ih =>
    rw [List.all_cons, ← ih]
    simp only [Join.mapAll, bind]
    cases f a with
    | none => rfl
    | some b => cases Join.mapAll f l <;> rfl

theorem compileX_sh (primary : Join.Name) (tables : List Join.Name) (level : Nat) (x : Join.X Val) :
    (Join.compileX primary tables level x).isSome = (Join.compileX primary tables level (sh x)).isSome := by
  induction x generalizing tables level with
  | col r => simp only [sh, Join.compileX, Option.isSome_map]
  | const v => rfl
  | un f x ih =>
    have := ih tables level
    simp only [sh, Join.compileX, bind]
    generalize Join.compileX primary tables level x = a at this ⊢
    generalize Join.compileX primary tables level (sh x) = b at this ⊢
    cases a <;> cases b <;> first | rfl | cases this
  | bin f x y ihx ihy =>
    have h1 := ihx tables level
    have h2 := ihy tables level
    simp only [sh, Join.compileX, bind]
    generalize Join.compileX primary tables level x = a at h1 ⊢
    generalize Join.compileX primary tables level (sh x) = b at h1 ⊢
    generalize Join.compileX primary tables level y = c at h2 ⊢
    generalize Join.compileX primary tables level (sh y) = d at h2 ⊢
    cases a <;> cases b <;> cases c <;> cases d <;> first | rfl | (exfalso; simp at h1; done) | (exfalso; simp at h2; done)
  | between f x lo hi h1 h2 h3 =>
    have h1 := h1 [] 0
    have h2 := h2 [] 0
    have h3 := h3 [] 0
    simp only [sh, Join.compileX, bind]
    generalize Join.compileX primary [] 0 x = a at h1 ⊢
    generalize Join.compileX primary [] 0 (sh x) = b at h1 ⊢
    generalize Join.compileX primary [] 0 lo = c at h2 ⊢
    generalize Join.compileX primary [] 0 (sh lo) = d at h2 ⊢
    generalize Join.compileX primary [] 0 hi = e at h3 ⊢
    generalize Join.compileX primary [] 0 (sh hi) = f' at h3 ⊢
    cases a <;> cases b <;> cases c <;> cases d <;> cases e <;> cases f' <;> first | rfl | (exfalso; simp at h1; done) | (exfalso; simp at h2; done) | (exfalso; simp at h3; done)
  | app f rs => simp only [sh, Join.compileX, Option.isSome_map]

theorem compileJoin_sh (primary : Join.Name) (info : Join.Name → Join.Table Val) (tables : List Join.Name) (y : Join.Y Val) (y' : Join.Y Unit)
    (n : Nat) : (Join.compileJoin primary info tables y n).isSome = (Join.compileJoin primary (fun t => shT (info t)) tables y' n).isSome := by
  induction n with
  | zero => rfl
  | succ n ih =>
    have hk : (Join.mapAll (fun kx => (Join.compileX primary tables (n + 1) kx.2).map fun y => (kx.1, y)) (info (tables.getD n "")).keys).isSome
        = (Join.mapAll (fun kx => (Join.compileX primary tables (n + 1) kx.2).map fun y => (kx.1, y)) (shT (info (tables.getD n ""))).keys).isSome := by
      rw [mapAll_isSome, mapAll_isSome, shT, List.all_map]
      congr 1
      funext kx
      simp only [Option.isSome_map, Function.comp_apply]
      exact compileX_sh primary tables (n + 1) kx.2
    have hh : (Join.mapAll (Join.compileX primary tables n) (info (tables.getD n "")).having).isSome
        = (Join.mapAll (Join.compileX primary tables n) (shT (info (tables.getD n ""))).having).isSome := by
      rw [mapAll_isSome, mapAll_isSome, shT, List.all_map]
      congr 1
      funext x
      exact compileX_sh primary tables n x
    simp only [Join.compileJoin, bind]
    generalize Join.compileJoin primary info tables y n = a at ih ⊢
    generalize Join.compileJoin primary (fun t => shT (info t)) tables y' n = b at ih ⊢
    generalize Join.mapAll _ (info (tables.getD n "")).keys = c at hk ⊢
    generalize Join.mapAll _ (shT (info (tables.getD n ""))).keys = d at hk ⊢
    generalize Join.mapAll _ (info (tables.getD n "")).having = e at hh ⊢
    generalize Join.mapAll _ (shT (info (tables.getD n ""))).having = f at hh ⊢
    cases a <;> cases b <;> cases c <;> cases d <;> cases e <;> cases f <;> first | rfl | (exfalso; simp at ih; done) | (exfalso; simp at hk; done) | (exfalso; simp at hh; done)

theorem compileE_sh (primary : Join.Name) (names : List Join.Name) (info info' : Join.Name → Join.Table Val)
    (h : ∀ n, shT (info n) = shT (info' n)) (e : E) :
    (JoinSelect.compileE py calls ⟨primary, names, info, order, fuel⟩ e).isSome =
      (JoinSelect.compileE py calls' ⟨primary, names, info', order, fuel⟩ e).isSome := by
  have hr : (fun t => Join.refs primary (info t)) = fun t => Join.refs primary (info' t) := by
    funext t
    have : (info t).joinCols = (info' t).joinCols := congrArg (fun t : Join.Table Unit => t.joinCols) (h t)
    simp only [Join.refs, this]
  simp only [JoinSelect.compileE, hr]
  split
  · cases Join.chain (fun t => Join.refs primary (info' t)) order fuel (order (JoinSelect.tablesOf e)) [] with
    | none => rfl
    | some tables =>
      simp only [Option.bind_some, Join.compileColumn, JoinSelect.exprX, Join.compileX]
      cases Join.mapAll (fun r => (Join.depth primary tables 0 r).map fun d => (d, r.col)) ((Select.colsE e).map JoinSelect.refOf) with
      | none => rfl
      | some ds =>
        simp only [Option.map_some, bind, Option.bind_some]
        rw [compileJoin_sh primary info tables _ (.const ()), compileJoin_sh primary info' tables _ (.const ())]
        simp only [h]
  · rfl

theorem sh_condFields (c : Join.Cond Val) : Join.condFields (shC c) = Join.condFields c := by
  cases c <;> simp only [shC, Join.condFields, sh_fields]

theorem keyFound_sh (js js' : List (Join.Join Val)) (h : js.map shJ = js'.map shJ) (info info' : Join.Name → Join.Table Val)
    (hi : ∀ n, shT (info n) = shT (info' n)) (q : Query S) :
    js.all (fun j => JoinSelect.keyFound info js q j && JoinSelect.refsKnown info (String.ofList q.table) (js.map (·.name)) j) =
      js'.all (fun j => JoinSelect.keyFound info' js' q j && JoinSelect.refsKnown info' (String.ofList q.table) (js'.map (·.name)) j) := by
  have hr : ∀ n, Join.refs (String.ofList q.table) (info n) = Join.refs (String.ofList q.table) (info' n) := by
    intro n
    have : (info n).joinCols = (info' n).joinCols := congrArg (fun t : Join.Table Unit => t.joinCols) (hi n)
    simp only [Join.refs, this]
  have hn : js.map (·.name) = js'.map (·.name) := by
    have := congrArg (List.map Prod.fst) h
    simpa only [List.map_map, Function.comp_def, shJ] using this
  have hk : ∀ n, (info n).keys.isEmpty = (info' n).keys.isEmpty := by
    intro n
    have := congrArg (fun t : Join.Table Unit => t.keys.isEmpty) (hi n)
    simpa only [shT, List.isEmpty_map] using this
  have hm : ∀ (l : List (Join.Join Val)) (t : Join.Name),
      (l.any fun j => j.on.any fun c => (Join.condFields c).any fun r => decide (r.table = some t)) =
        (l.map shJ).any fun j => j.2.any fun c => (Join.condFields c).any fun r => decide (r.table = some t) := by
    intro l t
    simp only [List.any_map, Function.comp_def, shJ, sh_condFields]
  have hall : ∀ (l : List (Join.Join Val)) (p : Join.Name → Bool), (l.all fun j => p j.name) = (l.map shJ).all fun j => p j.1 := by
    intro l p
    simp only [List.all_map, Function.comp_def, shJ]
  have e : (fun j => JoinSelect.keyFound info js q j && JoinSelect.refsKnown info (String.ofList q.table) (js.map (·.name)) j) =
      fun j => JoinSelect.keyFound info' js' q j && JoinSelect.refsKnown info' (String.ofList q.table) (js'.map (·.name)) j := by
    funext j
    simp only [JoinSelect.keyFound, JoinSelect.mentions, JoinSelect.refsKnown, hk, hm, h, hr, hn]
  have e2 := hall js fun n => (!(info' n).keys.isEmpty || JoinSelect.mentions js' q n) &&
    (Join.refs (String.ofList q.table) (info' n)).all fun t => decide (t ∈ js'.map (·.name))
  have e3 := hall js' fun n => (!(info' n).keys.isEmpty || JoinSelect.mentions js' q n) &&
    (Join.refs (String.ofList q.table) (info' n)).all fun t => decide (t ∈ js'.map (·.name))
  rw [h] at e2
  rw [e]
  exact e2.trans e3.symm

theorem compile_sh (js js' : List (Join.Join Val)) (h : js.map shJ = js'.map shJ) (q : Query S) :
    (JoinSelect.compile py calls o order fuel js q).isSome = (JoinSelect.compile py calls' o order fuel js' q).isSome := by
  have hn : js.map (·.name) = js'.map (·.name) := by
    have := congrArg (List.map Prod.fst) h
    simpa only [List.map_map, Function.comp_def, shJ] using this
  have hi := parseJoins_sh o js js' h
  simp only [JoinSelect.compile, hn]
  generalize JoinSelect.parseJoins o js = a at hi ⊢
  generalize JoinSelect.parseJoins o js' = b at hi ⊢
  cases a with
  | none => cases b with
    | none => rfl
    | some _ => cases hi
  | some a => cases b with
    | none => cases hi
    | some b =>
      simp only [Option.map_some, Option.some.injEq] at hi
      have hks := keyFound_sh js js' h a b (fun n => congrFun hi n) q
      rw [hn] at hks
      simp only [Option.bind_some, hks]
      rw [apply_ite Option.isSome, apply_ite Option.isSome]
      refine ite_congr rfl (fun _ => ?_) fun _ => rfl
      rw [← compileSelect_map (fun _ => ()), ← compileSelect_map (cc := JoinSelect.compileE py calls' _) (fun _ => ())]
      congr 2
      funext e
      have := compileE_sh py calls calls' order fuel (String.ofList q.table) (js'.map (·.name)) a b (fun n => congrFun hi n) e
      generalize JoinSelect.compileE py calls _ e = x at this ⊢
      generalize JoinSelect.compileE py calls' _ e = y at this ⊢
      cases x <;> cases y <;> first | rfl | cases this

theorem multiJoins_sh (cs cs' : List (Join.Cond Val)) (h : cs.map shC = cs'.map shC) (can ts : List Join.Name) :
    (Join.multiJoins cs can ts).map shJ = (Join.multiJoins cs' can ts).map shJ := by
  have hon : ∀ (can : List Join.Name) (t : Join.Name) (c : Join.Cond Val), Join.toOn can t c = Join.toOn can t (shC c) := by
    intro can t c
    cases c with
    | cmp op l r => cases l <;> cases r <;> rfl
    | _ => rfl
  have hf : ∀ (can : List Join.Name) (t : Join.Name) (cs : List (Join.Cond Val)),
      (cs.filter (Join.toOn can t)).map shC = (cs.map shC).filter (Join.toOn can t) := by
    intro can t cs
    rw [List.filter_map]
    congr 1
    exact List.filter_congr fun c _ => hon can t c
  induction ts generalizing can with
  | nil => rfl
  | cons t ts ih => simp only [Join.multiJoins, List.map_cons, shJ, hf, h, ih]

theorem from_calls (ts : List Join.Name) (w : List JoinSelect.Conj) (q : Query S) :
    (JoinSelect.compileFrom py calls o order fuel ts [] w q).isSome = (JoinSelect.compileFrom py calls' o order fuel ts [] w q).isSome := by
  by_cases hts : ts = []
  · simp only [JoinSelect.compileFrom, hts, if_true]
    exact joins_calls py calls calls' o order fuel [] _
  · rw [FromList.compile_from py calls hts, FromList.compile_from py calls' hts]
    refine compile_sh py calls calls' o order fuel _ _ (multiJoins_sh _ _ ?_ _ _) _
    rw [List.map_map, List.map_map]
    refine List.map_congr_left fun c _ => ?_
    cases c with
    | cmp op l r => cases l <;> cases r <;> rfl
    | other e => rfl

theorem compilesKind_calls (k : Kind S) : Session.compilesKind py calls o order fuel k = Session.compilesKind py calls' o order fuel k := by
  unfold Session.compilesKind
  cases k.fill [] [] with
  | joined joins q => exact joins_calls py calls calls' o order fuel joins q
  | comma ts w q => exact from_calls py calls calls' o order fuel ts w q
  | _ => rfl

mutual
theorem compiles_calls (e : Tree.Rel S) : Session.compiles py calls o order fuel e = Session.compiles py calls' o order fuel e := by
  match e with
  | .scan _ => rfl
  | .select k src more =>
    simp only [Session.compiles, compiles_calls src, compileds_calls more, compilesKind_calls py calls calls' o order fuel k]
  | .union l r => simp only [Session.compiles, compiles_calls l, compiles_calls r]
  | .withq n d b => simp only [Session.compiles, compiles_calls d, compiles_calls b]
theorem compileds_calls (l : Rels S) : Session.compileds py calls o order fuel l = Session.compileds py calls' o order fuel l := by
  match l with
  | .nil => rfl
  | .cons e l => simp only [Session.compileds, compiles_calls e, compileds_calls l]
end

theorem start_calls (filter : Literal.Ty → Val → Val) (prim : Str → Bool) (x : Session.Stmt S) (w : Session.World) :
    Session.start py calls o order fuel filter prim x w = Session.start py calls' o order fuel filter prim x w := by
  cases x <;> simp only [Session.start, compiles_calls py calls calls' o order fuel]

end
end Verif.Props.VarLemmas
