import Verif.Props.Expr
import Verif.Model.Where
/-! Property theorems C42 and C43: conditions pushed to the data source, and DELETE. -/
namespace Verif.Props
open Verif.Val Verif.Expr Verif.Sql Verif.Where

section
variable (text : Str → Bool) (py : Py) (calls : Str → List Val → Val) (row : Str → Val)

/-! ### Expressions without columns do not depend on the row -/

mutual
theorem sem_noCol (row' : Str → Val) (e : E) (h : hasCol e = false) :
    sem text py.cmp calls row e = sem text py.cmp calls row' e := by
  cases e with
  | lit v => simp only [sem]
  | col c => simp [hasCol] at h
  | cmp op a b =>
    simp only [hasCol, Bool.or_eq_false_iff] at h
    simp only [sem, sem_noCol row' a h.1, sem_noCol row' b h.2]
  | and a b =>
    simp only [hasCol, Bool.or_eq_false_iff] at h
    simp only [sem, sem_noCol row' a h.1, sem_noCol row' b h.2]
  | or a b =>
    simp only [hasCol, Bool.or_eq_false_iff] at h
    simp only [sem, sem_noCol row' a h.1, sem_noCol row' b h.2]
  | not a =>
    simp only [hasCol] at h
    simp only [sem, sem_noCol row' a h]
  | is a w =>
    simp only [hasCol] at h
    cases w <;> simp only [sem, sem_noCol row' a h]
  | inl a l =>
    simp only [hasCol, Bool.or_eq_false_iff] at h
    simp only [sem, sem_noCol row' a h.1, sem_noColL row' l h.2]
  | between a lo hi =>
    simp only [hasCol, Bool.or_eq_false_iff] at h
    simp only [sem, sem_noCol row' a h.1.1, sem_noCol row' lo h.1.2, sem_noCol row' hi h.2]
  | paren a =>
    simp only [hasCol] at h
    simp only [sem, sem_noCol row' a h]
  | ite c t f =>
    simp only [hasCol, Bool.or_eq_false_iff] at h
    simp only [sem, sem_noCol row' c h.1.1, sem_noCol row' t h.1.2, sem_noCol row' f h.2]
  | ifnull a b =>
    simp only [hasCol, Bool.or_eq_false_iff] at h
    simp only [sem, sem_noCol row' a h.1, sem_noCol row' b h.2]
  | coalesce a l =>
    simp only [hasCol, Bool.or_eq_false_iff] at h
    simp only [sem, sem_noCol row' a h.1, sem_noColL row' l h.2]
  | caseC ws =>
    simp only [hasCol] at h
    simp only [sem, sem_noColW row' none ws h]
  | caseV a ws =>
    simp only [hasCol, Bool.or_eq_false_iff] at h
    simp only [sem, sem_noCol row' a h.1, sem_noColW row' _ ws h.2]
  | call f l =>
    simp only [hasCol] at h
    simp only [sem, sem_noColL row' l h]
theorem sem_noColL (row' : Str → Val) (l : EL) (h : hasColL l = false) :
    semL text py.cmp calls row l = semL text py.cmp calls row' l := by
  cases l with
  | nil => simp only [semL]
  | cons e l =>
    simp only [hasColL, Bool.or_eq_false_iff] at h
    simp only [semL, sem_noCol row' e h.1, sem_noColL row' l h.2]
theorem sem_noColW (row' : Str → Val) (v : Option Val) (ws : WL) (h : hasColW ws = false) :
    semW text py.cmp calls row v ws = semW text py.cmp calls row' v ws := by
  cases ws with
  | noElse => simp only [semW]
  | els e =>
    simp only [hasColW] at h
    simp only [semW, sem_noCol row' e h]
  | «when» c t ws =>
    simp only [hasColW, Bool.or_eq_false_iff] at h
    simp only [semW, sem_noCol row' c h.1.1, sem_noCol row' t h.1.2, sem_noColW row' v ws h.2]
end

/-! ### The pushed conditions as a set -/

variable (src : Src)

theorem addCond_all (p : QOp × QVal → Bool) (op : QOp) (v : QVal) (ds : Dicts) :
    (addCond op v ds).flatten.all p = (ds.flatten.all p && p (op, v)) := by
  induction ds with
  | nil => simp [addCond]
  | cons d ds ih =>
    unfold addCond
    split
    · simp only [List.flatten_cons, List.all_append, List.all_cons, List.all_nil, Bool.and_true]
      cases d.all p <;> cases p (op, v) <;> simp
    · simp only [List.flatten_cons, List.all_append, ih, Bool.and_assoc]

theorem build_match (key : Str) (op : QOp) (v : QVal) (qs : Querys) :
    matchRow py calls src row (build key op v qs) =
      (matchRow py calls src row qs && holds py calls src (row (baseName key)) (op, v)) := by
  induction qs with
  | nil => simp [build, matchRow, addCond, Dict.lacks]
  | cons x qs ih =>
    obtain ⟨k, ds⟩ := x
    unfold build
    split
    · rename_i hk
      subst hk
      simp only [matchRow, List.all_cons, addCond_all]
      cases (qs.all fun x => x.2.flatten.all (holds py calls src (row (baseName x.1)))) <;> simp
    · simp only [matchRow, List.all_cons] at ih ⊢
      rw [ih, Bool.and_assoc]

/-- Keys of the conditions. -/
def qkeys (qs : Querys) : List Str := qs.map (·.1)

theorem build_keys (key : Str) (op : QOp) (v : QVal) (qs : Querys) (h : (qkeys qs).Nodup) :
    (qkeys (build key op v qs)).Nodup ∧ ∀ k, k ∈ qkeys (build key op v qs) ↔ k = key ∨ k ∈ qkeys qs := by
  induction qs with
  | nil => simp [build, qkeys]
  | cons x qs ih =>
    obtain ⟨k, ds⟩ := x
    simp only [qkeys, List.map_cons, List.nodup_cons] at h
    unfold build
    split
    · rename_i hk
      subst hk
      simp only [qkeys, List.map_cons, List.nodup_cons, List.mem_cons]
      exact ⟨h, fun k' => by constructor <;> intro h' <;> simp_all⟩
    · rename_i hk
      obtain ⟨h1, h2⟩ := ih h.2
      simp only [qkeys, List.map_cons, List.nodup_cons, List.mem_cons] at h1 h2 ⊢
      refine ⟨⟨fun hm => ?_, h1⟩, fun k' => ?_⟩
      · rcases (h2 k).1 hm with rfl | hm
        · exact hk rfl
        · exact h.1 hm
      · rw [h2]
        constructor
        · rintro (h | h | h) <;> simp [h]
        · rintro (h | h | h) <;> simp [h]

/-- No column is used both with and without, or with two different, typing filters. -/
def NoClash (ks : List Str) : Prop := ∀ k ∈ ks, ∀ k' ∈ ks, baseName k = baseName k' → k = k'

theorem baseName_typed (key t : Str) (h : '|' ∉ key) : baseName (key ++ '|' :: t) = key := by
  induction key with
  | nil => simp [baseName]
  | cons c key ih =>
    simp only [List.mem_cons, not_or] at h
    have := ih h.2
    have hc : decide (c ≠ '|') = true := by simpa using Ne.symm h.1
    simp only [baseName, List.cons_append, List.takeWhile_cons, hc, if_true] at this ⊢
    rw [this]

theorem baseName_untyped (key : Str) (h : '|' ∉ key) : baseName key = key := by
  induction key with
  | nil => rfl
  | cons c key ih =>
    simp only [List.mem_cons, not_or] at h
    have := ih h.2
    have hc : decide (c ≠ '|') = true := by simpa using Ne.symm h.1
    simp only [baseName, List.cons_append, List.takeWhile_cons, hc, if_true] at this ⊢
    rw [this]

theorem putKey_new (key : Str) (v : Dicts) (qs : Querys) (h : key ∉ qkeys qs) : putKey key v qs = qs ++ [(key, v)] := by
  induction qs with
  | nil => rfl
  | cons x qs ih =>
    obtain ⟨k, ds⟩ := x
    simp only [qkeys, List.map_cons, List.mem_cons, not_or] at h
    rw [putKey, if_neg (Ne.symm h.1), ih h.2]; rfl

theorem retypeOne_spec (qs : Querys) (key : Str) (hn : (qkeys qs).Nodup) (hc : NoClash (qkeys qs)) :
    (qkeys (retypeOne qs key)).Nodup ∧ NoClash (qkeys (retypeOne qs key)) ∧
    matchRow py calls src row (retypeOne qs key) = matchRow py calls src row qs := by
  unfold retypeOne
  split
  · exact ⟨hn, hc, rfl⟩
  rename_i hb
  split
  · exact ⟨hn, hc, rfl⟩
  rename_i k ds hf
  split
  · exact ⟨hn, hc, rfl⟩
  rename_i t ht
  have hk : k = key := by simpa using List.find?_some hf
  subst hk
  have hmem : (k, ds) ∈ qs := List.mem_of_find?_eq_some hf
  have hkm : k ∈ qkeys qs := List.mem_map.2 ⟨_, hmem, rfl⟩
  have hbt := baseName_typed k t hb
  have hbk := baseName_untyped k hb
  have hne : k ++ '|' :: t ≠ k := fun h => by
    have := congrArg List.length h
    simp at this
  have hnew : k ++ '|' :: t ∉ qkeys qs := fun h => hne (hc _ h _ hkm (by rw [hbt, hbk]))
  rw [putKey_new _ _ _ hnew]
  have hkeys : qkeys ((qs ++ [(k ++ '|' :: t, ds)]).filter fun x => x.1 ≠ k) =
      ((qkeys qs).filter fun x => x ≠ k) ++ [k ++ '|' :: t] := by
    have h1 : ∀ l : Querys, (l.filter fun x => x.1 ≠ k).map (·.1) = (l.map (·.1)).filter fun x => x ≠ k := by
      intro l
      rw [List.filter_map]; rfl
    rw [qkeys, h1, List.map_append, List.filter_append]
    simp [hne, qkeys]
  refine ⟨?_, ?_, ?_⟩
  · rw [hkeys]
    refine List.nodup_append.2 ⟨hn.filter _, by simp, ?_⟩
    intro a ha b hb' hab
    simp only [List.mem_singleton] at hb'
    subst hb'; subst hab
    exact hnew (List.mem_filter.1 ha).1
  · rw [hkeys]
    intro a ha b hb' hab
    simp only [List.mem_append, List.mem_filter, List.mem_singleton] at ha hb'
    rcases ha with ⟨ha, hak⟩ | rfl <;> rcases hb' with ⟨hb', hbk'⟩ | rfl
    · exact hc _ ha _ hb' hab
    · have := hc _ ha _ hkm (by rw [hab, hbt, hbk])
      simp [this] at hak
    · have := hc _ hb' _ hkm (by rw [← hab, hbt, hbk])
      simp [this] at hbk'
    · rfl
  · have hu : ∀ ds', (k, ds') ∈ qs → ds' = ds := by
      intro ds' h'
      clear hf ht hkeys hnew hc
      induction qs with
      | nil => simp at hmem
      | cons x qs ih =>
        simp only [qkeys, List.map_cons, List.nodup_cons] at hn
        simp only [List.mem_cons] at hmem h'
        rcases hmem with hmem | hmem <;> rcases h' with h' | h'
        · rw [← hmem] at h'; exact (Prod.mk.inj h').2
        · exact absurd (List.mem_map.2 ⟨_, h', by rw [← hmem]⟩) hn.1
        · exact absurd (List.mem_map.2 ⟨_, hmem, by rw [← h']⟩) hn.1
        · exact ih hn.2 hmem (List.mem_map.2 ⟨_, hmem, rfl⟩) h'
    rw [Bool.eq_iff_iff]
    simp only [matchRow, List.all_eq_true, List.mem_filter, List.mem_append, List.mem_singleton]
    constructor
    · intro h x hx
      by_cases hxk : x.1 = k
      · obtain ⟨k', ds'⟩ := x
        simp only at hxk; subst hxk
        have := hu ds' hx
        subst this
        have := h (k' ++ '|' :: t, ds') ⟨Or.inr rfl, by simpa using hne⟩
        simpa only [hbt, hbk] using this
      · exact h x ⟨Or.inl hx, by simpa using hxk⟩
    · rintro h x ⟨hx | rfl, hxk⟩
      · exact h x hx
      · simpa only [hbt, hbk] using h (k, ds) hmem

theorem retype_match (qs : Querys) (hn : (qkeys qs).Nodup) (hc : NoClash (qkeys qs)) :
    matchRow py calls src row (retype qs) = matchRow py calls src row qs := by
  unfold retype
  generalize qs.map (·.1) = ks
  induction ks generalizing qs with
  | nil => rfl
  | cons k ks ih =>
    obtain ⟨h1, h2, h3⟩ := retypeOne_spec py calls row src qs k hn hc
    rw [List.foldl_cons, ih _ h1 h2, h3]

/-! ### The split -/

/-- The columns that are operands of the comparisons and INs joined by AND. -/
def operandCols : E → List Str
  | .and a b => operandCols a ++ operandCols b
  | .paren a => operandCols a
  | .cmp _ a b => (match a with | .col c => [c] | _ => []) ++ (match b with | .col c => [c] | _ => [])
  | .inl a _ => match a with | .col c => [c] | _ => []
  | _ => []

/-- Among the conditions joined by AND: the list of an IN has no column in it. -/
def inListsConst : E → Bool
  | .and a b => inListsConst a && inListsConst b
  | .paren a => inListsConst a
  | .inl _ l => !hasColL l
  | _ => true

/-- Among the conditions joined by AND: in a comparison written with the column of the primary table on the right and no
column on the left (`5 < a`), exchanging the operands does not matter for the row at hand. -/
def swapsHarmless (prim : Str → Bool) : E → Prop
  | .and a b => swapsHarmless prim a ∧ swapsHarmless prim b
  | .paren a => swapsHarmless prim a
  | .cmp op a (.col c) => prim c = true → hasCol a = false →
      (py.cmp op (sem text py.cmp calls row a) (row c) = .int 1 ↔
        py.cmp op (row c) (sem text py.cmp calls row a) = .int 1)
  | _ => True

/-- The data source compares as SQL does. -/
structure Faithful : Prop where
  cmp : ∀ op x y, src.cmp op x y = true ↔ py.cmp op x y = .int 1
  inn : ∀ x l, src.inn x l = true ↔ ∃ y ∈ l, py.cmp .eq x y = .int 1

theorem tv_cmp (op : Cmp) (x y : Val) : tv text (py.cmp op x y) = some true ↔ py.cmp op x y = .int 1 := by
  obtain ⟨t, h⟩ := cmp_truth py op x y
  rw [h, tv_ofTri]
  rcases t with _ | _ | _ <;> simp [ofTri]

theorem tv_one : tv text (.int 1) = some true := rfl

theorem parseCondition_some {prim : Str → Bool} {a b : E} {c : Str} {t : T} (h : parseCondition prim a b = some (c, t)) :
    prim c = true ∧ ((a = .col c ∧ hasCol b = false ∧ t = compile b) ∨
      (b = .col c ∧ hasCol a = false ∧ t = compile a)) := by
  unfold parseCondition at h
  split at h
  · split at h
    · split at h
      · simp at h
      · rename_i h1 h2
        simp only [Option.some.injEq, Prod.mk.injEq] at h
        obtain ⟨rfl, rfl⟩ := h
        exact ⟨h1, Or.inl ⟨rfl, by simpa using h2, rfl⟩⟩
    · simp at h
  · split at h
    · split at h
      · split at h
        · simp at h
        · rename_i h1 h2
          simp only [Option.some.injEq, Prod.mk.injEq] at h
          obtain ⟨rfl, rfl⟩ := h
          exact ⟨h1, Or.inr ⟨rfl, by simpa using h2, rfl⟩⟩
      · simp at h
    · simp at h

theorem parseIn_some {prim : Str → Bool} {a : E} {l : EL} {c : Str} {t : TL} (h : parseIn prim a l = some (c, t)) :
    prim c = true ∧ a = .col c ∧ t = compileL l := by
  unfold parseIn at h
  split at h
  · split at h
    · rename_i h1
      simp only [Option.some.injEq, Prod.mk.injEq] at h
      obtain ⟨rfl, rfl⟩ := h
      exact ⟨h1, rfl, rfl⟩
    · simp at h
  · simp at h

/-- What `split` guarantees of a condition. -/
structure SplitOk (e : E) (qs : Querys) (s : Split) : Prop where
  nodup : (qkeys s.querys).Nodup
  keys : ∀ k, k ∈ qkeys s.querys → k ∈ qkeys qs ∨ k ∈ operandCols e
  tree : condOk s.tree = true
  res : ∀ r, s.res = some r → condOk r = true
  sem : tv text (sem text py.cmp calls row e) = some true ∧ matchRow py calls src row qs = true ↔
    tv text (Sql.sem text py.cmp calls row s.tree) = some true ∧ matchRow py calls src row s.querys = true
  resSem : match s.res with
    | none => tv text (Sql.sem text py.cmp calls row s.tree) = some true
    | some r => tv text (Sql.sem text py.cmp calls row s.tree) = some true ↔
        tv text (Sql.sem text py.cmp calls row r) = some true

theorem splitOk_same (e : E) (qs : Querys) (hn : (qkeys qs).Nodup) (he : condOk e = true) :
    SplitOk text py calls row src e qs ⟨some e, e, qs⟩ :=
  { nodup := hn
    keys := fun _ h => Or.inl h
    tree := he
    res := fun r hr => by cases hr; exact he
    sem := Iff.rfl
    resSem := Iff.rfl }

theorem split_ok (prim : Str → Bool) (hf : Faithful py src) (hrow : ∀ c, row c = row (baseName c)) (e : E) (qs : Querys)
    (hn : (qkeys qs).Nodup) (he : condOk e = true) (hi : inListsConst e = true)
    (hs : swapsHarmless text py calls row prim e) :
    SplitOk text py calls row src e qs (split prim qs e) := by
  fun_induction split prim qs e with
  | case1 qs a b l r tree iha ihb =>
    simp only [condOk, Bool.and_eq_true] at he
    simp only [inListsConst, Bool.and_eq_true] at hi
    have ha : SplitOk text py calls row src a qs l := iha hn he.1 hi.1 hs.1
    have hb : SplitOk text py calls row src b l.querys r := ihb ha.nodup he.2 hi.2 hs.2
    have hsem : tv text (sem text py.cmp calls row (.and a b)) = some true ∧ matchRow py calls src row qs = true ↔
        tv text (sem text py.cmp calls row tree) = some true ∧ matchRow py calls src row r.querys = true := by
      have h1 := ha.sem
      have h2 := hb.sem
      simp only [tree, sem, tv_ofTri, and3_true]
      constructor
      · rintro ⟨⟨x, y⟩, z⟩
        have := h1.1 ⟨x, z⟩
        have h3 := h2.1 ⟨y, this.2⟩
        exact ⟨⟨this.1, h3.1⟩, h3.2⟩
      · rintro ⟨⟨x, y⟩, z⟩
        have := h2.2 ⟨y, z⟩
        have h3 := h1.2 ⟨x, this.2⟩
        exact ⟨⟨h3.1, this.1⟩, h3.2⟩
    have htree : tv text (sem text py.cmp calls row tree) = some true ↔
        tv text (sem text py.cmp calls row l.tree) = some true ∧ tv text (sem text py.cmp calls row r.tree) = some true := by
      simp only [tree, sem, tv_ofTri, and3_true]
    have hl := ha.resSem
    have hr := hb.resSem
    refine ⟨hb.nodup, ?_, ?_, ?_, hsem, ?_⟩
    · intro k hk
      rcases hb.keys k hk with h | h
      · rcases ha.keys k h with h | h
        · exact Or.inl h
        · exact Or.inr (by simp [operandCols, h])
      · exact Or.inr (by simp [operandCols, h])
    · simp only [tree, condOk, ha.tree, hb.tree, Bool.and_self]
    · intro x hx
      cases hL : l.res <;> cases hR : r.res <;> simp only [hL, hR] at hx
      · cases hx
      · cases hx; exact hb.res _ hR
      · cases hx; exact ha.res _ hL
      · cases hx; simp only [tree, condOk, ha.tree, hb.tree, Bool.and_self]
    · cases hL : l.res <;> cases hR : r.res <;> simp only [hL, hR] at hl hr ⊢
      · exact htree.2 ⟨hl, hr⟩
      · rw [htree, ← hr]; exact ⟨fun h => h.2, fun h => ⟨hl, h⟩⟩
      · rw [htree, ← hl]; exact ⟨fun h => h.1, fun h => ⟨h, hr⟩⟩
  | case2 qs op a b c t hp =>
    obtain ⟨hprim, hcase⟩ := parseCondition_some hp
    have hk := build_keys c (.cmp op) (.one t) qs hn
    simp only [condOk, Bool.and_eq_true] at he
    refine ⟨hk.1, ?_, rfl, by simp, ?_, by simp [sem, tv_one]⟩
    · intro k h
      rcases (hk.2 k).1 h with rfl | h
      · right
        rcases hcase with ⟨rfl, _⟩ | ⟨rfl, _⟩ <;> simp [operandCols]
      · exact Or.inl h
    · have key : tv text (sem text py.cmp calls row (.cmp op a b)) = some true ↔
          holds py calls src (row (baseName c)) (.cmp op, .one t) = true := by
        rw [← hrow c]
        simp only [sem, tv_cmp, holds, hf.cmp]
        rcases hcase with ⟨rfl, hb, rfl⟩ | ⟨rfl, ha, rfl⟩
        · rw [scalar_ok text py calls _ b he.2, ← sem_noCol text py calls row (fun _ => .null) b hb]
          simp only [sem]
        · rw [scalar_ok text py calls _ a he.1, ← sem_noCol text py calls row (fun _ => .null) a ha]
          simp only [sem]
          exact hs hprim ha
      rw [key, build_match]
      simp only [sem, tv_one, true_and, Bool.and_eq_true]
      exact And.comm
  | case3 qs op a b hp => exact splitOk_same text py calls row src _ _ hn he
  | case4 qs a l c t hp =>
    obtain ⟨hprim, rfl, rfl⟩ := parseIn_some hp
    have hk := build_keys c .inn (.many (compileL l)) qs hn
    simp only [condOk, Bool.and_eq_true] at he
    refine ⟨hk.1, ?_, rfl, by simp, ?_, by simp [sem, tv_one]⟩
    · intro k h
      rcases (hk.2 k).1 h with rfl | h
      · right; simp [operandCols]
      · exact Or.inl h
    · have hl : hasColL l = false := by simpa [inListsConst] using hi
      have key : tv text (sem text py.cmp calls row (.inl (.col c) l)) = some true ↔
          holds py calls src (row (baseName c)) (.inn, .many (compileL l)) = true := by
        rw [← hrow c]
        simp only [sem, tv_ofTri, in3_true, tv_cmp, holds, hf.inn]
        rw [scalar_okL text py calls _ l he.2, ← sem_noColL text py calls row (fun _ => .null) l hl]
      rw [key, build_match]
      simp only [sem, tv_one, true_and, Bool.and_eq_true]
      exact And.comm
  | case5 qs a l hp => exact splitOk_same text py calls row src _ _ hn he
  | case6 qs a x ih =>
    have h := ih hn (by simpa only [condOk] using he) (by simpa only [inListsConst] using hi) hs
    refine ⟨h.nodup, fun k hk => by simpa only [operandCols] using h.keys k hk, by simpa only [condOk] using h.tree,
      h.res, ?_, ?_⟩
    · simpa only [sem] using h.sem
    · simpa only [sem] using h.resSem
  | case7 qs e => exact splitOk_same text py calls row src _ _ hn he

/-! ## C42 -/

/-- **C42**: for every WHERE clause of C31's class whose IN lists hold no columns, and in which no column is written with two
different typing filters, a row is selected (by the pushed conditions and the residual filter together) iff SQL says
the clause is TRUE of it — provided that comparisons written `constant op column` are not affected by exchanging the
operands.  The violations below show that the three conditions cannot be dropped. -/
theorem C42_pushdown_partial (prim : Str → Bool) (hf : Faithful py src) (hrow : ∀ c, row c = row (baseName c)) (e : E)
    (he : condOk e = true) (hi : inListsConst e = true) (hc : NoClash (operandCols e))
    (hs : swapsHarmless text py calls row prim e) :
    selected py calls src row (compileWhere prim e) = true ↔ tv text (sem text py.cmp calls row e) = some true := by
  have h := split_ok text py calls row src prim hf hrow e [] (by simp [qkeys]) he hi hs
  have hkeys : NoClash (qkeys (split prim [] e).querys) := fun k hk k' hk' heq =>
    hc k (by simpa [qkeys] using h.keys k hk) k' (by simpa [qkeys] using h.keys k' hk') heq
  have hnil : matchRow py calls src row [] = true := rfl
  have hsem := h.sem
  rw [hnil] at hsem
  simp only [and_true] at hsem
  rw [hsem]
  simp only [selected, compileWhere, retype_match py calls row src _ h.nodup hkeys, Bool.and_eq_true]
  have hr := h.resSem
  have hro := h.res
  cases hres : (split prim [] e).res with
  | none =>
    simp only [hres] at hr
    simp [hr]
  | some r =>
    simp only [hres] at hr
    rw [hr]
    simp only [Option.map_some, cond_ok text py calls row r (hro r hres)]
    exact And.comm

/-- Comparisons with the column on the left (or between expressions) are never exchanged. -/
theorem C42_column_left (prim : Str → Bool) (op : Cmp) (a b : E) (hb : ∀ c, b ≠ .col c) :
    swapsHarmless text py calls row prim (.cmp op a b) := by
  cases b <;> first | exact True.intro | exact absurd rfl (hb _)

/-- `constant = column` and `constant <> column` are not affected when both are texts or both numbers. -/
theorem C42_constant_eq (prim : Str → Bool) (op : Cmp) (hop : op = .eq ∨ op = .neq) (a : E) (c : Str)
    (hk : SameKind (sem text py.cmp calls row a) (row c)) :
    swapsHarmless text py calls row prim (.cmp op a (.col c)) := by
  intro _ _
  rw [C28_mirror py op _ _ hk]
  rcases hop with rfl | rfl <;> exact Iff.rfl

/-- The faithful source. -/
def idealSrc : Src where
  cmp op x y := decide (py.cmp op x y = .int 1)
  inn x l := l.any fun y => decide (py.cmp .eq x y = .int 1)

theorem idealSrc_faithful : Faithful py (idealSrc py) :=
  ⟨fun op x y => by simp [idealSrc], fun x l => by simp [idealSrc]⟩

/-- The theorem applies to `a > 1 AND (b IN (1, 2) AND (c = d OR a < 3)) AND 5 = b`. -/
example (hrow : ∀ c, row c = row (baseName c)) (hk : SameKind (.int 5) (row ['b'])) :
    let e := E.and (.and (.cmp .gt (.col ['a']) (.lit (.int 1))) (.paren (.and
      (.inl (.col ['b']) (.cons (.lit (.int 1)) (.cons (.lit (.int 2)) .nil)))
      (.paren (.or (.cmp .eq (.col ['c']) (.col ['d'])) (.cmp .lt (.col ['a']) (.lit (.int 3))))))))
      (.cmp .eq (.lit (.int 5)) (.col ['b']))
    selected py calls (idealSrc py) row (compileWhere (fun _ => true) e) = true ↔
      tv text (sem text py.cmp calls row e) = some true := by
  refine C42_pushdown_partial text py calls row _ _ (idealSrc_faithful py) hrow _ rfl rfl ?_ ?_
  · have : ∀ k ∈ [['a'], ['b'], ['b']], baseName k = k := by decide
    intro k hk k' hk' h
    rwa [this k hk, this k' hk'] at h
  · exact ⟨⟨trivial, trivial, trivial⟩, C42_constant_eq text py calls row _ .eq (Or.inl rfl) _ _ hk⟩

/-- **C42 is violated by `5 < a`**: it is pushed as `a < 5`; a row with `a = 3` is selected, one with `a = 7` is not. -/
theorem C42_constant_left_violated :
    let e := E.cmp .lt (.lit (.int 5)) (.col ['a'])
    (selected py calls (idealSrc py) (fun _ => .int 3) (compileWhere (fun _ => true) e) = true ∧
      sem text py.cmp calls (fun _ => .int 3) e = .int 0) ∧
    (selected py calls (idealSrc py) (fun _ => .int 7) (compileWhere (fun _ => true) e) = false ∧
      sem text py.cmp calls (fun _ => .int 7) e = .int 1) := ⟨⟨rfl, rfl⟩, rfl, rfl⟩

/-- **C42 is violated by `a IN (1, b)`**: the list is evaluated before there is a row; a row with `a = b = 2` is lost. -/
theorem C42_in_column_violated :
    let e := E.inl (.col ['a']) (.cons (.lit (.int 1)) (.cons (.col ['b']) .nil))
    selected py calls (idealSrc py) (fun _ => .int 2) (compileWhere (fun _ => true) e) = false ∧
      sem text py.cmp calls (fun _ => .int 2) e = .int 1 := ⟨rfl, rfl⟩

/-- **C42 is violated when a column is used with and without its type**: `` `a|int` > 5 AND a > 1 `` loses its first
condition; a row with `a = 3` is selected. -/
theorem C42_typed_column_violated :
    let e := E.and (.cmp .gt (.col "a|int".toList) (.lit (.int 5))) (.cmp .gt (.col ['a']) (.lit (.int 1)))
    selected py calls (idealSrc py) (fun _ => .int 3) (compileWhere (fun _ => true) e) = true ∧
      sem text py.cmp calls (fun _ => .int 3) e = .int 0 := ⟨rfl, rfl⟩

/-! ### No pushed condition is lost -/

/-- Every dictionary of conditions has each operator at most once (so that writing it as a Python dictionary loses none). -/
def DistinctOps (qs : Querys) : Prop := ∀ x ∈ qs, ∀ d ∈ x.2, (d.map (·.1)).Nodup

theorem addCond_distinct (op : QOp) (v : QVal) (ds : Dicts) (h : ∀ d ∈ ds, (d.map (·.1)).Nodup) :
    ∀ d ∈ addCond op v ds, (d.map (·.1)).Nodup := by
  induction ds with
  | nil => simp [addCond]
  | cons d ds ih =>
    unfold addCond
    split
    · rename_i hl
      intro d' hd'
      rcases List.mem_cons.1 hd' with rfl | hd'
      · rw [List.map_append, List.nodup_append]
        refine ⟨h d (by simp), by simp, ?_⟩
        intro a ha b hb
        simp only [List.map_cons, List.map_nil, List.mem_singleton] at hb
        subst hb
        obtain ⟨x, hx, rfl⟩ := List.mem_map.1 ha
        have := List.all_eq_true.1 hl x hx
        simpa using this
      · exact h d' (by simp [hd'])
    · intro d' hd'
      rcases List.mem_cons.1 hd' with rfl | hd'
      · exact h d' (by simp)
      · exact ih (fun d hd => h d (by simp [hd])) d' hd'

theorem build_distinct (key : Str) (op : QOp) (v : QVal) (qs : Querys) (h : DistinctOps qs) :
    DistinctOps (build key op v qs) := by
  induction qs with
  | nil =>
    intro x hx
    simp only [build, List.mem_singleton] at hx
    subst hx
    exact addCond_distinct op v [[]] (by simp)
  | cons x qs ih =>
    obtain ⟨k, ds⟩ := x
    unfold build
    split
    · intro x hx
      rcases List.mem_cons.1 hx with rfl | hx
      · exact addCond_distinct op v ds (h (k, ds) (by simp))
      · exact h x (by simp [hx])
    · intro x hx
      rcases List.mem_cons.1 hx with rfl | hx
      · exact h (k, ds) (by simp)
      · exact ih (fun x hx => h x (by simp [hx])) x hx

theorem split_distinct (prim : Str → Bool) (qs : Querys) (e : E) (h : DistinctOps qs) :
    DistinctOps (split prim qs e).querys := by
  fun_induction split prim qs e with
  | case1 qs a b l r tree iha ihb => exact ihb (iha h)
  | case2 qs op a b c t hp => exact build_distinct _ _ _ _ h
  | case3 qs op a b hp => exact h
  | case4 qs a l c t hp => exact build_distinct _ _ _ _ h
  | case5 qs a l hp => exact h
  | case6 qs a x ih => exact ih h
  | case7 qs e => exact h

theorem putKey_distinct (key : Str) (v : Dicts) (qs : Querys) (h : DistinctOps qs)
    (hv : ∀ d ∈ v, (d.map (·.1)).Nodup) : DistinctOps (putKey key v qs) := by
  induction qs with
  | nil =>
    intro x hx
    simp only [putKey, List.mem_singleton] at hx
    subst hx; exact hv
  | cons x qs ih =>
    obtain ⟨k, ds⟩ := x
    unfold putKey
    split
    · intro x hx
      rcases List.mem_cons.1 hx with rfl | hx
      · exact hv
      · exact h x (by simp [hx])
    · intro x hx
      rcases List.mem_cons.1 hx with rfl | hx
      · exact h (k, ds) (by simp)
      · exact ih (fun x hx => h x (by simp [hx])) x hx

theorem retypeOne_distinct (qs : Querys) (key : Str) (h : DistinctOps qs) : DistinctOps (retypeOne qs key) := by
  unfold retypeOne
  split
  · exact h
  · split
    · exact h
    · rename_i k ds hf
      split
      · exact h
      · intro x hx
        have hm := List.mem_of_find?_eq_some hf
        exact putKey_distinct _ ds qs h (h (k, ds) hm) x (List.mem_filter.1 hx).1

/-- **C42**: among the conditions pushed for one column, two with the same operator (`a > 1 AND a > 5`) are always put
into different dictionaries, so neither overwrites the other. -/
theorem C42_no_condition_overwritten (prim : Str → Bool) (e : E) : DistinctOps (compileWhere prim e).1 := by
  unfold compileWhere retype
  simp only
  have h := split_distinct prim [] e (by intro x hx; simp at hx)
  generalize (split prim [] e).querys = qs at h
  generalize qs.map (·.1) = ks
  induction ks generalizing qs with
  | nil => exact h
  | cons k ks ih => exact ih _ (retypeOne_distinct qs k h)

/-- Non-vacuity: `a > 1 AND a > 5 AND a < 9` gives two dictionaries for `a`. -/
example : ((compileWhere (fun _ => true) (.and (.and (.cmp .gt (.col ['a']) (.lit (.int 1)))
    (.cmp .gt (.col ['a']) (.lit (.int 5)))) (.cmp .lt (.col ['a']) (.lit (.int 9))))).1.map fun x =>
      (x.1, x.2.map fun d => d.map (·.1))) = [("a|int".toList, [[.cmp .gt, .cmp .lt], [.cmp .gt]])] := by decide +kernel

/-! ### The type given to a column -/

theorem inferType_some (s : Str) (l : List (QOp × QVal)) (t : Str) :
    inferType (some s) l = some t ↔ t = s ∧ ∀ x ∈ l, ∀ y, constType x = some y → y = s := by
  induction l with
  | nil => simp [inferType, eq_comm]
  | cons x xs ih =>
    unfold inferType
    cases hx : constType x with
    | none => simp only [ih, List.mem_cons, forall_eq_or_imp, hx]; simp
    | some y =>
      simp only [List.mem_cons, forall_eq_or_imp, hx]
      by_cases h : s = y
      · subst h; simp [ih]
      · simp only [if_neg h, reduceCtorEq, false_iff]
        rintro ⟨_, h2, _⟩
        exact h (h2 y rfl).symm

/-- Specification: a comparison (not IN) with a constant of the type named `t`. -/
def ComparesWithA (t : Str) (x : QOp × QVal) : Prop :=
  ∃ op, (∃ i, x = (.cmp op, .one (.const (.int i))) ∧ t = "int".toList) ∨
    (∃ q, x = (.cmp op, .one (.const (.flt q))) ∧ t = "float".toList) ∨
    (∃ b, x = (.cmp op, .one (.const (.bool b))) ∧ t = "bool".toList)

theorem constType_iff (x : QOp × QVal) (t : Str) : constType x = some t ↔ ComparesWithA t x := by
  constructor
  · intro h
    unfold constType at h
    split at h
    · exact ⟨_, Or.inl ⟨_, rfl, (Option.some.inj h).symm⟩⟩
    · exact ⟨_, Or.inr (Or.inl ⟨_, rfl, (Option.some.inj h).symm⟩)⟩
    · exact ⟨_, Or.inr (Or.inr ⟨_, rfl, (Option.some.inj h).symm⟩)⟩
    · cases h
  · rintro ⟨op, ⟨i, rfl, rfl⟩ | ⟨i, rfl, rfl⟩ | ⟨i, rfl, rfl⟩⟩ <;> rfl

/-- **C42**: the values of a column without a type are converted to the type `t` by the data source iff it is compared
(not by IN) with constants of type `t` and with constants of no other type among `int`, `float`, `bool`. -/
theorem C42_inferred_type (l : List (QOp × QVal)) (t : Str) :
    inferType none l = some t ↔
      (∃ x ∈ l, ComparesWithA t x) ∧ ∀ x ∈ l, ∀ y, ComparesWithA y x → y = t := by
  simp only [← constType_iff]
  induction l with
  | nil => simp [inferType]
  | cons x xs ih =>
    unfold inferType
    cases hx : constType x with
    | none => simp only [ih, List.mem_cons, forall_eq_or_imp, exists_eq_or_imp, hx]; simp
    | some y =>
      simp only [inferType_some, List.mem_cons, forall_eq_or_imp, exists_eq_or_imp, hx]
      constructor
      · rintro ⟨rfl, h⟩; exact ⟨Or.inl rfl, by simp, h⟩
      · rintro ⟨_, h2, h3⟩
        have := h2 y rfl
        subst this
        exact ⟨rfl, h3⟩

/-- **C42**, the effect: a single column compared with constants of one type is pushed under that type; constants of two
types leave it untyped. -/
example : ((compileWhere (fun _ => true) (.and (.cmp .gt (.col ['a']) (.lit (.int 1)))
      (.cmp .lt (.col ['a']) (.lit (.int 5))))).1.map (·.1)) = ["a|int".toList] ∧
    ((compileWhere (fun _ => true) (.and (.cmp .gt (.col ['a']) (.lit (.int 1)))
      (.cmp .lt (.col ['a']) (.lit (.flt (5 / 2)))))).1.map (·.1)) = ["a".toList] := by decide +kernel

/-! ## C43 -/

/-- **C43**: a DELETE the compiler accepts deletes exactly the rows its WHERE clause selects, with the exceptions of C42. -/
theorem C43_delete_partial (prim : Str → Bool) (hf : Faithful py src) (hrow : ∀ c, row c = row (baseName c)) (e : E)
    (he : condOk e = true) (hi : inListsConst e = true) (hc : NoClash (operandCols e))
    (hs : swapsHarmless text py calls row prim e) (qs : Querys) (hd : compileDelete prim (some e) = some qs) :
    matchRow py calls src row qs = true ↔ tv text (sem text py.cmp calls row e) = some true := by
  rw [← C42_pushdown_partial text py calls row src prim hf hrow e he hi hc hs]
  unfold compileDelete at hd
  simp only at hd
  split at hd
  · rename_i tree q h
    simp only [Option.some.injEq] at hd
    simp only [selected, compileWhere, h, Option.map_none, hd, Bool.and_true]
  · simp at hd

mutual
/-- The columns an expression mentions. -/
def columnsOf : E → List Str
  | .lit _ => []
  | .col c => [c]
  | .cmp _ a b => columnsOf a ++ columnsOf b
  | .and a b => columnsOf a ++ columnsOf b
  | .or a b => columnsOf a ++ columnsOf b
  | .not a => columnsOf a
  | .is a _ => columnsOf a
  | .inl a l => columnsOf a ++ columnsOfL l
  | .between a lo hi => columnsOf a ++ columnsOf lo ++ columnsOf hi
  | .paren a => columnsOf a
  | .ite c t f => columnsOf c ++ columnsOf t ++ columnsOf f
  | .ifnull a b => columnsOf a ++ columnsOf b
  | .coalesce a l => columnsOf a ++ columnsOfL l
  | .caseC ws => columnsOfW ws
  | .caseV a ws => columnsOf a ++ columnsOfW ws
  | .call _ l => columnsOfL l
def columnsOfL : EL → List Str
  | .nil => []
  | .cons e l => columnsOf e ++ columnsOfL l
def columnsOfW : WL → List Str
  | .noElse => []
  | .els e => columnsOf e
  | .when c t ws => columnsOf c ++ columnsOf t ++ columnsOfW ws
end

theorem not_isEmpty_append (a b : List Str) : (!(a ++ b).isEmpty) = (!a.isEmpty || !b.isEmpty) := by
  cases a <;> cases b <;> rfl

mutual
theorem hasCol_eq : ∀ e : E, hasCol e = !(columnsOf e).isEmpty
  | .lit _ => rfl
  | .col _ => rfl
  | .cmp _ a b => by simp only [hasCol, columnsOf, not_isEmpty_append, hasCol_eq a, hasCol_eq b]
  | .and a b => by simp only [hasCol, columnsOf, not_isEmpty_append, hasCol_eq a, hasCol_eq b]
  | .or a b => by simp only [hasCol, columnsOf, not_isEmpty_append, hasCol_eq a, hasCol_eq b]
  | .not a => by simp only [hasCol, columnsOf, hasCol_eq a]
  | .is a _ => by simp only [hasCol, columnsOf, hasCol_eq a]
  | .inl a l => by simp only [hasCol, columnsOf, not_isEmpty_append, hasCol_eq a, hasColL_eq l]
  | .between a lo hi => by
    simp only [hasCol, columnsOf, not_isEmpty_append, hasCol_eq a, hasCol_eq lo, hasCol_eq hi]
  | .paren a => by simp only [hasCol, columnsOf, hasCol_eq a]
  | .ite c t f => by simp only [hasCol, columnsOf, not_isEmpty_append, hasCol_eq c, hasCol_eq t, hasCol_eq f]
  | .ifnull a b => by simp only [hasCol, columnsOf, not_isEmpty_append, hasCol_eq a, hasCol_eq b]
  | .coalesce a l => by simp only [hasCol, columnsOf, not_isEmpty_append, hasCol_eq a, hasColL_eq l]
  | .caseC ws => by simp only [hasCol, columnsOf, hasColW_eq ws]
  | .caseV a ws => by simp only [hasCol, columnsOf, not_isEmpty_append, hasCol_eq a, hasColW_eq ws]
  | .call _ l => by simp only [hasCol, columnsOf, hasColL_eq l]
theorem hasColL_eq : ∀ l : EL, hasColL l = !(columnsOfL l).isEmpty
  | .nil => rfl
  | .cons e l => by simp only [hasColL, columnsOfL, not_isEmpty_append, hasCol_eq e, hasColL_eq l]
theorem hasColW_eq : ∀ ws : WL, hasColW ws = !(columnsOfW ws).isEmpty
  | .noElse => rfl
  | .els e => by simp only [hasColW, columnsOfW, hasCol_eq e]
  | .when c t ws => by simp only [hasColW, columnsOfW, not_isEmpty_append, hasCol_eq c, hasCol_eq t, hasColW_eq ws]
end

/-- Clauses that can be pushed completely: comparisons of a column of the table with an expression without columns, INs on
such a column, and their conjunctions. -/
def pushable (prim : Str → Bool) : E → Bool
  | .and a b => pushable prim a && pushable prim b
  | .paren a => pushable prim a
  | .cmp _ a b => (match a with | .col c => prim c && (columnsOf b).isEmpty | _ => false) ||
      (match b with | .col c => prim c && (columnsOf a).isEmpty | _ => false)
  | .inl (.col c) _ => prim c
  | _ => false

theorem isSome_guard {α : Type} (p q : Bool) (x : α) :
    (if p = true then (if q = true then none else some x) else none).isSome = (p && !q) := by
  cases p <;> cases q <;> rfl

theorem parseCondition_iff (prim : Str → Bool) (op : Cmp) (a b : E) :
    (parseCondition prim a b).isSome = pushable prim (.cmp op a b) := by
  unfold parseCondition pushable
  have e : ∀ x : E, (columnsOf x).isEmpty = !hasCol x := fun x => by rw [hasCol_eq]; simp
  simp only [e]
  cases a <;> cases b <;> simp only [isSome_guard] <;> simp [hasCol]

theorem split_res_none (prim : Str → Bool) (qs : Querys) (e : E) :
    (split prim qs e).res = none ↔ pushable prim e = true := by
  fun_induction split prim qs e with
  | case1 qs a b l r tree iha ihb =>
    simp only [pushable, Bool.and_eq_true, ← iha, ← ihb]
    cases l.res <;> cases r.res <;> simp
  | case2 qs op a b c t hp => simp [← parseCondition_iff, hp]
  | case3 qs op a b hp =>
    have := parseCondition_iff prim op a b
    rw [hp] at this
    simp [← this]
  | case4 qs a l c t hp =>
    obtain ⟨h1, rfl, _⟩ := parseIn_some hp
    simp [pushable, h1]
  | case5 qs a l hp =>
    simp only [reduceCtorEq, false_iff]
    cases a <;> simp_all [parseIn, pushable]
  | case6 qs a x ih => simpa only [pushable] using ih
  | case7 qs e =>
    simp only [reduceCtorEq, false_iff]
    cases e <;> simp_all [pushable]

/-- **C43**: a DELETE is rejected exactly when some part of its clause cannot be pushed to the data source; it is never
carried out with part of its clause ignored. -/
theorem C43_rejected_iff (prim : Str → Bool) (e : E) :
    compileDelete prim (some e) = none ↔ pushable prim e = false := by
  have h := split_res_none prim [] e
  unfold compileDelete
  simp only
  split
  · rename_i tree q hs
    rw [hs] at h
    simp [h.1 rfl]
  · rename_i r tree q hs
    rw [hs] at h
    simpa using h

/-- **C43**: a DELETE without WHERE is accepted and deletes every row. -/
theorem C43_no_where (prim : Str → Bool) (row : Str → Val) :
    ∃ qs, compileDelete prim none = some qs ∧ matchRow py calls (idealSrc py) row qs = true := ⟨[], rfl, rfl⟩

/-- `DELETE … WHERE a > 1 AND b IN (1, 2)` is accepted, `… WHERE a > 1 OR b = 1` and `… WHERE NOT a = 1` are rejected. -/
example : pushable (fun _ => true) (.and (.cmp .gt (.col ['a']) (.lit (.int 1)))
      (.inl (.col ['b']) (.cons (.lit (.int 1)) (.cons (.lit (.int 2)) .nil)))) = true ∧
    pushable (fun _ => true) (.or (.cmp .gt (.col ['a']) (.lit (.int 1))) (.cmp .eq (.col ['b']) (.lit (.int 1)))) = false ∧
    pushable (fun _ => true) (.not (.cmp .eq (.col ['a']) (.lit (.int 1)))) = false := ⟨rfl, rfl, rfl⟩

/-- **C43 is violated by `DELETE … WHERE 5 < a`**: it is accepted and deletes the rows with `a < 5`, keeping the others. -/
theorem C43_constant_left_violated :
    ∃ qs, compileDelete (fun _ => true) (some (.cmp .lt (.lit (.int 5)) (.col ['a']))) = some qs ∧
      matchRow py calls (idealSrc py) (fun _ => .int 3) qs = true ∧
      matchRow py calls (idealSrc py) (fun _ => .int 7) qs = false := ⟨_, rfl, rfl, rfl⟩

end
end Verif.Props
