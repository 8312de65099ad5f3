import Verif.Spec.JsonHeap
import Verif.Props.Json
/-! C156: JSON functions and the documents of the row. -/
namespace Verif.Props.JsonHeapLemmas
open Verif.Val Verif.Json Verif.JsonHeap Verif.JsonHeapSpec

mutual
theorem own_weaken {h h' : Heap} {F F' : Nat → Prop} (hF : ∀ a, F a → F' a) (hh : ∀ a, F a → h' a = h a) (j : J) (v : V)
    (ho : Own h j v F) : Own h' j v F' := by
  match j with
  | .arr l =>
    simp only [Own] at ho ⊢
    obtain ⟨a, vs, rfl, hc, ha, ho⟩ := ho
    exact ⟨a, vs, rfl, by rw [hh a ha, hc], hF a ha, ownL_weaken (fun b hb => ⟨hF b hb.1, hb.2⟩) (fun b hb => hh b hb.1) l vs ho⟩
  | .obj d =>
    simp only [Own] at ho ⊢
    obtain ⟨a, vs, rfl, hc, ha, ho⟩ := ho
    exact ⟨a, vs, rfl, by rw [hh a ha, hc], hF a ha, ownO_weaken (fun b hb => ⟨hF b hb.1, hb.2⟩) (fun b hb => hh b hb.1) d vs ho⟩
  | .null => simpa only [Own] using ho
  | .bool _ => simpa only [Own] using ho
  | .int _ => simpa only [Own] using ho
  | .flt _ => simpa only [Own] using ho
  | .str _ => simpa only [Own] using ho
theorem ownL_weaken {h h' : Heap} {F F' : Nat → Prop} (hF : ∀ a, F a → F' a) (hh : ∀ a, F a → h' a = h a) (l : List J) (vs : List V)
    (ho : OwnL h l vs F) : OwnL h' l vs F' := by
  match l with
  | [] => simpa only [OwnL] using ho
  | j :: l =>
    simp only [OwnL] at ho ⊢
    obtain ⟨v, rest, F1, F2, rfl, h1, h2, o1, o2⟩ := ho
    exact ⟨v, rest, F1, F2, rfl, fun a ha => ⟨hF a (h1 a ha).1, (h1 a ha).2⟩, fun a ha => hF a (h2 a ha),
      own_weaken (fun _ h => h) (fun a ha => hh a (h1 a ha).1) j v o1, ownL_weaken (fun _ h => h) (fun a ha => hh a (h2 a ha)) l rest o2⟩
theorem ownO_weaken {h h' : Heap} {F F' : Nat → Prop} (hF : ∀ a, F a → F' a) (hh : ∀ a, F a → h' a = h a) (d : List (Str × J))
    (vs : List (Str × V)) (ho : OwnO h d vs F) : OwnO h' d vs F' := by
  match d with
  | [] => simpa only [OwnO] using ho
  | (k, j) :: d =>
    simp only [OwnO] at ho ⊢
    obtain ⟨v, rest, F1, F2, rfl, h1, h2, o1, o2⟩ := ho
    exact ⟨v, rest, F1, F2, rfl, fun a ha => ⟨hF a (h1 a ha).1, (h1 a ha).2⟩, fun a ha => hF a (h2 a ha),
      own_weaken (fun _ h => h) (fun a ha => hh a (h1 a ha).1) j v o1, ownO_weaken (fun _ h => h) (fun a ha => hh a (h2 a ha)) d rest o2⟩
end

mutual
theorem own_shows {h : Heap} {F : Nat → Prop} (j : J) (v : V) (ho : Own h j v F) : Shows h j v := by
  match j with
  | .arr l =>
    simp only [Own] at ho
    simp only [Shows]
    obtain ⟨a, vs, rfl, hc, ha, ho⟩ := ho
    exact ⟨a, vs, rfl, hc, ownL_shows l vs ho⟩
  | .obj d =>
    simp only [Own] at ho
    simp only [Shows]
    obtain ⟨a, vs, rfl, hc, ha, ho⟩ := ho
    exact ⟨a, vs, rfl, hc, ownO_shows d vs ho⟩
  | .null => simpa only [Own, Shows] using ho
  | .bool _ => simpa only [Own, Shows] using ho
  | .int _ => simpa only [Own, Shows] using ho
  | .flt _ => simpa only [Own, Shows] using ho
  | .str _ => simpa only [Own, Shows] using ho
theorem ownL_shows {h : Heap} {F : Nat → Prop} (l : List J) (vs : List V) (ho : OwnL h l vs F) : ShowsL h l vs := by
  match l with
  | [] => simpa only [OwnL, ShowsL] using ho
  | j :: l =>
    simp only [OwnL] at ho
    simp only [ShowsL]
    obtain ⟨v, rest, F1, F2, rfl, h1, h2, o1, o2⟩ := ho
    exact ⟨v, rest, rfl, own_shows j v o1, ownL_shows l rest o2⟩
theorem ownO_shows {h : Heap} {F : Nat → Prop} (d : List (Str × J)) (vs : List (Str × V)) (ho : OwnO h d vs F) : ShowsO h d vs := by
  match d with
  | [] => simpa only [OwnO, ShowsO] using ho
  | (k, j) :: d =>
    simp only [OwnO] at ho
    simp only [ShowsO]
    obtain ⟨v, rest, F1, F2, rfl, h1, h2, o1, o2⟩ := ho
    exact ⟨v, rest, rfl, own_shows j v o1, ownO_shows d rest o2⟩
end

theorem own_scalar {h : Heap} {F : Nat → Prop} {j : J} (hc : container j = false) {v : V} : Own h j v F ↔ v = .scalar j := by
  cases j <;> simp_all [Own, container]

/-! ### Lists -/

theorem ownL_length {h : Heap} {F : Nat → Prop} {l : List J} {vs : List V} (ho : OwnL h l vs F) : vs.length = l.length := by
  induction l generalizing vs F with
  | nil => simp only [OwnL] at ho; rw [ho]; rfl
  | cons j l ih =>
    simp only [OwnL] at ho
    obtain ⟨v, rest, F1, F2, rfl, h1, h2, o1, o2⟩ := ho
    simp [ih o2]

theorem ownL_get {h : Heap} {F : Nat → Prop} {l : List J} {vs : List V} (ho : OwnL h l vs F) {n : Nat} {x : J} (hx : l[n]? = some x) :
    ∃ xv, vs[n]? = some xv ∧ Own h x xv F := by
  induction l generalizing vs F n with
  | nil => simp at hx
  | cons j l ih =>
    simp only [OwnL] at ho
    obtain ⟨v, rest, F1, F2, rfl, h1, h2, o1, o2⟩ := ho
    cases n with
    | zero => simp at hx; subst hx; exact ⟨v, by simp, own_weaken (fun a ha => (h1 a ha).1) (fun _ _ => rfl) _ _ o1⟩
    | succ n =>
      obtain ⟨xv, e, o⟩ := ih o2 (by simpa using hx)
      exact ⟨xv, by simpa using e, own_weaken h2 (fun _ _ => rfl) _ _ o⟩

theorem ownL_none {h : Heap} {F : Nat → Prop} {l : List J} {vs : List V} (ho : OwnL h l vs F) {n : Nat} (hx : l[n]? = none) : vs[n]? = none := by
  rw [List.getElem?_eq_none_iff] at hx ⊢
  rw [ownL_length ho]; exact hx

theorem ownL_update {h h' : Heap} {F : Nat → Prop} {l : List J} {vs : List V} (ho : OwnL h l vs F) {n : Nat} {x x' : J} {xv : V}
    (hx : l[n]? = some x) (hv : vs[n]? = some xv)
    (hs : ∀ F' : Nat → Prop, (∀ a, F' a → F a) → Own h x xv F' → Own h' x' xv F' ∧ ∀ a, ¬ F' a → h' a = h a) :
    OwnL h' (l.set n x') vs F ∧ ∀ a, ¬ F a → h' a = h a := by
  induction l generalizing vs F n with
  | nil => simp at hx
  | cons j l ih =>
    simp only [OwnL] at ho
    obtain ⟨v, rest, F1, F2, rfl, h1, h2, o1, o2⟩ := ho
    cases n with
    | zero =>
      simp at hx hv; subst hx; subst hv
      obtain ⟨o, e⟩ := hs F1 (fun a ha => (h1 a ha).1) o1
      refine ⟨?_, fun a ha => e a fun hc => ha (h1 a hc).1⟩
      simp only [List.set_cons_zero, OwnL]
      exact ⟨v, rest, F1, F2, rfl, h1, h2, o, ownL_weaken (fun _ h => h) (fun a ha => e a fun hc => (h1 a hc).2 ha) _ _ o2⟩
    | succ n =>
      obtain ⟨o, e⟩ := ih o2 (by simpa using hx) (by simpa using hv) fun F' hF' ho' => hs F' (fun a ha => h2 a (hF' a ha)) ho'
      refine ⟨?_, fun a ha => e a fun hc => ha (h2 a hc)⟩
      simp only [List.set_cons_succ, OwnL]
      exact ⟨v, rest, F1, F2, rfl, h1, h2, own_weaken (fun _ h => h) (fun a ha => e a (h1 a ha).2) _ _ o1, o⟩

theorem ownL_set {h : Heap} {F : Nat → Prop} {l : List J} {vs : List V} (ho : OwnL h l vs F) (n : Nat) {w : J} (hw : container w = false) :
    OwnL h (l.set n w) (vs.set n (.scalar w)) F := by
  induction l generalizing vs F n with
  | nil => simp only [OwnL] at ho; subst ho; simp [OwnL]
  | cons j l ih =>
    simp only [OwnL] at ho
    obtain ⟨v, rest, F1, F2, rfl, h1, h2, o1, o2⟩ := ho
    cases n with
    | zero =>
      simp only [List.set_cons_zero, OwnL]
      exact ⟨_, rest, F1, F2, rfl, h1, h2, (own_scalar hw).2 rfl, o2⟩
    | succ n =>
      simp only [List.set_cons_succ, OwnL]
      exact ⟨v, _, F1, F2, rfl, h1, h2, o1, ih o2 n⟩

theorem ownL_snoc {h : Heap} {F : Nat → Prop} {l : List J} {vs : List V} (ho : OwnL h l vs F) {w : J} (hw : container w = false) :
    OwnL h (l ++ [w]) (vs ++ [.scalar w]) F := by
  induction l generalizing vs F with
  | nil =>
    simp only [OwnL] at ho; subst ho
    simp only [List.nil_append, OwnL]
    exact ⟨_, _, fun _ => False, fun _ => False, rfl, fun _ h => h.elim, fun _ h => h.elim, (own_scalar hw).2 rfl, rfl⟩
  | cons j l ih =>
    simp only [OwnL] at ho
    obtain ⟨v, rest, F1, F2, rfl, h1, h2, o1, o2⟩ := ho
    simp only [List.cons_append, OwnL]
    exact ⟨v, _, F1, F2, rfl, h1, h2, o1, ih o2⟩

theorem ownL_erase {h : Heap} {F : Nat → Prop} {l : List J} {vs : List V} (ho : OwnL h l vs F) (n : Nat) :
    OwnL h (l.eraseIdx n) (vs.eraseIdx n) F := by
  induction l generalizing vs F n with
  | nil => simp only [OwnL] at ho; subst ho; simp [OwnL]
  | cons j l ih =>
    simp only [OwnL] at ho
    obtain ⟨v, rest, F1, F2, rfl, h1, h2, o1, o2⟩ := ho
    cases n with
    | zero =>
      simp only [List.eraseIdx_cons_zero]
      exact ownL_weaken h2 (fun _ _ => rfl) _ _ o2
    | succ n =>
      simp only [List.eraseIdx_cons_succ, OwnL]
      exact ⟨v, _, F1, F2, rfl, h1, h2, o1, ih o2 n⟩

/-! ### Dictionaries -/

theorem ownO_get {h : Heap} {F : Nat → Prop} {d : List (Str × J)} {vs : List (Str × V)} (ho : OwnO h d vs F) {k : Str} {x : J}
    (hx : lookup k d = some x) : ∃ xv, lookupV k vs = some xv ∧ Own h x xv F := by
  induction d generalizing vs F with
  | nil => simp [lookup] at hx
  | cons p d ih =>
    obtain ⟨k', j⟩ := p
    simp only [OwnO] at ho
    obtain ⟨v, rest, F1, F2, rfl, h1, h2, o1, o2⟩ := ho
    simp only [lookup] at hx
    simp only [lookupV]
    split at hx
    · rename_i hk
      rw [if_pos hk]
      simp only [Option.some.injEq] at hx; subst hx
      exact ⟨v, rfl, own_weaken (fun a ha => (h1 a ha).1) (fun _ _ => rfl) _ _ o1⟩
    · rename_i hk
      rw [if_neg hk]
      obtain ⟨xv, e, o⟩ := ih o2 hx
      exact ⟨xv, e, own_weaken h2 (fun _ _ => rfl) _ _ o⟩

theorem ownO_none {h : Heap} {F : Nat → Prop} {d : List (Str × J)} {vs : List (Str × V)} (ho : OwnO h d vs F) {k : Str}
    (hx : lookup k d = none) : lookupV k vs = none := by
  induction d generalizing vs F with
  | nil => simp only [OwnO] at ho; subst ho; rfl
  | cons p d ih =>
    obtain ⟨k', j⟩ := p
    simp only [OwnO] at ho
    obtain ⟨v, rest, F1, F2, rfl, h1, h2, o1, o2⟩ := ho
    simp only [lookup] at hx
    simp only [lookupV]
    split at hx
    · cases hx
    · rename_i hk
      rw [if_neg hk]
      exact ih o2 hx

theorem ownO_update {h h' : Heap} {F : Nat → Prop} {d : List (Str × J)} {vs : List (Str × V)} (ho : OwnO h d vs F) {k : Str} {x x' : J} {xv : V}
    (hx : lookup k d = some x) (hv : lookupV k vs = some xv)
    (hs : ∀ F' : Nat → Prop, (∀ a, F' a → F a) → Own h x xv F' → Own h' x' xv F' ∧ ∀ a, ¬ F' a → h' a = h a) :
    OwnO h' (put k x' d) vs F ∧ ∀ a, ¬ F a → h' a = h a := by
  induction d generalizing vs F with
  | nil => simp [lookup] at hx
  | cons p d ih =>
    obtain ⟨k', j⟩ := p
    simp only [OwnO] at ho
    obtain ⟨v, rest, F1, F2, rfl, h1, h2, o1, o2⟩ := ho
    simp only [lookup] at hx
    simp only [lookupV] at hv
    simp only [put]
    by_cases hk : k' = k
    · rw [if_pos hk] at hx hv ⊢
      simp only [Option.some.injEq] at hx hv; subst hx; subst hv
      obtain ⟨o, e⟩ := hs F1 (fun a ha => (h1 a ha).1) o1
      refine ⟨?_, fun a ha => e a fun hc => ha (h1 a hc).1⟩
      simp only [OwnO]
      exact ⟨v, rest, F1, F2, rfl, h1, h2, o, ownO_weaken (fun _ h => h) (fun a ha => e a fun hc => (h1 a hc).2 ha) _ _ o2⟩
    · rw [if_neg hk] at hx hv ⊢
      obtain ⟨o, e⟩ := ih o2 hx hv fun F' hF' ho' => hs F' (fun a ha => h2 a (hF' a ha)) ho'
      refine ⟨?_, fun a ha => e a fun hc => ha (h2 a hc)⟩
      simp only [OwnO]
      exact ⟨v, rest, F1, F2, rfl, h1, h2, own_weaken (fun _ h => h) (fun a ha => e a (h1 a ha).2) _ _ o1, o⟩

theorem ownO_put {h : Heap} {F : Nat → Prop} {d : List (Str × J)} {vs : List (Str × V)} (ho : OwnO h d vs F) (k : Str) {w : J}
    (hw : container w = false) : OwnO h (put k w d) (putV k (.scalar w) vs) F := by
  induction d generalizing vs F with
  | nil =>
    simp only [OwnO] at ho; subst ho
    simp only [put, putV, OwnO]
    exact ⟨_, _, fun _ => False, fun _ => False, rfl, fun _ h => h.elim, fun _ h => h.elim, (own_scalar hw).2 rfl, rfl⟩
  | cons p d ih =>
    obtain ⟨k', j⟩ := p
    simp only [OwnO] at ho
    obtain ⟨v, rest, F1, F2, rfl, h1, h2, o1, o2⟩ := ho
    simp only [put, putV]
    split
    · simp only [OwnO]
      exact ⟨_, rest, F1, F2, rfl, h1, h2, (own_scalar hw).2 rfl, o2⟩
    · simp only [OwnO]
      exact ⟨v, _, F1, F2, rfl, h1, h2, o1, ih o2⟩

theorem ownO_pop {h : Heap} {F : Nat → Prop} {d : List (Str × J)} {vs : List (Str × V)} (ho : OwnO h d vs F) (k : Str) :
    OwnO h (pop k d) (popV k vs) F := by
  induction d generalizing vs F with
  | nil => simp only [OwnO] at ho; subst ho; simp [pop, popV, OwnO]
  | cons p d ih =>
    obtain ⟨k', j⟩ := p
    simp only [OwnO] at ho
    obtain ⟨v, rest, F1, F2, rfl, h1, h2, o1, o2⟩ := ho
    simp only [pop, popV]
    split
    · exact ownO_weaken h2 (fun _ _ => rfl) _ _ o2
    · simp only [OwnO]
      exact ⟨v, _, F1, F2, rfl, h1, h2, o1, ih o2⟩

/-! ### The functions -/

theorem upd_same (h : Heap) (a : Nat) (c : Cell) : upd h a c a = some c := by simp [upd]
theorem upd_other (h : Heap) (a b : Nat) (c : Cell) (hb : b ≠ a) : upd h a c b = h b := by simp [upd, hb]

theorem own_arr {h : Heap} {F : Nat → Prop} {l : List J} {v : V} : Own h (.arr l) v F ↔
    ∃ a vs, v = .ref a ∧ h a = some (.arr vs) ∧ F a ∧ OwnL h l vs (fun x => F x ∧ x ≠ a) := by simp only [Own]
theorem own_obj {h : Heap} {F : Nat → Prop} {d : List (Str × J)} {v : V} : Own h (.obj d) v F ↔
    ∃ a vs, v = .ref a ∧ h a = some (.obj vs) ∧ F a ∧ OwnO h d vs (fun x => F x ∧ x ≠ a) := by simp only [Own]

theorem own_upd_arr {h : Heap} {F : Nat → Prop} {a : Nat} {l : List J} {vs : List V} (ha : F a)
    (ho : OwnL h l vs (fun x => F x ∧ x ≠ a)) : Own (upd h a (.arr vs)) (.arr l) (.ref a) F :=
  own_arr.2 ⟨a, vs, rfl, upd_same h a _, ha, ownL_weaken (fun _ h => h) (fun b hb => upd_other h a b _ hb.2) _ _ ho⟩
theorem own_upd_obj {h : Heap} {F : Nat → Prop} {a : Nat} {d : List (Str × J)} {vs : List (Str × V)} (ha : F a)
    (ho : OwnO h d vs (fun x => F x ∧ x ≠ a)) : Own (upd h a (.obj vs)) (.obj d) (.ref a) F :=
  own_obj.2 ⟨a, vs, rfl, upd_same h a _, ha, ownO_weaken (fun _ h => h) (fun b hb => upd_other h a b _ hb.2) _ _ ho⟩

theorem own_get {h : Heap} {F : Nat → Prop} (ks : List Leg) (hs : JsonSpec.NoStar ks) {j : J} {v : V} (ho : Own h j v F) :
    Own h (getP j ks) (getH h v ks) F := by
  induction ks generalizing j v F with
  | nil => simpa only [getP, getH] using ho
  | cons x ks ih =>
    have hs' : JsonSpec.NoStar ks := noStar_tail hs
    cases x with
    | idx n =>
      cases j with
      | arr l =>
        obtain ⟨a, vs, rfl, hc, ha, ho⟩ := own_arr.1 ho
        simp only [getP, getH, hc]
        cases hx : l[n]? with
        | none => simp only [ownL_none ho hx, Own]
        | some y =>
          obtain ⟨yv, e, o⟩ := ownL_get ho hx
          simp only [e]
          exact ih hs' (own_weaken (fun b hb => hb.1) (fun _ _ => rfl) _ _ o)
      | obj d =>
        obtain ⟨a, vs, rfl, hc, ha, ho⟩ := own_obj.1 ho
        simp only [getP, getH, hc, Own]
      | str s =>
        rw [own_scalar rfl] at ho; subst ho
        simp only [getP, getH]
        cases hx : s[n]? with
        | none => simp only [Own]
        | some c => exact ih hs' (by simp only [Own])
      | null => rw [own_scalar rfl] at ho; subst ho; simp only [getP, getH, Own]
      | bool b => rw [own_scalar rfl] at ho; subst ho; simp only [getP, getH, Own]
      | int b => rw [own_scalar rfl] at ho; subst ho; simp only [getP, getH, Own]
      | flt b => rw [own_scalar rfl] at ho; subst ho; simp only [getP, getH, Own]
    | name k =>
      have hk : k ≠ ['*'] := fun hk => hs (by simp [hk])
      cases j with
      | obj d =>
        obtain ⟨a, vs, rfl, hc, ha, ho⟩ := own_obj.1 ho
        simp only [getP, getH, hc, if_neg hk]
        cases hx : lookup k d with
        | none => simp only [ownO_none ho hx, Own]
        | some y =>
          obtain ⟨yv, e, o⟩ := ownO_get ho hx
          simp only [e]
          exact ih hs' (own_weaken (fun b hb => hb.1) (fun _ _ => rfl) _ _ o)
      | arr l =>
        obtain ⟨a, vs, rfl, hc, ha, ho⟩ := own_arr.1 ho
        simp only [getP, getH, hc, if_neg hk, Own]
      | str s => rw [own_scalar rfl] at ho; subst ho; simp only [getP, getH, if_neg hk, Own]
      | null => rw [own_scalar rfl] at ho; subst ho; simp only [getP, getH, if_neg hk, Own]
      | bool b => rw [own_scalar rfl] at ho; subst ho; simp only [getP, getH, if_neg hk, Own]
      | int b => rw [own_scalar rfl] at ho; subst ho; simp only [getP, getH, if_neg hk, Own]
      | flt b => rw [own_scalar rfl] at ho; subst ho; simp only [getP, getH, if_neg hk, Own]

theorem upd_frame {h : Heap} {F : Nat → Prop} {a : Nat} {c : Cell} (ha : F a) : ∀ b, ¬ F b → upd h a c b = h b :=
  fun b hb => upd_other h a b c (by rintro rfl; exact hb ha)

theorem own_set {w : J} (hw : container w = false) (ks : List Leg) {h : Heap} {F : Nat → Prop} {j : J} {v : V} (ho : Own h j v F) :
    Own (setH h v ks (.scalar w)) (setP j ks w) v F ∧ ∀ a, ¬ F a → setH h v ks (.scalar w) a = h a := by
  induction ks generalizing j v F with
  | nil => cases v <;> simp only [setH, setP] <;> exact ⟨ho, fun _ _ => trivial⟩
  | cons x ks ih =>
    by_cases hcj : container j = false
    · have hv := (own_scalar hcj).1 ho
      subst hv
      have hset : setP j (x :: ks) w = j := by cases x <;> cases j <;> simp_all [setP, container]
      rw [hset]
      simp only [setH]
      exact ⟨ho, fun _ _ => trivial⟩
    cases x with
    | idx n =>
      cases j with
      | arr l =>
        obtain ⟨a, vs, rfl, hc, ha, hl⟩ := own_arr.1 ho
        simp only [setP, setH, hc]
        by_cases hks : ks = []
        · rw [if_pos hks, if_pos hks, ownL_length hl]
          split
          · exact ⟨own_upd_arr ha (ownL_snoc hl hw), upd_frame ha⟩
          · exact ⟨own_upd_arr ha (ownL_set hl n hw), upd_frame ha⟩
        · rw [if_neg hks, if_neg hks]
          cases hx : l[n]? with
          | none => simp only [ownL_none hl hx]; exact ⟨ho, fun _ _ => trivial⟩
          | some y =>
            obtain ⟨yv, e, o⟩ := ownL_get hl hx
            simp only [e]
            obtain ⟨o1, e1⟩ := ownL_update hl hx e fun F' _ ho' => ih ho'
            exact ⟨own_arr.2 ⟨a, vs, rfl, by rw [e1 a (fun hc => hc.2 rfl)]; exact hc, ha, o1⟩, fun b hb => e1 b fun hc => hb hc.1⟩
      | obj d =>
        obtain ⟨a, vs, rfl, hc, ha, hl⟩ := own_obj.1 ho
        simp only [setP, setH, hc]
        exact ⟨ho, fun _ _ => trivial⟩
      | _ => exact absurd rfl hcj
    | name k =>
      cases j with
      | obj d =>
        obtain ⟨a, vs, rfl, hc, ha, hl⟩ := own_obj.1 ho
        simp only [setP, setH, hc]
        by_cases hks : ks = []
        · rw [if_pos hks, if_pos hks]
          exact ⟨own_upd_obj ha (ownO_put hl k hw), upd_frame ha⟩
        · rw [if_neg hks, if_neg hks]
          cases hx : lookup k d with
          | none => simp only [ownO_none hl hx]; exact ⟨ho, fun _ _ => trivial⟩
          | some y =>
            obtain ⟨yv, e, o⟩ := ownO_get hl hx
            simp only [e]
            obtain ⟨o1, e1⟩ := ownO_update hl hx e fun F' _ ho' => ih ho'
            exact ⟨own_obj.2 ⟨a, vs, rfl, by rw [e1 a (fun hc => hc.2 rfl)]; exact hc, ha, o1⟩, fun b hb => e1 b fun hc => hb hc.1⟩
      | arr l =>
        obtain ⟨a, vs, rfl, hc, ha, hl⟩ := own_arr.1 ho
        simp only [setP, setH, hc]
        exact ⟨ho, fun _ _ => trivial⟩
      | _ => exact absurd rfl hcj

theorem removeP_scalar {j : J} (hc : container j = false) (ks : List Leg) : removeP j ks = j := by
  induction ks with
  | nil => rw [removeP]
  | cons x ks ih => cases x <;> cases j <;> simp_all [removeP, container]

theorem removeP_obj_idx (d : List (Str × J)) (n : Nat) (ks : List Leg) : removeP (.obj d) (.idx n :: ks) = removeP (.obj d) ks := by
  rw [removeP]
  intro l h
  cases h

theorem removeH_scalar (h : Heap) (j : J) (ks : List Leg) : removeH h (.scalar j) ks = h := by
  induction ks with
  | nil => rw [removeH] <;> intros <;> simp_all
  | cons x ks ih => cases x <;> rw [removeH] <;> first | exact ih | (intros; simp_all)

theorem own_remove (ks : List Leg) {h : Heap} {F : Nat → Prop} {j : J} {v : V} (ho : Own h j v F) :
    Own (removeH h v ks) (removeP j ks) v F ∧ ∀ a, ¬ F a → removeH h v ks a = h a := by
  induction ks generalizing h j v F with
  | nil => rw [removeP, show removeH h v [] = h by cases v <;> rw [removeH] <;> intros <;> simp_all]; exact ⟨ho, fun _ _ => rfl⟩
  | cons x ks ih =>
    by_cases hcj : container j = false
    · have hv := (own_scalar hcj).1 ho
      subst hv
      rw [removeP_scalar hcj, removeH_scalar]
      exact ⟨ho, fun _ _ => rfl⟩
    cases x with
    | idx n =>
      cases j with
      | arr l =>
        obtain ⟨a, vs, rfl, hc, ha, hl⟩ := own_arr.1 ho
        rw [removeP, removeH]
        simp only [hc]
        have ho' := own_upd_arr ha (ownL_erase hl n)
        by_cases hks : ks = []
        · rw [if_pos hks, if_pos hks]
          exact ⟨ho', upd_frame ha⟩
        · rw [if_neg hks, if_neg hks]
          obtain ⟨o1, e1⟩ := ih ho'
          exact ⟨o1, fun b hb => by rw [e1 b hb]; exact upd_frame ha b hb⟩
      | obj d =>
        obtain ⟨a, vs, rfl, hc, ha, hl⟩ := own_obj.1 ho
        rw [removeP_obj_idx, removeH]
        simp only [hc]
        exact ih ho
      | _ => exact absurd rfl hcj
    | name k =>
      cases j with
      | obj d =>
        obtain ⟨a, vs, rfl, hc, ha, hl⟩ := own_obj.1 ho
        rw [removeP, removeH]
        simp only [hc]
        cases hx : lookup k d with
        | none => simp only [ownO_none hl hx]; exact ⟨ho, fun _ _ => trivial⟩
        | some y =>
          obtain ⟨yv, e, o⟩ := ownO_get hl hx
          simp only [e]
          by_cases hks : ks = []
          · rw [if_pos hks, if_pos hks]
            exact ⟨own_upd_obj ha (ownO_pop hl k), upd_frame ha⟩
          · rw [if_neg hks, if_neg hks]
            obtain ⟨o1, e1⟩ := ownO_update hl hx e fun F' _ ho' => ih ho'
            exact ⟨own_obj.2 ⟨a, vs, rfl, by rw [e1 a (fun hc => hc.2 rfl)]; exact hc, ha, o1⟩, fun b hb => e1 b fun hc => hb hc.1⟩
      | arr l =>
        obtain ⟨a, vs, rfl, hc, ha, hl⟩ := own_arr.1 ho
        rw [removeP, removeH]
        · simp only [hc]
          exact ⟨ho, fun _ _ => trivial⟩
        · intros; simp_all
      | _ => exact absurd rfl hcj

mutual
theorem alloc_own (j : J) (n : Nat) (h : Heap) :
    n ≤ (alloc j n h).2.1 ∧ Own (alloc j n h).2.2 j (alloc j n h).1 (fun a => n ≤ a ∧ a < (alloc j n h).2.1) ∧
      ∀ a, a < n → (alloc j n h).2.2 a = h a := by
  match j with
  | .arr l =>
    obtain ⟨h1, h2, h3⟩ := allocL_own l (n + 1) h
    simp only [alloc]
    refine ⟨by omega, own_upd_arr ⟨Nat.le_refl _, by omega⟩ (ownL_weaken (fun a ha => ⟨⟨by omega, ha.2⟩, by omega⟩) (fun _ _ => rfl) _ _ h2), ?_⟩
    intro a ha
    rw [upd_other _ _ _ _ (by omega), h3 a (by omega)]
  | .obj d =>
    obtain ⟨h1, h2, h3⟩ := allocO_own d (n + 1) h
    simp only [alloc]
    refine ⟨by omega, own_upd_obj ⟨Nat.le_refl _, by omega⟩ (ownO_weaken (fun a ha => ⟨⟨by omega, ha.2⟩, by omega⟩) (fun _ _ => rfl) _ _ h2), ?_⟩
    intro a ha
    rw [upd_other _ _ _ _ (by omega), h3 a (by omega)]
  | .null => simp [alloc, Own]
  | .bool _ => simp [alloc, Own]
  | .int _ => simp [alloc, Own]
  | .flt _ => simp [alloc, Own]
  | .str _ => simp [alloc, Own]
theorem allocL_own (l : List J) (n : Nat) (h : Heap) :
    n ≤ (allocL l n h).2.1 ∧ OwnL (allocL l n h).2.2 l (allocL l n h).1 (fun a => n ≤ a ∧ a < (allocL l n h).2.1) ∧
      ∀ a, a < n → (allocL l n h).2.2 a = h a := by
  match l with
  | [] => simp [allocL, OwnL]
  | j :: l =>
    obtain ⟨h1, h2, h3⟩ := alloc_own j n h
    obtain ⟨k1, k2, k3⟩ := allocL_own l (alloc j n h).2.1 (alloc j n h).2.2
    simp only [allocL, OwnL]
    refine ⟨by omega, ⟨_, _, _, _, rfl, fun a ha => ⟨⟨ha.1, by omega⟩, fun hc => ?_⟩, fun a ha => ⟨by omega, ha.2⟩,
      own_weaken (fun _ h => h) (fun a ha => k3 a ha.2) _ _ h2, k2⟩, ?_⟩
    · omega
    · intro a ha
      rw [k3 a (by omega), h3 a ha]
theorem allocO_own (d : List (Str × J)) (n : Nat) (h : Heap) :
    n ≤ (allocO d n h).2.1 ∧ OwnO (allocO d n h).2.2 d (allocO d n h).1 (fun a => n ≤ a ∧ a < (allocO d n h).2.1) ∧
      ∀ a, a < n → (allocO d n h).2.2 a = h a := by
  match d with
  | [] => simp [allocO, OwnO]
  | (k, j) :: d =>
    obtain ⟨h1, h2, h3⟩ := alloc_own j n h
    obtain ⟨k1, k2, k3⟩ := allocO_own d (alloc j n h).2.1 (alloc j n h).2.2
    simp only [allocO, OwnO]
    refine ⟨by omega, ⟨_, _, _, _, rfl, fun a ha => ⟨⟨ha.1, by omega⟩, fun hc => ?_⟩, fun a ha => ⟨by omega, ha.2⟩,
      own_weaken (fun _ h => h) (fun a ha => k3 a ha.2) _ _ h2, k2⟩, ?_⟩
    · omega
    · intro a ha
      rw [k3 a (by omega), h3 a ha]
end

/-! ### The select list -/

variable {loads : Str → Option J} {env : Str → J} {row : Str → V}

theorem own_setAll {h : Heap} {G : Nat → Prop} (hs : ∀ c, container (env c) = false → row c = .scalar (env c)) (pvs : List (Str × Arg))
    (ha : ∀ pv ∈ pvs, container (argOf env pv.2) = false) {x : J} {v : V} (ho : Own h x v G) :
    Own (setAll row h v pvs) (jsonSet x (pvs.map fun a => (a.1, argOf env a.2))) v G ∧ ∀ a, ¬ G a → setAll row h v pvs a = h a := by
  induction pvs generalizing h x with
  | nil => exact ⟨ho, fun _ _ => rfl⟩
  | cons pv pvs ih =>
    obtain ⟨p, a⟩ := pv
    have hc := ha _ List.mem_cons_self
    have e : argV row a = .scalar (argOf env a) := by
      cases a with
      | const j => rfl
      | col c => exact hs c hc
    obtain ⟨o1, f1⟩ := own_set hc (legs p) ho
    obtain ⟨o2, f2⟩ := ih (fun pv h => ha pv (List.mem_cons_of_mem _ h)) o1
    simp only [setAll, List.map_cons, jsonSet, e]
    exact ⟨o2, fun b hb => by rw [f2 b hb, f1 b hb]⟩

theorem own_removeAll {h : Heap} {G : Nat → Prop} (ps : List Str) {x : J} {v : V} (ho : Own h x v G) :
    Own (removeAll h v ps) (jsonRemove x ps) v G ∧ ∀ a, ¬ G a → removeAll h v ps a = h a := by
  induction ps generalizing h x with
  | nil => exact ⟨ho, fun _ _ => rfl⟩
  | cons p ps ih =>
    obtain ⟨o1, f1⟩ := own_remove (legs p) ho
    obtain ⟨o2, f2⟩ := ih o1
    simp only [removeAll, jsonRemove]
    exact ⟨o2, fun b hb => by rw [f2 b hb, f1 b hb]⟩

/-- New objects. -/
theorem open_text (s : Str) (st : State) {x : J} (hl : loads s = some x) :
    Own (open' loads (.scalar (.str s)) st).2.heap x (open' loads (.scalar (.str s)) st).1
      (fun a => st.next ≤ a ∧ a < (open' loads (.scalar (.str s)) st).2.next) ∧
    (∀ a, a < st.next → (open' loads (.scalar (.str s)) st).2.heap a = st.heap a) ∧
    st.next ≤ (open' loads (.scalar (.str s)) st).2.next := by
  obtain ⟨h1, h2, h3⟩ := alloc_own x st.next st.heap
  simp only [open', hl]
  exact ⟨h2, h3, h1⟩

/-- A document of the row, or new objects. -/
theorem open_doc (hs : ∀ c, container (env c) = false → row c = .scalar (env c)) (hr : ∀ c, container (env c) = true → ∃ a, row c = .ref a)
    (d : Doc) (st : State) {x : J} (hx : docOf loads env d = some x) :
    (∃ c, d = .col c ∧ container (env c) = true ∧ x = env c ∧ open' loads (docV row d) st = (row c, st)) ∨
    ((∀ c, d = .col c → container (env c) = false) ∧
      Own (open' loads (docV row d) st).2.heap x (open' loads (docV row d) st).1
        (fun a => st.next ≤ a ∧ a < (open' loads (docV row d) st).2.next) ∧
      (∀ a, a < st.next → (open' loads (docV row d) st).2.heap a = st.heap a) ∧
      st.next ≤ (open' loads (docV row d) st).2.next) := by
  cases d with
  | text s => exact .inr ⟨fun c h => (by cases h), open_text s st hx⟩
  | col c =>
    cases hc : container (env c) with
    | true =>
      obtain ⟨a, ha⟩ := hr c hc
      refine .inl ⟨c, rfl, hc, ?_, ?_⟩
      · simp only [docOf] at hx
        cases he : env c <;> rw [he] at hx hc <;> first | (simp only [Option.some.injEq] at hx; exact hx.symm) | cases hc
      · simp only [docV, ha, open']
    | false =>
      refine .inr ⟨fun c' h => (by cases h; exact hc), ?_⟩
      have e := hs c hc
      simp only [docV, e]
      simp only [docOf] at hx
      cases he : env c with
      | str s =>
        rw [he] at hx
        exact open_text s st hx
      | arr l => rw [he] at hc; cases hc
      | obj l => rw [he] at hc; cases hc
      | _ => rw [he] at hx; cases hx; exact ⟨by simp only [open', Own], fun _ _ => rfl, Nat.le_refl _⟩

theorem own_item {F : Str → Nat → Prop} (st : State) (i : Item) (hi : ItemOk loads env i)
    (hs : ∀ c, container (env c) = false → row c = .scalar (env c)) (hr : ∀ c, container (env c) = true → ∃ a, row c = .ref a)
    (ho : ∀ c ∈ uses i, Own st.heap (env c) (row c) (F c)) :
    ∃ j, Value loads env i j ∧
      Own (evalItem loads row st i).2.heap j (evalItem loads row st i).1
        (fun a => (∃ c ∈ uses i, F c a) ∨ (st.next ≤ a ∧ a < (evalItem loads row st i).2.next)) ∧
      (∀ a, a < st.next → (∀ c, changed env i = some c → ¬ F c a) → (evalItem loads row st i).2.heap a = st.heap a) ∧
      st.next ≤ (evalItem loads row st i).2.next := by
  cases i with
  | plain c =>
    exact ⟨_, rfl, own_weaken (fun a ha => .inl ⟨c, List.mem_singleton.2 rfl, ha⟩) (fun _ _ => rfl) _ _ (ho c (List.mem_singleton.2 rfl)),
      fun _ _ _ => rfl, Nat.le_refl _⟩
  | extract d p =>
    obtain ⟨hp, x, hx⟩ := hi
    have ex : extract x [p] = getP x (legs p) := by
      cases x with
      | null =>
        simp only [extract]
        cases hl : legs p with
        | nil => simp only [getP]
        | cons k ks =>
          cases k with
          | idx n => simp only [getP]
          | name k =>
            have hk : k ≠ ['*'] := fun hk => hp (by rw [hl]; simp [hk])
            simp only [getP, if_neg hk]
      | _ => rfl
    refine ⟨_, ⟨x, hx, rfl⟩, ?_⟩
    rw [ex]
    rcases open_doc hs hr d st hx with ⟨c, rfl, hc, rfl, e⟩ | ⟨_, o, f, n⟩
    · simp only [evalItem, e]
      exact ⟨own_weaken (fun a ha => .inl ⟨c, List.mem_singleton.2 rfl, ha⟩) (fun _ _ => rfl) _ _
        (own_get _ hp (ho c (List.mem_singleton.2 rfl))), fun _ _ _ => trivial, Nat.le_refl _⟩
    · simp only [evalItem]
      exact ⟨own_weaken (fun a ha => .inr ha) (fun _ _ => rfl) _ _ (own_get _ hp o), fun a ha _ => f a ha, n⟩
  | set d pvs =>
    obtain ⟨⟨x, hx⟩, ha⟩ := hi
    refine ⟨_, ⟨x, hx, rfl⟩, ?_⟩
    rcases open_doc hs hr d st hx with ⟨c, rfl, hc, rfl, e⟩ | ⟨_, o, f, n⟩
    · simp only [evalItem, e]
      have hm : c ∈ uses (.set (.col c) pvs) := by simp [uses]
      obtain ⟨o1, f1⟩ := own_setAll hs pvs ha (ho c hm)
      exact ⟨own_weaken (fun a ha => .inl ⟨c, hm, ha⟩) (fun _ _ => rfl) _ _ o1,
        fun a _ hn => f1 a (hn c (by simp [changed, hc])), Nat.le_refl _⟩
    · simp only [evalItem]
      obtain ⟨o1, f1⟩ := own_setAll hs pvs ha o
      exact ⟨own_weaken (fun a ha => .inr ha) (fun _ _ => rfl) _ _ o1, fun a ha _ => by rw [f1 a (by omega), f a ha], n⟩
  | remove d ps =>
    obtain ⟨x, hx⟩ := hi
    refine ⟨_, ⟨x, hx, rfl⟩, ?_⟩
    rcases open_doc hs hr d st hx with ⟨c, rfl, hc, rfl, e⟩ | ⟨_, o, f, n⟩
    · simp only [evalItem, e]
      have hm : c ∈ uses (.remove (.col c) ps) := by simp [uses]
      obtain ⟨o1, f1⟩ := own_removeAll ps (ho c hm)
      exact ⟨own_weaken (fun a ha => .inl ⟨c, hm, ha⟩) (fun _ _ => rfl) _ _ o1,
        fun a _ hn => f1 a (hn c (by simp [changed, hc])), Nat.le_refl _⟩
    · simp only [evalItem]
      obtain ⟨o1, f1⟩ := own_removeAll ps o
      exact ⟨own_weaken (fun a ha => .inr ha) (fun _ _ => rfl) _ _ o1, fun a ha _ => by rw [f1 a (by omega), f a ha], n⟩

theorem own_items {F : Str → Nat → Prop} (items : List Item) (hi : ∀ i ∈ items, ItemOk loads env i) (hp : Apart env items)
    (hs : ∀ c, container (env c) = false → row c = .scalar (env c)) (hr : ∀ c, container (env c) = true → ∃ a, row c = .ref a)
    (hd : ∀ c c', c ≠ c' → ∀ a, F c a → ¬ F c' a) (st : State)
    (ho : ∀ i ∈ items, ∀ c ∈ uses i, Own st.heap (env c) (row c) (F c)) (hb : ∀ c a, F c a → a < st.next) :
    (evalItems loads row st items).1.length = items.length ∧
    (∀ (n : Nat) i v, items[n]? = some i → (evalItems loads row st items).1[n]? = some v →
      ∃ j, Value loads env i j ∧ Shows (evalItems loads row st items).2.heap j v) ∧
    (∀ a, a < st.next → (∀ i ∈ items, ∀ c, changed env i = some c → ¬ F c a) →
      (evalItems loads row st items).2.heap a = st.heap a) := by
  induction items generalizing st with
  | nil => exact ⟨rfl, fun n i v h => by simp at h, fun _ _ _ => rfl⟩
  | cons i is ih =>
    obtain ⟨hpi, hpis⟩ := List.pairwise_cons.1 hp
    obtain ⟨j, vj, oj, fj, nj⟩ := own_item (loads := loads) (F := F) st i (hi i List.mem_cons_self) hs hr (ho i List.mem_cons_self)
    have hsome : ∀ i' ∈ is, ∀ c ∈ uses i', ∀ a, F c a → ∀ c', changed env i = some c' → ¬ F c' a := by
      intro i' hi' c hc a ha c' hc' ha'
      refine hd c c' (fun e => ?_) a ha ha'
      subst e
      exact (hpi i' hi').1 c hc' hc
    obtain ⟨l1, l2, l3⟩ := ih (fun i h => hi i (List.mem_cons_of_mem _ h)) hpis (evalItem loads row st i).2
      (fun i' hi' c hc => own_weaken (fun _ h => h) (fun a ha => fj a (hb c a ha) (hsome i' hi' c hc a ha)) _ _
        (ho i' (List.mem_cons_of_mem _ hi') c hc))
      (fun c a ha => Nat.lt_of_lt_of_le (hb c a ha) nj)
    refine ⟨by simp only [evalItems, List.length_cons, l1], ?_, ?_⟩
    · intro n i' v hn hv
      cases n with
      | zero =>
        simp only [List.getElem?_cons_zero, Option.some.injEq, evalItems] at hn hv
        subst hn; subst hv
        refine ⟨j, vj, own_shows _ _ (own_weaken (fun _ h => h) ?_ _ _ oj)⟩
        rintro a (⟨c, hc, ha⟩ | ⟨h1, h2⟩)
        · refine l3 a (Nat.lt_of_lt_of_le (hb c a ha) nj) fun i' hi' c' hc' ha' => hd c c' (fun e => ?_) a ha ha'
          subst e
          exact (hpi i' hi').2 c hc' hc
        · exact l3 a h2 fun i' _ c' _ ha' => by have := hb c' a ha'; omega
      | succ n =>
        simp only [List.getElem?_cons_succ, evalItems] at hn hv
        exact l2 n i' v hn hv
    · intro a ha hc
      simp only [evalItems]
      rw [l3 a (by omega) (fun i' hi' => hc i' (List.mem_cons_of_mem _ hi')), fj a ha (hc i List.mem_cons_self)]

/-! ### One document -/

mutual
theorem shows_inj {h : Heap} (j j' : J) (v : V) (h1 : Shows h j v) (h2 : Shows h j' v) : j = j' := by
  match j with
  | .arr l =>
    simp only [Shows] at h1
    obtain ⟨a, vs, rfl, e, h1⟩ := h1
    cases j' with
    | arr l' =>
      simp only [Shows, V.ref.injEq] at h2
      obtain ⟨a', vs', rfl, e', h2⟩ := h2
      rw [e] at e'
      cases e'
      rw [showsL_inj l l' vs h1 h2]
    | obj d =>
      simp only [Shows, V.ref.injEq] at h2
      obtain ⟨a', vs', rfl, e', h2⟩ := h2
      rw [e] at e'
      cases e'
    | _ => simp only [Shows] at h2; cases h2
  | .obj d =>
    simp only [Shows] at h1
    obtain ⟨a, vs, rfl, e, h1⟩ := h1
    cases j' with
    | obj l' =>
      simp only [Shows, V.ref.injEq] at h2
      obtain ⟨a', vs', rfl, e', h2⟩ := h2
      rw [e] at e'
      cases e'
      rw [showsO_inj d l' vs h1 h2]
    | arr d =>
      simp only [Shows, V.ref.injEq] at h2
      obtain ⟨a', vs', rfl, e', h2⟩ := h2
      rw [e] at e'
      cases e'
    | _ => simp only [Shows] at h2; cases h2
  | .null => simp only [Shows] at h1; subst h1; cases j' <;> simp_all [Shows]
  | .bool _ => simp only [Shows] at h1; subst h1; cases j' <;> simp_all [Shows]
  | .int _ => simp only [Shows] at h1; subst h1; cases j' <;> simp_all [Shows]
  | .flt _ => simp only [Shows] at h1; subst h1; cases j' <;> simp_all [Shows]
  | .str _ => simp only [Shows] at h1; subst h1; cases j' <;> simp_all [Shows]
theorem showsL_inj {h : Heap} (l l' : List J) (vs : List V) (h1 : ShowsL h l vs) (h2 : ShowsL h l' vs) : l = l' := by
  match l with
  | [] =>
    simp only [ShowsL] at h1
    subst h1
    cases l' with
    | nil => rfl
    | cons j l' => simp [ShowsL] at h2
  | j :: l =>
    simp only [ShowsL] at h1
    obtain ⟨v, rest, rfl, h1, h1'⟩ := h1
    cases l' with
    | nil => simp [ShowsL] at h2
    | cons j' l' =>
      simp only [ShowsL, List.cons.injEq] at h2
      obtain ⟨_, _, ⟨rfl, rfl⟩, h2, h2'⟩ := h2
      rw [shows_inj j j' v h1 h2, showsL_inj l l' rest h1' h2']
theorem showsO_inj {h : Heap} (l l' : List (Str × J)) (vs : List (Str × V)) (h1 : ShowsO h l vs) (h2 : ShowsO h l' vs) : l = l' := by
  match l with
  | [] =>
    simp only [ShowsO] at h1
    subst h1
    cases l' with
    | nil => rfl
    | cons j l' => obtain ⟨k, j⟩ := j; simp [ShowsO] at h2
  | (k, j) :: l =>
    simp only [ShowsO] at h1
    obtain ⟨v, rest, rfl, h1, h1'⟩ := h1
    cases l' with
    | nil => simp [ShowsO] at h2
    | cons j' l' =>
      obtain ⟨k', j'⟩ := j'
      simp only [ShowsO, List.cons.injEq, Prod.mk.injEq] at h2
      obtain ⟨_, _, ⟨⟨rfl, rfl⟩, rfl⟩, h2, h2'⟩ := h2
      rw [shows_inj j j' v h1 h2, showsO_inj l l' rest h1' h2']
end

theorem lookup_put (k : Str) (w : J) (d : List (Str × J)) : lookup k (put k w d) = some w := by
  induction d with
  | nil => simp [put, lookup]
  | cons p d ih =>
    obtain ⟨k', v⟩ := p
    simp only [put]
    split
    · next h => simp [lookup, h]
    · next h => simp [lookup, h, ih]

theorem mem_showsO {h : Heap} {d : List (Str × J)} {vs : List (Str × V)} (hs : ShowsO h d vs) {k : Str} {v : V} (hv : (k, v) ∈ vs) :
    ∃ j, (k, j) ∈ d ∧ Shows h j v := by
  induction d generalizing vs with
  | nil => simp only [ShowsO] at hs; subst hs; cases hv
  | cons p d ih =>
    obtain ⟨k', j'⟩ := p
    simp only [ShowsO] at hs
    obtain ⟨v', rest, rfl, h1, h2⟩ := hs
    rcases List.mem_cons.1 hv with e | hm
    · cases e; exact ⟨j', List.mem_cons_self, h1⟩
    · obtain ⟨j, hj, hs⟩ := ih h2 hm
      exact ⟨j, List.mem_cons_of_mem _ hj, hs⟩

theorem mem_putV (k : Str) (w : V) (d : List (Str × V)) : ∃ k', (k', w) ∈ putV k w d := by
  induction d with
  | nil => exact ⟨k, List.mem_singleton.2 rfl⟩
  | cons p d ih =>
    obtain ⟨k', v⟩ := p
    simp only [putV]
    split
    · exact ⟨k', List.mem_cons_self⟩
    · obtain ⟨k', hk⟩ := ih
      exact ⟨k', List.mem_cons_of_mem _ hk⟩

/-- A dictionary that is a member of itself is no document. -/
theorem no_cycle {h : Heap} {a : Nat} {vs : List (Str × V)} (hc : h a = some (.obj vs)) {k : Str} (hm : (k, V.ref a) ∈ vs) (n : Nat) :
    ∀ j : J, sizeOf j < n → ¬ Shows h j (.ref a) := by
  induction n with
  | zero => intro j hj; omega
  | succ n ih =>
    intro j hj hs
    cases j with
    | obj d =>
      simp only [Shows, V.ref.injEq] at hs
      obtain ⟨a', vs', rfl, e, hs⟩ := hs
      rw [hc] at e
      cases e
      obtain ⟨j', hj', hs'⟩ := mem_showsO hs hm
      refine ih j' ?_ hs'
      have h1 : sizeOf (k, j') < sizeOf d := List.sizeOf_lt_of_mem hj'
      have h2 : sizeOf (k, j') = 1 + sizeOf k + sizeOf j' := by simp
      have h3 : sizeOf (J.obj d) = 1 + sizeOf d := by simp
      omega
    | arr l =>
      simp only [Shows, V.ref.injEq] at hs
      obtain ⟨a', vs', rfl, e, hs⟩ := hs
      rw [hc] at e
      cases e
    | _ => simp only [Shows] at hs; cases hs

end Verif.Props.JsonHeapLemmas

namespace Verif.Props
open Verif.Val Verif.Json Verif.JsonHeap Verif.JsonHeapSpec Verif.JsonSpec JsonHeapLemmas

theorem rowOk_ref {env : Str → J} {row : Str → V} {h : Heap} {F : Str → Nat → Prop} (ho : ∀ c, Own h (env c) (row c) (F c)) :
    (∀ c, container (env c) = false → row c = .scalar (env c)) ∧ ∀ c, container (env c) = true → ∃ a, row c = .ref a := by
  refine ⟨fun c hc => (own_scalar hc).1 (ho c), fun c hc => ?_⟩
  have := ho c
  cases he : env c with
  | arr l => rw [he, own_arr] at this; obtain ⟨a, _, e, _⟩ := this; exact ⟨a, e⟩
  | obj l => rw [he, own_obj] at this; obtain ⟨a, _, e, _⟩ := this; exact ⟨a, e⟩
  | _ => rw [he] at hc; cases hc

/-- C156, in part.  For every row, every reader of JSON texts and every select list of columns and JSON_EXTRACT, JSON_SET and JSON_REMOVE
calls in which no column changes a document of the row that another column uses: when the row is written out, each column shows the
value it has by itself.  Missing: the rest of the select lists, see the next theorems. -/
theorem C156_columns_partial (loads : Str → Option J) (env : Str → J) (row : Str → V) (st : State) (hrow : RowOk env row st)
    (items : List Item) (hi : ∀ i ∈ items, ItemOk loads env i) (hp : Apart env items) :
    (evalItems loads row st items).1.length = items.length ∧
    ∀ (n : Nat) i v, items[n]? = some i → (evalItems loads row st items).1[n]? = some v →
      ∃ j, Value loads env i j ∧ Shows (evalItems loads row st items).2.heap j v := by
  obtain ⟨F, ho, hb, hd⟩ := hrow
  obtain ⟨hs, hr⟩ := rowOk_ref ho
  obtain ⟨h1, h2, _⟩ := own_items items hi hp hs hr hd st (fun _ _ c _ => ho c) hb
  exact ⟨h1, h2⟩

/-- What is shown is one document. -/
theorem C156_shows_one (h : Heap) (v : V) (j j' : J) (h1 : Shows h j v) (h2 : Shows h j' v) : j = j' := shows_inj j j' v h1 h2

/-- C156 violated: for every dictionary, every key and every plain value that is not yet there, `SELECT doc, JSON_SET(doc, '$.k', w)`
shows the changed dictionary in both columns. -/
theorem C156_alias_violated (loads : Str → Option J) (env : Str → J) (row : Str → V) (st : State) (hrow : RowOk env row st)
    (c k : Str) (hk : PlainLeg (.name k)) (d : List (Str × J)) (hd : env c = .obj d) (w : J) (hw : container w = false) (hn : lookup k d ≠ some w) :
    ∃ v v', (evalItems loads row st [.plain c, .set (.col c) [(pathText [.name k], .const w)]]).1 = [v, v'] ∧
      Shows (evalItems loads row st [.plain c, .set (.col c) [(pathText [.name k], .const w)]]).2.heap (.obj (put k w d)) v ∧
      Shows (evalItems loads row st [.plain c, .set (.col c) [(pathText [.name k], .const w)]]).2.heap (.obj (put k w d)) v' ∧
      ¬ ∃ j, Value loads env (.plain c) j ∧
        Shows (evalItems loads row st [.plain c, .set (.col c) [(pathText [.name k], .const w)]]).2.heap j v := by
  obtain ⟨F, ho, hb, _⟩ := hrow
  obtain ⟨hs, hr⟩ := rowOk_ref ho
  have hl : legs (pathText [.name k]) = [.name k] := C37_path_roundtrip _ (by intro x hx; rw [List.mem_singleton.1 hx]; exact hk)
  obtain ⟨a, ha⟩ := hr c (by rw [hd]; rfl)
  have he : open' loads (row c) st = (row c, st) := by rw [ha]; rfl
  have h1 := own_shows _ _ (own_set hw [.name k] (ho c)).1
  have hj : setP (env c) [.name k] w = .obj (put k w d) := by simp [hd, setP]
  rw [hj] at h1
  refine ⟨row c, row c, ?_, ?_, ?_, ?_⟩
  · simp only [evalItems, evalItem, docV, he]
  · simp only [evalItems, evalItem, docV, he, setAll, hl, argV]; exact h1
  · simp only [evalItems, evalItem, docV, he, setAll, hl, argV]; exact h1
  · rintro ⟨j, hv, hj'⟩
    simp only [evalItems, evalItem, docV, he, setAll, hl, argV] at hj'
    have e := shows_inj _ _ _ h1 hj'
    rw [hv, hd] at e
    injection e with e
    apply hn
    rw [← e]
    exact lookup_put k w d

/-- C156 violated: for every dictionary and key, the value of `JSON_SET(doc, '$.k', doc)` is no document: it contains itself. -/
theorem C156_cycle_violated (loads : Str → Option J) (env : Str → J) (row : Str → V) (st : State) (hrow : RowOk env row st)
    (c k : Str) (hk : PlainLeg (.name k)) (d : List (Str × J)) (hd : env c = .obj d) :
    ∃ v, (evalItems loads row st [.set (.col c) [(pathText [.name k], .col c)]]).1 = [v] ∧
      ¬ ∃ j, Shows (evalItems loads row st [.set (.col c) [(pathText [.name k], .col c)]]).2.heap j v := by
  obtain ⟨F, ho, hb, _⟩ := hrow
  have hl : legs (pathText [.name k]) = [.name k] := C37_path_roundtrip _ (by intro x hx; rw [List.mem_singleton.1 hx]; exact hk)
  have hc := ho c
  rw [hd, own_obj] at hc
  obtain ⟨a, vs, e, hh, _, _⟩ := hc
  have he : open' loads (row c) st = (row c, st) := by rw [e]; rfl
  refine ⟨row c, ?_, ?_⟩
  · simp only [evalItems, evalItem, docV, he]
  · simp only [evalItems, evalItem, docV, he, setAll, hl, argV]
    rw [e]
    simp only [setH, hh, if_true]
    rintro ⟨j, hj⟩
    obtain ⟨k', hm⟩ := mem_putV k (.ref a) vs
    exact no_cycle (upd_same st.heap a _) hm (sizeOf j + 1) j (Nat.lt_succ_self _) hj

/-! ### An instance -/

/-- A row with a dictionary `{"a": 1, "b": [2]}` in column `d`, its text in column `t`, and 7 in the others. -/
def heapDoc : J := .obj [(['a'], .int 1), (['b'], .arr [.int 2])]
def heapEnv (c : Str) : J := if c = ['d'] then heapDoc else if c = ['t'] then .str ['T'] else .int 7
def heapRow (c : Str) : V := if c = ['d'] then .ref 0 else if c = ['t'] then .scalar (.str ['T']) else .scalar (.int 7)
def heapSt : State := ⟨(alloc heapDoc 0 fun _ => none).2.2, (alloc heapDoc 0 fun _ => none).2.1⟩

theorem heapRow_ok : RowOk heapEnv heapRow heapSt := by
  refine ⟨fun c a => c = ['d'] ∧ a < heapSt.next, fun c => ?_, fun c a h => h.2, fun c c' hn a h h' => hn (h.1.trans h'.1.symm)⟩
  unfold heapEnv heapRow
  split
  · next h =>
    exact own_weaken (fun a ha => ⟨h, ha.2⟩) (fun _ _ => rfl) _ _ (alloc_own heapDoc 0 fun _ => none).2.1
  · split <;> simp [Own]

/-- `SELECT JSON_EXTRACT(t, '$.b'), JSON_SET(d, '$.a', n), t, JSON_REMOVE(t, '$.a')` meets the hypotheses. -/
example :
    (∀ i ∈ [Item.extract (.col ['t']) "$.b".toList, .set (.col ['d']) [("$.a".toList, .col ['n'])], .plain ['t'], .remove (.col ['t']) ["$.a".toList]],
      ItemOk (fun _ => some heapDoc) heapEnv i) ∧
    Apart heapEnv [.extract (.col ['t']) "$.b".toList, .set (.col ['d']) [("$.a".toList, .col ['n'])], .plain ['t'], .remove (.col ['t']) ["$.a".toList]] := by
  have hl : NoStar (legs "$.b".toList) := by
    have : legs "$.b".toList = [.name ['b']] := C37_path_roundtrip [.name ['b']] (by
      intro x hx; rw [List.mem_singleton.1 hx]; simp [PlainLeg])
    rw [this]; simp [NoStar]
  have hl' : NoStar (legs ['$', '.', 'b']) := hl
  constructor
  · simp [ItemOk, docOf, heapEnv, heapDoc, argOf, container, hl']
  · simp [Apart, changed, uses, heapEnv, heapDoc, container]

/-- The dictionary of the row meets the hypotheses of the violations. -/
example : heapEnv ['d'] = .obj [(['a'], .int 1), (['b'], .arr [.int 2])] ∧ lookup ['a'] [(['a'], .int 1), (['b'], .arr [.int 2])] ≠ some (.int 5) ∧
    PlainLeg (.name ['a']) := by
  refine ⟨rfl, by simp [lookup], by simp [PlainLeg]⟩

end Verif.Props
