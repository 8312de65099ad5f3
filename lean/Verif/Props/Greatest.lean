import Verif.Model.Greatest
import Verif.Spec.Greatest
/-! C73: GREATEST and LEAST. -/
namespace Verif.Props
open Verif.Val Verif.Greatest Verif.Spec.Greatest

namespace Gr

theorem ratCmp_lt {a b : Rat} : ratCmp a b = .lt ↔ a < b := by
  unfold ratCmp; split <;> simp_all; split <;> simp_all

theorem ratCmp_gt {a b : Rat} : ratCmp a b = .gt ↔ b < a := by
  unfold ratCmp
  split
  · rename_i h; simp; exact Rat.not_lt.2 (Rat.le_of_lt h)
  · split <;> simp_all

theorem strCmp_refl (s : Str) : strCmp s s = .eq := by
  induction s with
  | nil => rfl
  | cons a s ih => simp [strCmp, ih]

theorem strCmp_swap (s t : Str) : strCmp t s = (strCmp s t).swap := by
  induction s generalizing t with
  | nil => cases t <;> rfl
  | cons a s ih =>
    cases t with
    | nil => rfl
    | cons b t =>
      simp only [strCmp]
      by_cases h1 : a.toNat < b.toNat
      · have : ¬ b.toNat < a.toNat := by omega
        simp [h1, this]
      · by_cases h2 : b.toNat < a.toNat
        · simp [h1, h2]
        · simp [h1, h2, ih]

theorem strCmp_lt_trans {s t u : Str} (h1 : strCmp s t = .lt) (h2 : strCmp t u ≠ .gt) : strCmp s u = .lt := by
  induction s generalizing t u with
  | nil =>
    cases u with
    | nil => cases t <;> simp_all [strCmp]
    | cons => rfl
  | cons a s ih =>
    cases t with
    | nil => simp [strCmp] at h1
    | cons b t =>
      cases u with
      | nil => simp [strCmp] at h2
      | cons c u =>
        simp only [strCmp] at *
        by_cases hab : a.toNat < b.toNat
        · by_cases hbc : b.toNat < c.toNat
          · have : a.toNat < c.toNat := by omega
            simp [this]
          · by_cases hcb : c.toNat < b.toNat
            · simp [hbc, hcb] at h2
            · have : a.toNat < c.toNat := by omega
              simp [this]
        · by_cases hba : b.toNat < a.toNat
          · simp [hab, hba] at h1
          · simp [hab, hba] at h1
            have e : a.toNat = b.toNat := by omega
            by_cases hbc : b.toNat < c.toNat
            · have : a.toNat < c.toNat := by omega
              simp [this]
            · by_cases hcb : c.toNat < b.toNat
              · simp [hbc, hcb] at h2
              · simp [hbc, hcb] at h2
                have e1 : ¬ a.toNat < c.toNat := by omega
                have e2 : ¬ c.toNat < a.toNat := by omega
                simp [e1, e2, ih h1 h2]

/-- Values that can be compared with each other: numbers, or texts. -/
def Same (l : List Val) : Prop := AllNumbers l ∨ AllTexts l

/-- An order on values, as a number or a text. -/
theorem cmp_numbers {a b : Val} {x y : Rat} (ha : numeric a = some x) (hb : numeric b = some y) :
    pyCmp a b = some (ratCmp x y) := by
  unfold pyCmp
  cases a <;> cases b <;> simp_all [numeric]

theorem pick_spec (op : Cmp) (o : Ordering) (hop : (op = .gt ∧ o = .gt) ∨ (op = .lt ∧ o = .lt)) :
    ∀ (l : List Val) (k : Val), Same (k :: l) → ∃ m, pick op k l = some m ∧ IsExtreme o (k :: l) m := by
  intro l
  induction l with
  | nil =>
    intro k h
    refine ⟨k, rfl, by simp, ?_⟩
    intro v hv
    simp at hv
    subst hv
    rcases h with h | h
    · have := h v (by simp)
      cases hn : numeric v with
      | none => exact absurd hn this
      | some x =>
        rw [cmp_numbers hn hn]
        have : ratCmp x x = .eq := by unfold ratCmp; simp [Rat.lt_irrefl]
        rw [this]
        rcases hop with ⟨_, rfl⟩ | ⟨_, rfl⟩ <;> simp
    · obtain ⟨s, rfl⟩ := h v (by simp)
      simp only [pyCmp, strCmp_refl]
      rcases hop with ⟨_, rfl⟩ | ⟨_, rfl⟩ <;> simp
  | cons v l ih =>
    intro k h
    have hs : ∀ x, (x = k ∨ x = v) → Same (x :: l) := by
      intro x hx
      rcases h with h | h
      · left; intro y hy
        simp at hy
        rcases hy with rfl | hy
        · rcases hx with rfl | rfl <;> exact h _ (by simp)
        · exact h _ (by simp [hy])
      · right; intro y hy
        simp at hy
        rcases hy with rfl | hy
        · rcases hx with rfl | rfl <;> exact h _ (by simp)
        · exact h _ (by simp [hy])
    -- the comparison of the new item with the kept one
    obtain ⟨c, hc⟩ : ∃ c, pyCmp v k = some c := by
      rcases h with h | h
      · have h1 := h k (by simp)
        have h2 := h v (by simp)
        cases hn : numeric k with
        | none => exact absurd hn h1
        | some x =>
          cases hn' : numeric v with
          | none => exact absurd hn' h2
          | some y => exact ⟨_, cmp_numbers hn' hn⟩
      · obtain ⟨s, rfl⟩ := h k (by simp)
        obtain ⟨t, rfl⟩ := h v (by simp)
        exact ⟨_, rfl⟩
    have hpy : pyOp op v k = some (decide (c = o)) := by
      unfold pyOp
      rw [hc]
      rcases hop with ⟨rfl, rfl⟩ | ⟨rfl, rfl⟩ <;> rfl
    -- the item not kept is not better than the one kept, and comparisons are transitive
    have trans : ∀ x y m : Val, Same (x :: y :: m :: l) → pyCmp x y ≠ some o → pyCmp y m ≠ some o → pyCmp x m ≠ some o := by
      intro x y m hsame hxy hym hxm
      rcases hsame with h | h
      · have a1 := h x (by simp)
        have a2 := h y (by simp)
        have a3 := h m (by simp)
        cases e1 : numeric x with
        | none => exact a1 e1
        | some p =>
          cases e2 : numeric y with
          | none => exact a2 e2
          | some q =>
            cases e3 : numeric m with
            | none => exact a3 e3
            | some r =>
              rw [cmp_numbers e1 e2] at hxy
              rw [cmp_numbers e2 e3] at hym
              rw [cmp_numbers e1 e3] at hxm
              rcases hop with ⟨_, rfl⟩ | ⟨_, rfl⟩
              · simp only [ne_eq, Option.some.injEq, ratCmp_gt, Rat.not_lt] at hxy hym hxm
                exact absurd (Rat.le_trans hxy hym) (Rat.not_le.2 hxm)
              · simp only [ne_eq, Option.some.injEq, ratCmp_lt, Rat.not_lt] at hxy hym hxm
                exact absurd (Rat.le_trans hym hxy) (Rat.not_le.2 hxm)
      · obtain ⟨s, rfl⟩ := h x (by simp)
        obtain ⟨t, rfl⟩ := h y (by simp)
        obtain ⟨u, rfl⟩ := h m (by simp)
        simp only [pyCmp, ne_eq, Option.some.injEq] at hxy hym hxm
        rcases hop with ⟨_, rfl⟩ | ⟨_, rfl⟩
        · have h1 : strCmp u s = .lt := by rw [strCmp_swap, hxm]; rfl
          have := strCmp_lt_trans h1 hxy
          rw [strCmp_swap] at this
          cases hh : strCmp t u <;> simp_all
        · have := strCmp_lt_trans hxm (u := t) (by rw [strCmp_swap]; cases hh : strCmp t u <;> simp_all)
          exact hxy this
    by_cases hco : c = o
    · -- the new item is kept
      obtain ⟨m, hm, hin, hall⟩ := ih v (hs v (.inr rfl))
      refine ⟨m, by simp [pick, hpy, hco, hm], by simp at hin ⊢; rcases hin with h | h <;> simp [h], ?_⟩
      intro w hw
      simp at hw
      have hvm := hall v (by simp)
      rcases hw with rfl | rfl | hw
      · have hm' : m ∈ v :: l := hin
        have hsm : Same (w :: v :: m :: l) := by
          rcases h with h | h
          · left; intro y hy
            simp at hy
            rcases hy with rfl | rfl | rfl | hy
            · exact h _ (by simp)
            · exact h _ (by simp)
            · exact h _ (by simp at hm' ⊢; exact .inr hm')
            · exact h _ (by simp [hy])
          · right; intro y hy
            simp at hy
            rcases hy with rfl | rfl | rfl | hy
            · exact h _ (by simp)
            · exact h _ (by simp)
            · exact h _ (by simp at hm' ⊢; exact .inr hm')
            · exact h _ (by simp [hy])
        refine ⟨trans w v m hsm ?_ hvm.1, ?_⟩
        · -- w is beaten by v, so it does not beat v
          subst hco
          rcases h with h | h
          · have h1 := h w (by simp)
            have h2 := h v (by simp)
            cases hn : numeric w with
            | none => exact absurd hn h1
            | some x =>
              cases hn' : numeric v with
              | none => exact absurd hn' h2
              | some y =>
                rw [cmp_numbers hn' hn] at hc
                rw [cmp_numbers hn hn']
                rcases hop with ⟨_, rfl⟩ | ⟨_, rfl⟩
                · simp only [Option.some.injEq, ratCmp_gt] at hc
                  simp only [ne_eq, Option.some.injEq, ratCmp_gt, Rat.not_lt]
                  exact Rat.le_of_lt hc
                · simp only [Option.some.injEq, ratCmp_lt] at hc
                  simp only [ne_eq, Option.some.injEq, ratCmp_lt, Rat.not_lt]
                  exact Rat.le_of_lt hc
          · obtain ⟨s, rfl⟩ := h w (by simp)
            obtain ⟨t, rfl⟩ := h v (by simp)
            simp only [pyCmp, Option.some.injEq] at hc
            simp only [pyCmp, ne_eq, Option.some.injEq]
            rw [strCmp_swap, hc]
            rcases hop with ⟨_, rfl⟩ | ⟨_, rfl⟩ <;> simp
        · rcases hsm with h | h
          · cases hn : numeric w with
            | none => exact absurd hn (h _ (by simp))
            | some x =>
              cases hn' : numeric m with
              | none => exact absurd hn' (h _ (by simp))
              | some y => rw [cmp_numbers hn hn']; simp
          · obtain ⟨s, rfl⟩ := h w (by simp)
            obtain ⟨t, rfl⟩ := h m (by simp)
            simp [pyCmp]
      · exact hvm
      · exact hall w (by simp [hw])
    · -- the kept one stays
      obtain ⟨m, hm, hin, hall⟩ := ih k (hs k (.inl rfl))
      refine ⟨m, by simp [pick, hpy, hco, hm], by simp at hin ⊢; rcases hin with h | h <;> simp [h], ?_⟩
      intro w hw
      simp at hw
      have hkm := hall k (by simp)
      rcases hw with rfl | rfl | hw
      · exact hkm
      · have hsm : Same (w :: k :: m :: l) := by
          rcases h with h | h
          · left; intro y hy
            simp at hy hin
            rcases hy with rfl | rfl | rfl | hy
            · exact h _ (by simp)
            · exact h _ (by simp)
            · exact h _ (by simp; rcases hin with h | h <;> simp [h])
            · exact h _ (by simp [hy])
          · right; intro y hy
            simp at hy hin
            rcases hy with rfl | rfl | rfl | hy
            · exact h _ (by simp)
            · exact h _ (by simp)
            · exact h _ (by simp; rcases hin with h | h <;> simp [h])
            · exact h _ (by simp [hy])
        refine ⟨trans w k m hsm (by rw [hc]; simpa using hco) hkm.1, ?_⟩
        rcases hsm with h | h
        · cases hn : numeric w with
          | none => exact absurd hn (h _ (by simp))
          | some x =>
            cases hn' : numeric m with
            | none => exact absurd hn' (h _ (by simp))
            | some y => rw [cmp_numbers hn hn']; simp
        · obtain ⟨s, rfl⟩ := h w (by simp)
          obtain ⟨t, rfl⟩ := h m (by simp)
          simp [pyCmp]
      · exact hall w (by simp [hw])

/-- Numbers, texts, NULL. -/
def kind : Val → Nat
  | .null => 0
  | .str _ => 1
  | _ => 2

theorem cmp_kind {a b : Val} {c : Ordering} (h : pyCmp a b = some c) : kind a = kind b ∧ kind b ≠ 0 := by
  cases a <;> cases b <;> simp_all [pyCmp, numeric, kind]

theorem pick_kind (op : Cmp) (hop : op = .gt ∨ op = .lt) : ∀ (l : List Val) (k m : Val), pick op k l = some m → l ≠ [] →
    ∀ w ∈ k :: l, kind w = kind k ∧ kind k ≠ 0 := by
  intro l
  induction l with
  | nil => intro k m _ h; exact absurd rfl h
  | cons v l ih =>
    intro k m h _
    unfold pick at h
    have hc : ∃ c, pyCmp v k = some c := by
      cases hc : pyCmp v k with
      | some c => exact ⟨c, rfl⟩
      | none => rcases hop with rfl | rfl <;> simp [pyOp, hc] at h
    obtain ⟨c, hc⟩ := hc
    obtain ⟨k1, k2⟩ := cmp_kind hc
    have rest : ∀ w ∈ l, kind w = kind k := by
      by_cases hl : l = []
      · subst hl; simp
      · split at h
        · simp at h
        · intro w hw
          rw [(ih v m h hl w (by simp [hw])).1, k1]
        · intro w hw
          exact (ih k m h hl w (by simp [hw])).1
    intro w hw
    simp at hw
    rcases hw with rfl | rfl | hw
    · exact ⟨rfl, k2⟩
    · exact ⟨k1, k2⟩
    · exact ⟨rest w hw, k2⟩

theorem extreme_two (op : Cmp) (a b : Val) (l : List Val) : extreme op (a :: b :: l) = pick op a (b :: l) := by
  cases a with
  | str s => cases s <;> rfl
  | _ => rfl

theorem extreme_kind {op : Cmp} (hop : op = .gt ∨ op = .lt) {l : List Val} (h2 : 2 ≤ l.length) {m : Val}
    (h : extreme op l = some m) : ∀ v ∈ l, ∀ w ∈ l, kind v = kind w ∧ kind v ≠ 0 := by
  match l, h2 with
  | a :: b :: l, _ =>
    have h' : pick op a (b :: l) = some m := by rw [← extreme_two]; exact h
    intro v hv w hw
    have := pick_kind op hop _ _ _ h' (by simp)
    refine ⟨?_, ?_⟩
    · rw [(this v hv).1, (this w hw).1]
    · rw [(this v hv).1]; exact (this v hv).2

theorem extreme_spec {op : Cmp} {o : Ordering} (hop : (op = .gt ∧ o = .gt) ∨ (op = .lt ∧ o = .lt)) {l : List Val}
    (h2 : 2 ≤ l.length) (hs : Same l) : ∃ m, extreme op l = some m ∧ IsExtreme o l m := by
  match l, h2 with
  | a :: b :: l, _ => rw [extreme_two]; exact pick_spec op o hop (b :: l) a hs

theorem mapM_null (py : Py) : ∀ l : List Val, .null ∈ l → l.mapM py.ensureNumber = none := by
  intro l
  induction l with
  | nil => simp
  | cons v l ih =>
    intro h
    simp at h
    rw [List.mapM_cons]
    rcases h with rfl | h
    · rfl
    · cases py.ensureNumber v <;> simp [ih h]

theorem mapM_length (py : Py) : ∀ (l : List Val) (ns : List Num), l.mapM py.ensureNumber = some ns → ns.length = l.length := by
  intro l
  induction l with
  | nil => intro ns h; simp at h; subst h; rfl
  | cons v l ih =>
    intro ns h
    rw [List.mapM_cons] at h
    cases hv : py.ensureNumber v with
    | none => simp [hv] at h
    | some n =>
      cases hl : l.mapM py.ensureNumber with
      | none => simp [hv, hl] at h
      | some ms => simp [hv, hl] at h; subst h; simp [ih ms hl]

end Gr

/-- C73: GREATEST and LEAST of two or more numbers, or of two or more texts, are one of the arguments, and no argument is greater,
respectively less. -/
theorem C73_extreme (py : Py) (l : List Val) (h2 : 2 ≤ l.length) (hs : AllNumbers l ∨ AllTexts l) :
    IsExtreme .gt l (Py.greatest py l) ∧ IsExtreme .lt l (Py.least py l) := by
  obtain ⟨m, hm, h⟩ := Gr.extreme_spec (op := .gt) (o := .gt) (.inl ⟨rfl, rfl⟩) h2 hs
  obtain ⟨m', hm', h'⟩ := Gr.extreme_spec (op := .lt) (o := .lt) (.inr ⟨rfl, rfl⟩) h2 hs
  refine ⟨?_, ?_⟩
  · simpa [Py.greatest, Py.extremeOf, hm, caught] using h
  · simpa [Py.least, Py.extremeOf, hm', caught] using h'

/-- C73: NULL among the arguments gives NULL. -/
theorem C73_null (py : Py) (l : List Val) (h : .null ∈ l) : Py.greatest py l = .null ∧ Py.least py l = .null := by
  have key : ∀ op, op = Cmp.gt ∨ op = Cmp.lt → Py.extremeOf py op l = .null := by
    intro op hop
    have h1 : extreme op l = none := by
      match l, h with
      | [a], h => simp at h; subst h; rfl
      | a :: b :: l, h =>
        cases he : extreme op (a :: b :: l) with
        | none => rfl
        | some m => exact absurd rfl (Gr.extreme_kind hop (by simp) he _ h _ h).2
    simp [Py.extremeOf, h1, Gr.mapM_null py l h, caught]
  exact ⟨key _ (.inl rfl), key _ (.inr rfl)⟩

/-- C73: numbers and texts together are compared as numbers, and the result is a number. -/
theorem C73_mixed (py : Py) (l : List Val) (a b : Val) (s : Str) (ha : a ∈ l) (hn : numeric a ≠ none) (hb : b ∈ l) (hb' : b = .str s)
    (ns : List Num) (hns : l.mapM py.ensureNumber = some ns) :
    IsExtreme .gt (ns.map Num.toVal) (Py.greatest py l) ∧ IsExtreme .lt (ns.map Num.toVal) (Py.least py l) := by
  have h2 : 2 ≤ l.length := by
    match l, ha, hb with
    | [x], ha, hb =>
      simp at ha hb
      subst ha hb
      simp [hb', numeric] at hn
    | _ :: _ :: _, _, _ => simp
  have none_ : ∀ op, op = Cmp.gt ∨ op = Cmp.lt → extreme op l = none := by
    intro op hop
    cases he : extreme op l with
    | none => rfl
    | some m =>
      have := (Gr.extreme_kind hop h2 he a ha b hb).1
      subst hb'
      cases a <;> simp_all [Gr.kind, numeric]
  have hl : 2 ≤ (ns.map Num.toVal).length := by
    rw [List.length_map, Gr.mapM_length py l ns hns]; exact h2
  have hs : AllNumbers (ns.map Num.toVal) := by
    intro v hv
    simp at hv
    obtain ⟨n, _, rfl⟩ := hv
    cases n <;> simp [Num.toVal, numeric]
  obtain ⟨m, hm, h⟩ := Gr.extreme_spec (op := .gt) (o := .gt) (.inl ⟨rfl, rfl⟩) hl (.inl hs)
  obtain ⟨m', hm', h'⟩ := Gr.extreme_spec (op := .lt) (o := .lt) (.inr ⟨rfl, rfl⟩) hl (.inl hs)
  refine ⟨?_, ?_⟩
  · simpa [Py.greatest, Py.extremeOf, none_ .gt (.inl rfl), hns, hm, caught] using h
  · simpa [Py.least, Py.extremeOf, none_ .lt (.inr rfl), hns, hm', caught] using h'

/-- C73: the order of numeric arguments does not matter for the value. -/
theorem C73_order (py : Py) (l l' : List Val) (hp : l.Perm l') (h2 : 2 ≤ l.length) (hs : AllNumbers l) :
    numeric (Py.greatest py l) = numeric (Py.greatest py l') ∧ numeric (Py.least py l) = numeric (Py.least py l') := by
  have hs' : AllNumbers l' := fun v hv => hs v (hp.mem_iff.2 hv)
  have h2' : 2 ≤ l'.length := by rw [← hp.length_eq]; exact h2
  obtain ⟨⟨g1, g2⟩, ⟨s1, s2⟩⟩ := C73_extreme py l h2 (.inl hs)
  obtain ⟨⟨g1', g2'⟩, ⟨s1', s2'⟩⟩ := C73_extreme py l' h2' (.inl hs')
  have key : ∀ {a b : Val} {o : Ordering}, (o = .gt ∨ o = .lt) → a ∈ l → b ∈ l → pyCmp a b ≠ some o → pyCmp b a ≠ some o →
      numeric a = numeric b := by
    intro a b o ho ha hb hab hba
    cases e1 : numeric a with
    | none => exact absurd e1 (hs a ha)
    | some x =>
      cases e2 : numeric b with
      | none => exact absurd e2 (hs b hb)
      | some y =>
        rw [Gr.cmp_numbers e1 e2] at hab
        rw [Gr.cmp_numbers e2 e1] at hba
        rcases ho with rfl | rfl
        · simp only [ne_eq, Option.some.injEq, Gr.ratCmp_gt, Rat.not_lt] at hab hba
          exact congrArg some (Rat.le_antisymm hab hba)
        · simp only [ne_eq, Option.some.injEq, Gr.ratCmp_lt, Rat.not_lt] at hab hba
          exact congrArg some (Rat.le_antisymm hba hab)
  exact ⟨key (.inl rfl) g1 (hp.mem_iff.2 g1') (g2' _ (hp.mem_iff.1 g1)).1 (g2 _ (hp.mem_iff.2 g1')).1,
    key (.inr rfl) s1 (hp.mem_iff.2 s1') (s2' _ (hp.mem_iff.1 s1)).1 (s2 _ (hp.mem_iff.2 s1')).1⟩

/-- C73: LEAST is not greater than GREATEST. -/
theorem C73_least_le (py : Py) (l : List Val) (h2 : 2 ≤ l.length) (hs : AllNumbers l ∨ AllTexts l) :
    pyCmp (Py.least py l) (Py.greatest py l) ≠ some .gt := by
  obtain ⟨⟨_, g2⟩, ⟨s1, _⟩⟩ := C73_extreme py l h2 hs
  exact (g2 _ s1).1

/-- A single argument: a text gives its greatest (least) character, everything else NULL. -/
theorem C73_single (py : Py) (v : Val) :
    (∀ c s, v = .str (c :: s) → ∃ g, IsExtreme .gt ((c :: s).map fun c => .str [c]) g ∧ Py.greatest py [v] = g) ∧
    ((∀ c s, v ≠ .str (c :: s)) → Py.greatest py [v] = .null ∧ Py.least py [v] = .null) := by
  refine ⟨?_, ?_⟩
  · rintro c s rfl
    obtain ⟨m, hm, h⟩ := Gr.pick_spec .gt .gt (.inl ⟨rfl, rfl⟩) (s.map fun c => .str [c]) (.str [c]) (.inr (by
      intro v hv
      simp at hv
      rcases hv with rfl | ⟨a, _, rfl⟩
      · exact ⟨_, rfl⟩
      · exact ⟨_, rfl⟩))
    refine ⟨m, by simpa using h, ?_⟩
    simp [Py.greatest, Py.extremeOf, extreme, hm, caught]
  · intro h
    have h1 : ∀ op, extreme op [v] = none := by
      intro op
      match v, h with
      | .str (c :: s), h => exact absurd rfl (h c s)
      | .str [], _ => rfl
      | .null, _ => rfl
      | .bool _, _ => rfl
      | .int _, _ => rfl
      | .flt _, _ => rfl
    have h3 : ∀ op (ns : List Num), ns.length = 1 → extreme op (ns.map Num.toVal) = none := by
      intro op ns hn
      match ns, hn with
      | [.int _], _ => rfl
      | [.flt _], _ => rfl
    have h4 : ∀ op, ((([v] : List Val).mapM py.ensureNumber).bind fun ns => extreme op (ns.map Num.toVal)) = none := by
      intro op
      cases hm : ([v] : List Val).mapM py.ensureNumber with
      | none => rfl
      | some ns => exact h3 op ns (by simpa using Gr.mapM_length py _ ns hm)
    simp only [Py.greatest, Py.least, Py.extremeOf, h1, h4]
    exact ⟨rfl, rfl⟩

/-- The hypotheses are met. -/
example (py : Py) : Py.greatest py [.int 3, .flt (7/2), .bool true] = .flt (7/2) ∧ Py.least py [.str ['b'], .str ['a', 'z']] = .str ['a', 'z'] ∧
    AllNumbers [.int 3, .flt (7/2), .bool true] := by
  refine ⟨?_, rfl, ?_⟩
  · have h1 : pyOp .gt (.flt (7/2)) (.int 3) = some true := by decide +kernel
    have h2 : pyOp .gt (.bool true) (.flt (7/2)) = some false := by decide +kernel
    simp [Py.greatest, Py.extremeOf, extreme, pick, h1, h2, caught]
  intro v hv
  simp at hv
  rcases hv with rfl | rfl | rfl <;> simp [numeric]

end Verif.Props
