import Verif.Spec.View
/-! Proofs about the parameters of virtual views (C130); the same argument as for variables in Proofs/Subst. -/
namespace Verif.View

variable {isW : Char → Bool}

theorem takeWhile_all_append {f : Char → Bool} {a : List Char} {c : Char} {b : List Char}
    (ha : ∀ x ∈ a, f x = true) (hc : f c = false) : (a ++ c :: b).takeWhile f = a := by
  induction a with
  | nil => simp [hc]
  | cons x a ih =>
    rw [List.cons_append, List.takeWhile_cons, if_pos (ha x (by simp)), ih (fun y hy => ha y (by simp [hy]))]

theorem dropWhile_all_append {f : Char → Bool} {a : List Char} {c : Char} {b : List Char}
    (ha : ∀ x ∈ a, f x = true) (hc : f c = false) : (a ++ c :: b).dropWhile f = c :: b := by
  induction a with
  | nil => simp [hc]
  | cons x a ih =>
    rw [List.cons_append, List.dropWhile_cons, if_pos (ha x (by simp)), ih (fun y hy => ha y (by simp [hy]))]

theorem matchRef_text (hw : WordClass isW) (r : Ref) (hr : r.Good isW) (rest : List Char) :
    matchRef isW (r.text ++ rest) = some (r, rest) := by
  obtain ⟨name, dflt⟩ := r
  have hn : ∀ x ∈ name, (fun c => isW c) x = true := hr.name
  have hne : name ≠ [] := hr.ne
  cases dflt with
  | none =>
    have e : Ref.text ⟨name, none⟩ ++ rest = '#' :: '{' :: (name ++ '}' :: rest) := by simp [Ref.text]
    have hc : (fun c => isW c) '}' = false := by simp [hw.cls]
    rw [e]
    simp only [matchRef]
    rw [takeWhile_all_append hn hc, dropWhile_all_append hn hc, if_neg hne]
    simp
  | some d =>
    have e : Ref.text ⟨name, some d⟩ ++ rest = '#' :: '{' :: (name ++ ':' :: (d ++ '}' :: rest)) := by
      simp [Ref.text]
    have hc : (fun c => isW c) ':' = false := by simp [hw.colon]
    have hd : ∀ x ∈ d, (fun c => decide (c ≠ '}')) x = true := by
      intro x hx
      have := (hr.dflt d rfl).1
      simp
      rintro rfl
      exact this hx
    rw [e]
    simp only [matchRef]
    rw [takeWhile_all_append hn hc, dropWhile_all_append hn hc, if_neg hne]
    simp only
    rw [takeWhile_all_append hd (by simp), dropWhile_all_append hd (by simp)]
    simp

theorem matchRef_start {s : List Char} {p : Ref × List Char} (h : matchRef isW s = some p) :
    ∃ t, s = '#' :: '{' :: t := by
  unfold matchRef at h
  split at h
  · exact ⟨_, rfl⟩
  · simp at h

theorem findAll_hit {s : List Char} {r : Ref} {rest : List Char} (h : matchRef isW s = some (r, rest)) :
    findAll isW s = r :: findAll isW rest := by
  obtain ⟨t, rfl⟩ := matchRef_start h
  conv => lhs; unfold findAll
  split
  · next r' rest' h' => rw [h] at h'; simp at h'; rw [h'.1, h'.2]
  · next h' => rw [h] at h'; simp at h'

theorem findAll_miss {c : Char} {cs : List Char} (h : matchRef isW (c :: cs) = none) :
    findAll isW (c :: cs) = findAll isW cs := by
  conv => lhs; unfold findAll
  split
  · next r' rest' h' => rw [h] at h'; simp at h'
  · rfl

/-- The text after a plain character never makes it the start of `#{`. -/
theorem ch_not_open {c : Char} {d : List Item} (h : WF isW (.ch c :: d)) :
    ∀ t, c :: docText d ≠ '#' :: '{' :: t := by
  intro t e
  simp at e
  obtain ⟨rfl, e⟩ := e
  have h1 := h.1 rfl
  cases d with
  | nil => simp [docText] at e
  | cons i d =>
    cases i with
    | ch c' => simp [docText] at e; exact h1 e.1
    | ref r => exact h1

theorem findAll_doc (hw : WordClass isW) (d : List Item) (h : WF isW d) : findAll isW (docText d) = refs d := by
  induction d with
  | nil => simp [docText, refs, findAll]
  | cons i d ih =>
    cases i with
    | ch c =>
      rw [docText, refs, findAll_miss, ih h.2]
      cases hm : matchRef isW (c :: docText d) with
      | none => rfl
      | some p =>
        obtain ⟨t, e⟩ := matchRef_start hm
        exact absurd e (ch_not_open h t)
    | ref r =>
      rw [docText, refs, findAll_hit (matchRef_text hw r h.1 _), ih h.2]

/-! One replacement step. -/

/-- Replacing one reference. -/
def substOne (r : Ref) (v : List Char) : List Item → List Item
  | [] => []
  | .ch c :: d => .ch c :: substOne r v d
  | .ref r' :: d => if r' = r then v.map .ch ++ substOne r v d else .ref r' :: substOne r v d

theorem docText_chs (v : List Char) (d : List Item) : docText (v.map .ch ++ d) = v ++ docText d := by
  induction v with
  | nil => rfl
  | cons c v ih => simp [docText, ih]

theorem WF_chs {v : List Char} (hv : '#' ∉ v) {d : List Item} (h : WF isW d) : WF isW (v.map .ch ++ d) := by
  induction v with
  | nil => exact h
  | cons c v ih =>
    simp at hv
    refine ⟨fun e => absurd e.symm hv.1, ih hv.2⟩

theorem WF_substOne {r : Ref} {v : List Char} (hv : '#' ∉ v) {d : List Item} (h : WF isW d) :
    WF isW (substOne r v d) := by
  induction d with
  | nil => trivial
  | cons i d ih =>
    cases i with
    | ch c =>
      refine ⟨fun e => ?_, ih h.2⟩
      have h1 := h.1 e
      cases d with
      | nil => trivial
      | cons j d =>
        cases j with
        | ch c' => exact h1
        | ref r' => exact absurd h1 id
    | ref r' =>
      rw [substOne]
      split
      · exact WF_chs hv (ih h.2)
      · exact ⟨h.1, ih h.2⟩

theorem replaceAll_hit {old new : List Char} {ho : old ≠ []} (rest : List Char) :
    replaceAll old new ho (old ++ rest) = new ++ replaceAll old new ho rest := by
  cases old with
  | nil => exact absurd rfl ho
  | cons c old =>
    conv => lhs; rw [List.cons_append]; unfold replaceAll
    rw [← List.cons_append, if_pos]
    · simp
    · rw [List.isPrefixOf_iff_prefix]; exact List.prefix_append _ _

theorem replaceAll_miss {old new : List Char} {ho : old ≠ []} {c : Char} {cs : List Char}
    (h : ¬ old <+: c :: cs) : replaceAll old new ho (c :: cs) = c :: replaceAll old new ho cs := by
  conv => lhs; unfold replaceAll
  rw [if_neg]
  rw [List.isPrefixOf_iff_prefix]; exact h

theorem replaceAll_skip {old new : List Char} {ho : old ≠ []} (h0 : old.head? = some '#') (a rest : List Char)
    (ha : '#' ∉ a) : replaceAll old new ho (a ++ rest) = a ++ replaceAll old new ho rest := by
  induction a with
  | nil => rfl
  | cons c a ih =>
    simp at ha
    rw [List.cons_append, replaceAll_miss, ih ha.2]; · rfl
    rintro ⟨t, e⟩
    cases old with
    | nil => exact ho rfl
    | cons o old => simp at h0 e; exact ha.1 (h0 ▸ e.1)

theorem text_tail_no_hash (hw : WordClass isW) {r : Ref} (h : r.Good isW) :
    ∃ t, r.text = '#' :: t ∧ '#' ∉ t := by
  refine ⟨_, rfl, ?_⟩
  have h1 : '#' ∉ r.name := by
    intro hm
    have := h.name _ hm
    simp [hw.hash] at this
  have h2 := h.dflt
  cases hd : r.dflt with
  | none => simp [h1]
  | some d => simp [h1, (h2 d hd).2]

theorem replaceAll_doc (hw : WordClass isW) (r : Ref) (hr : r.Good isW) (v : List Char) (d : List Item)
    (h : WF isW d) :
    replaceAll r.text v (Ref.text_ne_nil r) (docText d) = docText (substOne r v d) := by
  induction d with
  | nil => simp [docText, substOne, replaceAll]
  | cons i d ih =>
    cases i with
    | ch c =>
      rw [docText, substOne, docText, replaceAll_miss, ih h.2]
      rintro ⟨t, e⟩
      apply ch_not_open h (r.text.drop 2 ++ t)
      rw [← e]; simp [Ref.text]
    | ref r' =>
      rw [docText, substOne]
      by_cases hrr : r' = r
      · subst hrr
        rw [if_pos rfl, replaceAll_hit, docText_chs, ih h.2]
      · rw [if_neg hrr, docText]
        obtain ⟨t, et, hd⟩ := text_tail_no_hash hw h.1
        have hpre : ¬ r.text <+: r'.text ++ docText d := by
          rintro ⟨u, e⟩
          have m1 := matchRef_text hw r hr u
          have m2 := matchRef_text hw r' h.1 (docText d)
          rw [e, m2] at m1
          simp at m1
          exact hrr m1.1
        rw [et] at hpre ⊢
        rw [List.cons_append] at hpre ⊢
        rw [replaceAll_miss hpre, replaceAll_skip (by simp [Ref.text]) _ _ hd, ih h.2]
        simp

theorem docSubst_chs (val : Ref → List Char) (v : List Char) (d : List Item) :
    docSubst val (v.map .ch ++ d) = v ++ docSubst val d := by
  induction v with
  | nil => rfl
  | cons c v ih => simp [docSubst, ih]

theorem docSubst_substOne (val : Ref → List Char) (r : Ref) (d : List Item) :
    docSubst val (substOne r (val r) d) = docSubst val d := by
  induction d with
  | nil => rfl
  | cons i d ih =>
    cases i with
    | ch c => simp [substOne, docSubst, ih]
    | ref r' =>
      rw [substOne]
      split
      · next e => subst e; rw [docSubst_chs, docSubst, ih]
      · simp [docSubst, ih]

theorem refs_chs (v : List Char) (d : List Item) : refs (v.map .ch ++ d) = refs d := by
  induction v with
  | nil => rfl
  | cons c v ih => simp [refs, ih]

theorem refs_substOne (r : Ref) (v : List Char) (d : List Item) :
    ∀ r' ∈ refs (substOne r v d), r' ∈ refs d ∧ r' ≠ r := by
  induction d with
  | nil => simp [substOne, refs]
  | cons i d ih =>
    intro r' h
    cases i with
    | ch c => simp only [substOne, refs] at h ⊢; exact ih r' h
    | ref r0 =>
      rw [substOne] at h
      split at h
      · rw [refs_chs] at h
        have := ih r' h
        simp [refs, this]
      · next hne =>
        simp only [refs, List.mem_cons] at h ⊢
        rcases h with h | h
        · subst h; exact ⟨Or.inl rfl, hne⟩
        · have := ih r' h; exact ⟨Or.inr this.1, this.2⟩

theorem docText_of_no_refs (val : Ref → List Char) (d : List Item) (h : refs d = []) :
    docText d = docSubst val d := by
  induction d with
  | nil => rfl
  | cons i d ih =>
    cases i with
    | ch c => simp only [refs] at h; simp [docText, docSubst, ih h]
    | ref r => simp [refs] at h

theorem WF.good {d : List Item} (h : WF isW d) : ∀ r ∈ refs d, r.Good isW := by
  induction d with
  | nil => simp [refs]
  | cons i d ih =>
    cases i with
    | ch c => simp only [refs]; exact ih h.2
    | ref r =>
      simp only [refs, List.mem_cons]
      rintro r' (e | e)
      · subst e; exact h.1
      · exact ih h.2 r' e

theorem fold_doc (hw : WordClass isW) (val : Ref → List Char) (rs : List Ref) (hg : ∀ r ∈ rs, r.Good isW)
    (hv : ∀ r ∈ rs, '#' ∉ val r) : ∀ (d : List Item), WF isW d → (∀ r ∈ refs d, r ∈ rs) →
    rs.foldl (fun s r => replaceAll r.text (val r) (Ref.text_ne_nil r) s) (docText d) = docSubst val d := by
  induction rs with
  | nil =>
    intro d _ h2
    exact docText_of_no_refs val d (List.eq_nil_iff_forall_not_mem.mpr fun r hr => by simpa using h2 r hr)
  | cons r rs ih =>
    intro d h1 h2
    rw [List.foldl_cons, replaceAll_doc hw r (hg r (by simp)) _ d h1,
      ih (fun r hr => hg r (by simp [hr])) (fun r hr => hv r (by simp [hr])) _
        (WF_substOne (hv r (by simp)) h1), docSubst_substOne]
    intro r' hr'
    obtain ⟨h3, h4⟩ := refs_substOne r _ d r' hr'
    have := h2 r' h3
    simp at this
    rcases this with e | e
    · exact absurd e h4
    · exact e

end Verif.View
