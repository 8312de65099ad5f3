import Verif.Proofs.TasksStore
/-! The tasks the compiler makes are well scoped: every subquery has a collection of its own. -/
namespace Verif.Tasks

variable {R : Type}

/-- A temporary collection numbered in `[a, b)`. -/
def Rng (a b : Nat) (n : Name) : Prop := ∃ i, n = .tmp i ∧ a ≤ i ∧ i < b

theorem Rng.mono {a b a' b' : Nat} {n : Name} (h : Rng a b n) (ha : a' ≤ a) (hb : b ≤ b') : Rng a' b' n := by
  obtain ⟨i, h1, h2, h3⟩ := h
  exact ⟨i, h1, by omega, by omega⟩

theorem Rng.disj {a b a' b' : Nat} {n : Name} (h : Rng a b n) (h' : Rng a' b' n) (hb : b ≤ a') : False := by
  obtain ⟨i, rfl, h2, h3⟩ := h
  obtain ⟨j, h1, h4, h5⟩ := h'
  cases h1
  omega

theorem Rng.tmp {a b : Nat} {n : Name} (h : Rng a b n) : isTmp n = true := by
  obtain ⟨i, rfl, _⟩ := h; rfl

theorem user_not_rng {a b k : Nat} : ¬ Rng a b (.user k) := by rintro ⟨i, h, _⟩; cases h

/-- `out` was named before `k`. -/
def Old (out : Name) (k : Nat) : Prop := ∀ i, out = .tmp i → i < k

theorem Old.not_rng {out : Name} {k b : Nat} (h : Old out k) : ¬ Rng k b out := by
  rintro ⟨i, h1, h2, _⟩
  have := h i h1
  omega

structure Built (out : Name) (a b : Nat) (t : Task Name R) : Prop where
  lt : a < b
  fr : ∀ n ∈ frees isTmp t, Rng a b n
  to : ∀ n ∈ touched t, n = out ∨ isTmp n = false ∨ Rng a b n
  sc : Scoped isTmp t
  ids : ∀ i ∈ idsOf (subtasks t), a ≤ i ∧ i < b
  nodup : (idsOf (subtasks t)).Nodup

structure BuiltL (P : Name → Prop) (a b : Nat) (ts : List (Task Name R)) : Prop where
  le : a ≤ b
  fr : ∀ n ∈ freesL isTmp ts, Rng a b n
  to : ∀ n ∈ touchedL ts, P n ∨ isTmp n = false ∨ Rng a b n
  sc : ScopedL isTmp ts
  ids : ∀ i ∈ idsOf (subtasksL ts), a ≤ i ∧ i < b
  nodup : (idsOf (subtasksL ts)).Nodup

theorem BuiltL.cons {P : Name → Prop} {out : Name} {a b c a' : Nat} {t : Task Name R} {ts : List (Task Name R)} (h : Built out a b t)
    (h' : BuiltL P b c ts) (ha : a' ≤ a) (ho : P out ∨ Rng a' c out) (hP : ∀ n, P n → ¬ Rng a b n) : BuiltL P a' c (t :: ts) := by
  have hlt := h.lt
  have hle := h'.le
  refine ⟨by omega, ?_, ?_, ?_, ?_, ?_⟩
  · intro n hn
    rw [freesL] at hn
    rcases List.mem_append.mp hn with g | g
    · exact (h.fr n g).mono ha (by omega)
    · exact (h'.fr n g).mono (by omega) (by omega)
  · intro n hn
    rw [touchedL] at hn
    rcases List.mem_append.mp hn with g | g
    · rcases h.to n g with g | g | g
      · subst g
        rcases ho with g | g
        · exact Or.inl g
        · exact Or.inr (Or.inr g)
      · exact Or.inr (Or.inl g)
      · exact Or.inr (Or.inr (g.mono ha (by omega)))
    · rcases h'.to n g with g | g | g
      · exact Or.inl g
      · exact Or.inr (Or.inl g)
      · exact Or.inr (Or.inr (g.mono (by omega) (by omega)))
  · rw [ScopedL]
    refine ⟨h.sc, h'.sc, ?_⟩
    intro n hn hn'
    have g := h.fr n hn
    rcases h'.to n hn' with g' | g' | g'
    · exact hP n g' g
    · rw [g.tmp] at g'; cases g'
    · exact g.disj g' (by omega)
  · intro i hi
    rw [idsOf_subtasksL] at hi
    rcases List.mem_append.mp hi with g | g
    · have := h.ids i g; omega
    · have := h'.ids i g; omega
  · rw [idsOf_subtasksL, List.nodup_append]
    refine ⟨h.nodup, h'.nodup, ?_⟩
    intro i hi j hj
    have := h.ids i hi
    have := h'.ids j hj
    omega

/-- The query over its subqueries. -/
theorem Built.mk' {P : Name → Prop} {out : Name} {a b : Nat} {c : Core Name R} {f : Option (Core Name R)} {ds : List (Task Name R)}
    (h : BuiltL P (a + 3) b ds) (hcl : ∀ n ∈ c.loader, isTmp n = true → Rng a b n ∧ n ∉ freesL isTmp ds)
    (hcn : ∀ n ∈ c.names, n = out ∨ isTmp n = false ∨ Rng a b n ∧ n ∉ freesL isTmp ds)
    (hf : ∀ x ∈ f, x.loader = some (.tmp a) ∧ x.names = [.tmp a, out] ∧ ∀ n ∈ c.loader, n ≠ .tmp a)
    (ho : Old out a) (hP : ∀ n, P n → n = .tmp a)
    (hi : (Task.mk c f ds).own.map Core.tid = [a] ∨ (Task.mk c f ds).own.map Core.tid = [a, a + 1]) : Built out a b (.mk c f ds) := by
  have hle := h.le
  have hfn : ∀ n ∈ f.toList.flatMap Core.names, n = .tmp a ∨ n = out := by
    intro n hn
    obtain ⟨x, hx, hx'⟩ := List.mem_flatMap.mp hn
    rw [(hf x (by simpa using hx)).2.1] at hx'
    simpa using hx'
  have ra : Rng a b (.tmp a) := ⟨a, rfl, by omega, by omega⟩
  have hcf : ∀ n ∈ c.freed isTmp, Rng a b n ∧ n ∉ freesL isTmp ds := by
    intro n hn
    simp only [Core.freed, List.mem_filter] at hn
    exact hcl n (by simpa using hn.1) hn.2
  have hnf : ∀ n, n ∈ freesL isTmp ds → n ≠ .tmp a ∧ n ≠ out := by
    intro n hn
    obtain ⟨i, hi', h1, h2⟩ := h.fr n hn
    refine ⟨?_, ?_⟩
    · rintro rfl; cases hi'; omega
    · rintro rfl; have := ho i hi'; omega
  refine ⟨by omega, ?_, ?_, ?_, ?_, ?_⟩
  · intro n hn
    rw [frees] at hn
    rcases List.mem_append.mp hn with g | g
    · exact (h.fr n g).mono (by omega) (by omega)
    · rcases List.mem_append.mp g with g | g
      · exact (hcf n g).1
      · obtain ⟨x, hx, hx'⟩ := List.mem_flatMap.mp g
        simp only [Core.freed, List.mem_filter, (hf x (by simpa using hx)).1] at hx'
        have : n = .tmp a := by simpa using hx'.1
        rw [this]; exact ra
  · intro n hn
    rw [touched] at hn
    rcases List.mem_append.mp hn with g | g
    · rcases h.to n g with g | g | g
      · rw [hP n g]; exact Or.inr (Or.inr ra)
      · exact Or.inr (Or.inl g)
      · exact Or.inr (Or.inr (g.mono (by omega) (by omega)))
    · rcases List.mem_append.mp g with g | g
      · rcases hcn n g with g | g | g
        · exact Or.inl g
        · exact Or.inr (Or.inl g)
        · exact Or.inr (Or.inr g.1)
      · rcases hfn n g with g | g
        · rw [g]; exact Or.inr (Or.inr ra)
        · exact Or.inl g
  · rw [Scoped]
    refine ⟨h.sc, ?_, ?_⟩
    · intro n hn hn'
      rcases List.mem_append.mp hn' with g | g
      · rcases hcn n g with g | g | g
        · exact (hnf n hn).2 g
        · rw [(h.fr n hn).tmp] at g; cases g
        · exact g.2 hn
      · rcases hfn n g with g | g
        · exact (hnf n hn).1 g
        · exact (hnf n hn).2 g
    · intro n hn hn'
      obtain ⟨x, hx, _⟩ := List.mem_flatMap.mp hn'
      have hx := hf x (by simpa using hx)
      have hnl : n ∈ c.loader := by
        simp only [Core.freed, List.mem_filter] at hn
        simpa using hn.1
      rcases hfn n hn' with g | g
      · exact hx.2.2 n hnl g
      · have := (hcf n hn).1
        rw [g] at this
        exact ho.not_rng this
  · intro i hii
    rw [idsOf_subtasks] at hii
    rcases List.mem_append.mp hii with g | g
    · rcases hi with hi | hi <;> rw [hi] at g <;> simp at g <;> omega
    · have := h.ids i g; omega
  · rw [idsOf_subtasks, List.nodup_append]
    refine ⟨?_, h.nodup, ?_⟩
    · rcases hi with hi | hi <;> rw [hi] <;> simp
    · intro i hii j hj
      have := h.ids j hj
      rcases hi with hi | hi <;> rw [hi] at hii <;> simp at hii <;> omega

theorem freesL_append (temp : Name → Bool) (xs ys : List (Task Name R)) : freesL temp (xs ++ ys) = freesL temp xs ++ freesL temp ys := by
  induction xs with
  | nil => simp [freesL]
  | cons x xs ih => simp [freesL, ih]

theorem touchedL_append (xs ys : List (Task Name R)) : touchedL (xs ++ ys) = touchedL xs ++ touchedL ys := by
  induction xs with
  | nil => simp [touchedL]
  | cons x xs ih => simp [touchedL, ih]

theorem subtasksL_append (xs ys : List (Task Name R)) : subtasksL (xs ++ ys) = subtasksL xs ++ subtasksL ys := by
  induction xs with
  | nil => simp [subtasksL]
  | cons x xs ih => simp [subtasksL, ih]

theorem ScopedL_append (temp : Name → Bool) (xs ys : List (Task Name R)) (hx : ScopedL temp xs) (hy : ScopedL temp ys)
    (h : ∀ n ∈ freesL temp xs, n ∉ touchedL ys) : ScopedL temp (xs ++ ys) := by
  induction xs with
  | nil => exact hy
  | cons x xs ih =>
    rw [ScopedL] at hx
    obtain ⟨h1, h2, h3⟩ := hx
    rw [List.cons_append, ScopedL]
    refine ⟨h1, ih h2 (fun n hn => h n (by rw [freesL]; exact List.mem_append_right _ hn)), ?_⟩
    intro n hn hn'
    rw [touchedL_append] at hn'
    rcases List.mem_append.mp hn' with g | g
    · exact h3 n hn g
    · exact h n (by rw [freesL]; exact List.mem_append_left _ hn) g

theorem Built.addDeps {out : Name} {a b c : Nat} {ts : List (Task Name R)} {t : Task Name R} (h : BuiltL (fun _ => False) a b ts)
    (h' : Built out b c t) (ho : Old out a) : Built out a c (t.addDeps ts) := by
  obtain ⟨co, f, ds⟩ := t
  have hle := h.le
  have hlt := h'.lt
  have hfr : ∀ n ∈ freesL isTmp ts, n ∉ touched (.mk co f ds) := by
    intro n hn hn'
    have g := h.fr n hn
    rcases h'.to n hn' with g' | g' | g'
    · subst g'; exact ho.not_rng g
    · rw [g.tmp] at g'; cases g'
    · exact g.disj g' (by omega)
  obtain ⟨s1, s2, s3⟩ := (Scoped.eq_1 isTmp co f ds) ▸ h'.sc
  refine ⟨by omega, ?_, ?_, ?_, ?_, ?_⟩
  · intro n hn
    rw [Task.addDeps, frees, freesL_append, List.append_assoc] at hn
    rcases List.mem_append.mp hn with g | g
    · exact (h.fr n g).mono (by omega) (by omega)
    · exact (h'.fr n (by rw [frees]; exact g)).mono (by omega) (by omega)
  · intro n hn
    rw [Task.addDeps, touched, touchedL_append, List.append_assoc] at hn
    rcases List.mem_append.mp hn with g | g
    · rcases h.to n g with g | g | g
      · cases g
      · exact Or.inr (Or.inl g)
      · exact Or.inr (Or.inr (g.mono (by omega) (by omega)))
    · rcases h'.to n (by rw [touched]; exact g) with g | g | g
      · exact Or.inl g
      · exact Or.inr (Or.inl g)
      · exact Or.inr (Or.inr (g.mono (by omega) (by omega)))
  · rw [Task.addDeps, Scoped]
    refine ⟨ScopedL_append _ _ _ h.sc s1 ?_, ?_, s3⟩
    · intro n hn hn'
      exact hfr n hn (by rw [touched]; exact List.mem_append_left _ hn')
    · intro n hn
      rw [freesL_append] at hn
      rcases List.mem_append.mp hn with g | g
      · intro hn'
        exact hfr n g (by rw [touched]; exact List.mem_append_right _ hn')
      · exact s2 n g
  · intro i hi
    rw [Task.addDeps, idsOf_subtasks, subtasksL_append, idsOf_append] at hi
    have hids := h'.ids i
    rw [idsOf_subtasks] at hids
    simp only [List.mem_append] at hi hids
    rcases hi with g | g | g
    · have := hids (Or.inl g); omega
    · have := h.ids i g; omega
    · have := hids (Or.inr g); omega
  · have hnd := h'.nodup
    have hids := h'.ids
    rw [idsOf_subtasks] at hnd hids
    rw [Task.addDeps, idsOf_subtasks, subtasksL_append, idsOf_append]
    have hown : ((Task.mk co f (ts ++ ds)).own.map Core.tid) = ((Task.mk co f ds).own.map Core.tid) := rfl
    rw [hown]
    obtain ⟨n1, n2, n3⟩ := List.nodup_append.mp hnd
    rw [List.nodup_append]
    refine ⟨n1, ?_, ?_⟩
    · rw [List.nodup_append]
      refine ⟨h.nodup, n2, ?_⟩
      intro i hi j hj
      have := h.ids i hi
      have := hids j (List.mem_append_right _ hj)
      omega
    · intro i hi j hj
      rcases List.mem_append.mp hj with g | g
      · have := h.ids j g
        have := hids i (List.mem_append_left _ hi)
        omega
      · exact n3 i hi j g

mutual
theorem build_ok (P : Nat → Prog Name R) : ∀ (q : Query) (out : Name) (k : Nat), Old out k →
    Built out k (build P q out k).2 (build P q out k).1
  | .select fromSub grouped tables subs, out, k, ho => by
    obtain ⟨h, hn⟩ := buildSubs_ok P subs (k + 3)
    generalize hd : buildSubs P subs (k + 3) = d at h hn
    have hloader : ∀ n ∈ (if fromSub then (d.1.head?.map Prod.snd) else tables.head?.map Name.user), isTmp n = true →
        Rng (k + 3) d.2 n ∧ n ∉ freesL isTmp (d.1.map Prod.fst) := by
      intro n hl ht
      cases fromSub with
      | true =>
        simp only [if_true] at hl
        obtain ⟨x, hx, rfl⟩ := Option.map_eq_some_iff.mp hl
        exact hn _ (List.mem_map.mpr ⟨x, List.mem_of_mem_head? hx, rfl⟩)
      | false =>
        simp only [Bool.false_eq_true, if_false] at hl
        obtain ⟨x, hx, rfl⟩ := Option.map_eq_some_iff.mp hl
        cases ht
    have hjoins : ∀ n ∈ (if fromSub then tables else tables.tail).map Name.user ++ (if fromSub then d.1.tail else d.1).map Prod.snd,
        isTmp n = false ∨ Rng (k + 3) d.2 n ∧ n ∉ freesL isTmp (d.1.map Prod.fst) := by
      intro n hl
      rcases List.mem_append.mp hl with g | g
      · obtain ⟨x, _, rfl⟩ := List.mem_map.mp g
        exact Or.inl rfl
      · obtain ⟨x, hx, rfl⟩ := List.mem_map.mp g
        refine Or.inr (hn _ (List.mem_map.mpr ⟨x, ?_, rfl⟩))
        cases fromSub with
        | true => exact List.mem_of_mem_tail hx
        | false => exact hx
    have hb := h.le
    have hka : Name.tmp k ∉ freesL isTmp (d.1.map Prod.fst) := by
      intro hc
      obtain ⟨i, hi, h1, h2⟩ := h.fr _ hc
      cases hi; omega
    rw [build, hd]
    cases grouped with
    | true =>
      rw [if_pos rfl]
      refine Built.mk' (P := fun _ => False) h ?_ ?_ ?_ ho (by intro _ h; cases h) (Or.inr (by simp [Task.own, Task.core, Task.final]))
      · intro n hl ht
        obtain ⟨g1, g2⟩ := hloader n hl ht
        exact ⟨g1.mono (by omega) (by omega), g2⟩
      · intro n hnn
        simp only [Core.names, List.mem_append] at hnn
        rcases hnn with (hl | hj) | hoo
        · cases ht : isTmp n with
          | false => exact Or.inr (Or.inl rfl)
          | true =>
            obtain ⟨g1, g2⟩ := hloader n (by simpa using hl) ht
            exact Or.inr (Or.inr ⟨g1.mono (by omega) (by omega), g2⟩)
        · rcases hjoins n (by simpa using hj) with g | ⟨g1, g2⟩
          · exact Or.inr (Or.inl g)
          · exact Or.inr (Or.inr ⟨g1.mono (by omega) (by omega), g2⟩)
        · have : n = .tmp k := by simpa using hoo
          rw [this]
          exact Or.inr (Or.inr ⟨⟨k, rfl, by omega, by omega⟩, hka⟩)
      · intro x hx
        simp only [Option.mem_def, Option.some.injEq] at hx
        subst hx
        refine ⟨rfl, by simp [Core.names], ?_⟩
        intro n hl hc
        subst hc
        obtain ⟨⟨i, hi, h1, h2⟩, _⟩ := hloader _ hl rfl
        cases hi; omega
    | false =>
      rw [if_neg (by simp)]
      refine Built.mk' (P := fun _ => False) h ?_ ?_ (by intro x hx; simp at hx) ho (by intro _ h; cases h) (Or.inl (by simp [Task.own, Task.core, Task.final]))
      · intro n hl ht
        obtain ⟨g1, g2⟩ := hloader n hl ht
        exact ⟨g1.mono (by omega) (by omega), g2⟩
      · intro n hnn
        simp only [Core.names, List.mem_append] at hnn
        rcases hnn with (hl | hj) | hoo
        · cases ht : isTmp n with
          | false => exact Or.inr (Or.inl rfl)
          | true =>
            obtain ⟨g1, g2⟩ := hloader n (by simpa using hl) ht
            exact Or.inr (Or.inr ⟨g1.mono (by omega) (by omega), g2⟩)
        · rcases hjoins n (by simpa using hj) with g | ⟨g1, g2⟩
          · exact Or.inr (Or.inl g)
          · exact Or.inr (Or.inr ⟨g1.mono (by omega) (by omega), g2⟩)
        · exact Or.inl (by simpa using hoo)
  | .union branches, out, k, ho => by
    have h := buildBranches_ok P branches (.tmp k) (k + 3) (by intro i hi; cases hi; omega)
    rw [build]
    generalize buildBranches P branches (.tmp k) (k + 3) = d at h
    have hb := h.le
    have hka : Name.tmp k ∉ freesL isTmp d.1 := by
      intro hc
      obtain ⟨i, hi, h1, h2⟩ := h.fr _ hc
      cases hi; omega
    refine Built.mk' h ?_ ?_ (by intro x hx; simp at hx) ho (fun n h => h) (Or.inl (by simp [Task.own, Task.core, Task.final]))
    · intro n hl ht
      simp only [Option.mem_def, Option.some.injEq] at hl
      subst hl
      exact ⟨⟨k, rfl, by omega, by omega⟩, hka⟩
    · intro n hnn
      simp only [Core.names, Option.toList_some, List.append_nil, List.cons_append, List.nil_append, List.mem_cons, List.not_mem_nil, or_false] at hnn
      rcases hnn with rfl | rfl
      · exact Or.inr (Or.inr ⟨⟨k, rfl, by omega, by omega⟩, hka⟩)
      · exact Or.inl rfl
  | .withQuery names ctes body, out, k, ho => by
    have h := buildCtes_ok P ctes names k
    rw [build]
    have h' := build_ok P body out (buildCtes P ctes names k).2 (by intro i hi; have := ho i hi; have := h.le; omega)
    exact Built.addDeps h h' ho
theorem buildSubs_ok (P : Nat → Prog Name R) : ∀ (qs : List Query) (k : Nat),
    BuiltL (fun _ => False) k (buildSubs P qs k).2 ((buildSubs P qs k).1.map Prod.fst) ∧
    ∀ n ∈ (buildSubs P qs k).1.map Prod.snd, Rng k (buildSubs P qs k).2 n ∧ n ∉ freesL isTmp ((buildSubs P qs k).1.map Prod.fst)
  | [], k => by
    rw [buildSubs]
    exact ⟨⟨by simp, by simp [freesL], by simp [touchedL], by simp [ScopedL], by simp [subtasksL, idsOf], by simp [subtasksL, idsOf]⟩, by simp⟩
  | q :: qs, k => by
    have h := build_ok P q (.tmp k) (k + 1) (by intro i hi; cases hi; omega)
    obtain ⟨h', hn⟩ := buildSubs_ok P qs (build P q (.tmp k) (k + 1)).2
    rw [buildSubs]
    generalize build P q (.tmp k) (k + 1) = a at h h' hn
    generalize buildSubs P qs a.2 = b at h' hn
    have hlt := h.lt
    have hle := h'.le
    refine ⟨BuiltL.cons h h' (by omega) (Or.inr ⟨k, rfl, by omega, by omega⟩) (by intro _ h; cases h), ?_⟩
    intro n hnn
    simp only [List.map_cons, freesL]
    simp only [List.map_cons, List.mem_cons] at hnn
    rcases hnn with rfl | hnn
    · refine ⟨⟨k, rfl, by omega, by omega⟩, ?_⟩
      intro hc
      rcases List.mem_append.mp hc with g | g
      · obtain ⟨i, hi, h1, h2⟩ := h.fr _ g
        cases hi; omega
      · obtain ⟨i, hi, h1, h2⟩ := h'.fr _ g
        cases hi; omega
    · obtain ⟨g1, g2⟩ := hn n hnn
      refine ⟨g1.mono (by omega) (by omega), ?_⟩
      intro hc
      rcases List.mem_append.mp hc with g | g
      · exact (h.fr _ g).disj g1 (by omega)
      · exact g2 g
theorem buildBranches_ok (P : Nat → Prog Name R) : ∀ (qs : List Query) (out : Name) (k : Nat), Old out k →
    BuiltL (fun n => n = out) k (buildBranches P qs out k).2 (buildBranches P qs out k).1
  | [], out, k, _ => by
    rw [buildBranches]
    exact ⟨by simp, by simp [freesL], by simp [touchedL], by simp [ScopedL], by simp [subtasksL, idsOf], by simp [subtasksL, idsOf]⟩
  | q :: qs, out, k, ho => by
    have h := build_ok P q out k ho
    have h' := buildBranches_ok P qs out (build P q out k).2 (by intro i hi; have := ho i hi; have := h.lt; omega)
    rw [buildBranches]
    exact BuiltL.cons h h' (by omega) (Or.inl rfl) (by rintro n rfl; exact ho.not_rng)
theorem buildCtes_ok (P : Nat → Prog Name R) : ∀ (qs : List Query) (names : List Nat) (k : Nat),
    BuiltL (fun _ => False) k (buildCtes P qs names k).2 (buildCtes P qs names k).1
  | [], names, k => by
    rw [buildCtes]
    exact ⟨by simp, by simp [freesL], by simp [touchedL], by simp [ScopedL], by simp [subtasksL, idsOf], by simp [subtasksL, idsOf]⟩
  | q :: qs, names, k => by
    have h := build_ok P q (.user (names.headD 0)) k (by intro i hi; cases hi)
    have h' := buildCtes_ok P qs names.tail (build P q (.user (names.headD 0)) k).2
    rw [buildCtes]
    have hlt := h.lt
    have hle := h'.le
    refine ⟨by omega, ?_, ?_, ?_, ?_, ?_⟩
    · intro n hn
      rw [freesL] at hn
      rcases List.mem_append.mp hn with g | g
      · exact (h.fr n g).mono (by omega) (by omega)
      · exact (h'.fr n g).mono (by omega) (by omega)
    · intro n hn
      rw [touchedL] at hn
      rcases List.mem_append.mp hn with g | g
      · rcases h.to n g with g | g | g
        · rw [g]; exact Or.inr (Or.inl rfl)
        · exact Or.inr (Or.inl g)
        · exact Or.inr (Or.inr (g.mono (by omega) (by omega)))
      · rcases h'.to n g with g | g | g
        · cases g
        · exact Or.inr (Or.inl g)
        · exact Or.inr (Or.inr (g.mono (by omega) (by omega)))
    · rw [ScopedL]
      refine ⟨h.sc, h'.sc, ?_⟩
      intro n hn hn'
      have g := h.fr n hn
      rcases h'.to n hn' with g' | g' | g'
      · cases g'
      · rw [g.tmp] at g'; cases g'
      · exact g.disj g' (by omega)
    · intro i hi
      rw [idsOf_subtasksL] at hi
      rcases List.mem_append.mp hi with g | g
      · have := h.ids i g; omega
      · have := h'.ids i g; omega
    · rw [idsOf_subtasksL, List.nodup_append]
      refine ⟨h.nodup, h'.nodup, ?_⟩
      intro i hi j hj
      have := h.ids i hi
      have := h'.ids j hj
      omega
end

end Verif.Tasks
