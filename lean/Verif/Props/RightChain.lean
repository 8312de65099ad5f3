import Verif.Props.RightJoin
/-! C63: chains of RIGHT JOINs. -/
namespace Verif.Props
open Verif.Join Verif.RightJoin Verif.SqlRight Verif.SqlJoin

section
variable {V : Type}

/-- `a RIGHT JOIN j₁ ON … RIGHT JOIN j₂ ON … …`, every ON comparing columns of its table with expressions of columns of the table
before it, no column of which is equated twice. -/
def RightChain (a : Join.Name) : List (RJoin V) → Prop
  | [] => True
  | j :: js => (j.side = .right ∧ j.on ≠ [] ∧ (∀ c ∈ j.on, Ties a j.name c) ∧ (j.on.filterMap (keyColumn a)).Nodup) ∧ RightChain j.name js

namespace RChain

theorem revInd {α : Type} {P : List α → Prop} (h0 : P []) (h1 : ∀ l a, P l → P (l ++ [a])) (l : List α) : P l := by
  rw [← List.reverse_reverse l]
  induction l.reverse with
  | nil => exact h0
  | cons a l ih => rw [List.reverse_cons]; exact h1 _ _ ih

/-- The name of the last table. -/
def lastName (a : Join.Name) (js : List (RJoin V)) : Join.Name := js.foldl (fun _ j => j.name) a

theorem lastName_snoc (a : Join.Name) (js : List (RJoin V)) (j : RJoin V) : lastName a (js ++ [j]) = j.name := by
  simp [lastName]

theorem lastName_mem (a : Join.Name) (js : List (RJoin V)) : lastName a js ∈ a :: js.map (·.name) := by
  induction js using revInd with
  | h0 => simp [lastName]
  | h1 js j _ => rw [lastName_snoc]; simp

/-- The LEFT JOINs the chain becomes. -/
def lefts (a : Join.Name) : List (RJoin V) → List (RJoin V)
  | [] => []
  | j :: js => lefts j.name js ++ [⟨a, .left, j.on⟩]

/-- … with a WHERE in the ON of the first table. -/
def leftsW (a : Join.Name) (ws : List (Cond V)) : List (RJoin V) → List (RJoin V)
  | [] => []
  | j :: js => lefts j.name js ++ [⟨a, .left, j.on ++ ws⟩]

theorem lefts_snoc (a : Join.Name) (js : List (RJoin V)) (j : RJoin V) :
    lefts a (js ++ [j]) = ⟨lastName a js, .left, j.on⟩ :: lefts a js := by
  induction js generalizing a with
  | nil => rfl
  | cons k js ih => simp only [List.cons_append, lefts, ih]; rfl

theorem leftsW_snoc (a : Join.Name) (ws : List (Cond V)) (js : List (RJoin V)) (hjs : js ≠ []) (j : RJoin V) :
    leftsW a ws (js ++ [j]) = ⟨lastName a js, .left, j.on⟩ :: leftsW a ws js := by
  cases js with
  | nil => exact absurd rfl hjs
  | cons k js => simp only [List.cons_append, leftsW, lefts_snoc]; rfl

theorem chain_snoc (a : Join.Name) (js : List (RJoin V)) (j : RJoin V) : RightChain a (js ++ [j]) ↔
    RightChain a js ∧ j.side = .right ∧ j.on ≠ [] ∧ (∀ c ∈ j.on, Ties (lastName a js) j.name c) ∧
      (j.on.filterMap (keyColumn (lastName a js))).Nodup := by
  induction js generalizing a with
  | nil => simp [RightChain, lastName]
  | cons k js ih =>
    simp only [List.cons_append, RightChain, ih k.name, and_assoc]
    rfl

theorem lefts_names (a : Join.Name) (js : List (RJoin V)) (j : RJoin V) (h : j ∈ lefts a js) : j.name ∈ a :: js.map (·.name) := by
  induction js generalizing a with
  | nil => simp [lefts] at h
  | cons k js ih =>
    simp only [lefts, List.mem_append, List.mem_singleton] at h
    rcases h with h | rfl
    · have := ih k.name h
      simp only [List.map_cons]
      exact List.mem_cons_of_mem _ this
    · simp

/-- No table of `lefts a (js ++ [j])` after the first is that of the last join or the last table of `js`. -/
theorem lefts_ne (a : Join.Name) (js : List (RJoin V)) (hd : (a :: js.map (·.name)).Nodup) (k : RJoin V) (hk : k ∈ lefts a js) :
    k.name ≠ lastName a js := by
  induction js using revInd generalizing k with
  | h0 => simp [lefts] at hk
  | h1 js j _ =>
    rw [lastName_snoc]
    rw [lefts_snoc] at hk
    have hin : k.name ∈ a :: js.map (·.name) := by
      rcases List.mem_cons.1 hk with rfl | hk
      · exact lastName_mem a js
      · exact lefts_names a js k hk
    intro e
    rw [e] at hin
    simp only [List.map_append, List.map_cons, List.map_nil, ← List.cons_append] at hd
    exact (List.nodup_append.1 hd).2.2 _ hin _ (by simp) rfl

variable [DecidableEq V]

theorem related_iff (a b : Join.Name) (hab : a ≠ b) (on : List (Cond V)) (hne : on ≠ []) (hon : ∀ c ∈ on, Ties a b c) (t : Option Join.Name) :
    t ∈ relatedOf b on ↔ t = some a := by
  unfold relatedOf
  rw [List.mem_flatMap]
  constructor
  · rintro ⟨c, hc, ht⟩
    obtain ⟨ts, h1, _, h3⟩ := ties_classify a b hab c (hon c hc)
    rw [h1] at ht; exact h3 t ht
  · rintro rfl
    cases on with
    | nil => exact absurd rfl hne
    | cons c on =>
      obtain ⟨ts, h1, h2, h3⟩ := ties_classify a b hab c (hon c (by simp))
      refine ⟨c, by simp, ?_⟩
      rw [h1]
      cases ts with
      | nil => exact absurd rfl h2
      | cons t ts => rw [← h3 t (by simp)]; simp

theorem ordered (a b : Join.Name) (hab : a ≠ b) (on : List (Cond V)) (hne : on ≠ []) (hon : ∀ c ∈ on, Ties a b c)
    (order : List (Option Join.Name) → List (Option Join.Name)) (horder : ∀ l, (order l).Nodup ∧ ∀ t, t ∈ order l ↔ t ∈ l) :
    order (relatedOf b on) = [some a] := by
  obtain ⟨h1, h2⟩ := horder (relatedOf b on)
  have hm : ∀ t, t ∈ order (relatedOf b on) ↔ t = some a := fun t => (h2 t).trans (related_iff a b hab on hne hon t)
  generalize order (relatedOf b on) = l at h1 hm
  cases l with
  | nil => exact absurd ((hm (some a)).2 rfl) (by simp)
  | cons x l =>
    have hx := (hm x).1 (by simp)
    subst hx
    cases l with
    | nil => rfl
    | cons y l =>
      have hy := (hm y).1 (by simp)
      subst hy
      simp at h1

theorem ties_parts (a b : Join.Name) (hab : a ≠ b) (on : List (Cond V)) (hon : ∀ c ∈ on, Ties a b c) :
    on.filter (isOn b) = on ∧ on.filter (RightJoin.isConst b) = [] ∧ on.filter (isRest b) = [] := by
  refine ⟨?_, ?_, ?_⟩
  · rw [List.filter_eq_self]
    intro c hc
    obtain ⟨ts, h1, _⟩ := ties_classify a b hab c (hon c hc)
    simp [isOn, h1]
  · rw [List.filter_eq_nil_iff]
    intro c hc
    obtain ⟨ts, h1, _⟩ := ties_classify a b hab c (hon c hc)
    simp [RightJoin.isConst, h1]
  · rw [List.filter_eq_nil_iff]
    intro c hc
    obtain ⟨ts, h1, _⟩ := ties_classify a b hab c (hon c hc)
    simp [isRest, h1]

theorem chain_related (a : Join.Name) (js : List (RJoin V)) (hd : (a :: js.map (·.name)).Nodup) (h : RightChain a js) (j : RJoin V)
    (hj : j ∈ js) (x : Join.Name) (hx : some x ∈ (joinTable j).related) : x ∈ a :: js.map (·.name) := by
  induction js generalizing a with
  | nil => cases hj
  | cons k js ih =>
    rcases List.mem_cons.1 hj with rfl | hj
    · have hne : a ≠ j.name := fun e => by rw [e] at hd; simp at hd
      have := (related_iff a j.name hne j.on h.1.2.1 h.1.2.2.1 (some x)).1 hx
      simp at this; subst this; simp
    · have := ih k.name (by simp only [List.map_cons] at hd; exact (List.nodup_cons.1 hd).2) h.2 hj
      simp only [List.map_cons]
      exact List.mem_cons_of_mem _ this

theorem select_chain (P : List (RT V)) (js : List (RJoin V)) (Q : List (RT V)) (a : Join.Name) (hd : (a :: js.map (·.name)).Nodup)
    (h : RightChain a js)
    (hP : ∀ t ∈ P, ∀ x ∈ a :: js.map (·.name), ¬ (t.type = .right ∧ some x ∈ t.related))
    (hQ : ∀ t ∈ Q, ∀ x ∈ a :: js.map (·.name), ¬ (t.type = .right ∧ some x ∈ t.related))
    (cur : RT V) (hc : cur.name = a) (n : Nat) (hn : js.length < n) :
    RightJoin.select (P ++ js.map joinTable ++ Q) n cur = some ((js.map joinTable).getLastD cur) := by
  induction js generalizing P a cur n with
  | nil =>
    obtain ⟨n, rfl⟩ : ∃ m, n = m + 1 := ⟨n - 1, by simp at hn; omega⟩
    rw [RightJoin.select]
    have : (P ++ ([] : List (RJoin V)).map joinTable ++ Q).filter
        (fun t => decide (t.type = .right) && decide (some cur.name ∈ t.related)) = [] := by
      rw [List.filter_eq_nil_iff]
      intro t ht
      rw [hc]
      simp only [List.map_nil, List.append_nil, List.mem_append] at ht
      rcases ht with ht | ht
      · have := hP t ht a (by simp); simpa using this
      · have := hQ t ht a (by simp); simpa using this
    rw [this]
    rfl
  | cons j js ih =>
    obtain ⟨n, rfl⟩ : ∃ m, n = m + 1 := ⟨n - 1, by simp at hn; omega⟩
    have hne : a ≠ j.name := fun e => by rw [e] at hd; simp at hd
    have hd' : (j.name :: js.map (·.name)).Nodup := by simp only [List.map_cons] at hd; exact (List.nodup_cons.1 hd).2
    have hrel := related_iff a j.name hne j.on h.1.2.1 h.1.2.2.1
    rw [RightJoin.select]
    have : (P ++ (j :: js).map joinTable ++ Q).filter
        (fun t => decide (t.type = .right) && decide (some cur.name ∈ t.related)) = [joinTable j] := by
      rw [hc, List.filter_append, List.filter_append, List.map_cons, List.filter_cons]
      have e1 : P.filter (fun t => decide (t.type = .right) && decide (some a ∈ t.related)) = [] := by
        rw [List.filter_eq_nil_iff]; intro t ht; have := hP t ht a (by simp); simpa using this
      have e2 : Q.filter (fun t => decide (t.type = .right) && decide (some a ∈ t.related)) = [] := by
        rw [List.filter_eq_nil_iff]; intro t ht; have := hQ t ht a (by simp); simpa using this
      have e3 : (js.map joinTable).filter (fun t => decide (t.type = .right) && decide (some a ∈ t.related)) = [] := by
        rw [List.filter_eq_nil_iff]
        intro t ht
        obtain ⟨k, hk, rfl⟩ := List.mem_map.1 ht
        have : some a ∉ (joinTable k).related := fun hx => by
          have := chain_related j.name js hd' h.2 k hk a hx
          simp only [List.map_cons] at hd
          exact (List.nodup_cons.1 hd).1 this
        simp [this]
      have e4 : (joinTable j).type = .right := by simp [joinTable, h.1.1]
      have e5 : some a ∈ (joinTable j).related := (hrel _).2 rfl
      rw [e1, e2, e3, decide_eq_true e4, decide_eq_true e5]
      rfl
    rw [this]
    simp only [List.getLast?_singleton]
    have hlist : P ++ (j :: js).map joinTable ++ Q = (P ++ [joinTable j]) ++ js.map joinTable ++ Q := by simp
    rw [hlist, ih (P ++ [joinTable j]) j.name hd' h.2 ?_ ?_ (joinTable j) rfl n (by simp at hn; omega)]
    · cases js <;> rfl
    · intro t ht x hx
      rcases List.mem_append.1 ht with ht | ht
      · exact hP t ht x (by simp only [List.map_cons]; exact List.mem_cons_of_mem _ hx)
      · simp only [List.mem_singleton] at ht
        subst ht
        rintro ⟨_, hr⟩
        have := (hrel _).1 hr
        simp only [Option.some.injEq] at this
        subst this
        simp only [List.map_cons] at hd
        exact (List.nodup_cons.1 hd).1 hx
    · intro t ht x hx
      exact hQ t ht x (by simp only [List.map_cons]; exact List.mem_cons_of_mem _ hx)

theorem resort_nil (order : List (Option Join.Name) → List (Option Join.Name)) (n : Nat) (on : List (Cond V)) (d : List (RT V)) :
    resort order n [] on d = ([], d) := by
  cases n <;> rfl

/-- The tables the chain is sorted into. -/
theorem resort_chain (order : List (Option Join.Name) → List (Option Join.Name)) (horder : ∀ l, (order l).Nodup ∧ ∀ t, t ∈ order l ↔ t ∈ l)
    (o : Ops V) (land lor : V → V → V) (ws : List (Cond V)) (a : Join.Name) (js : List (RJoin V)) (hd : (a :: js.map (·.name)).Nodup)
    (h : RightChain a js) (R : List (RT V)) (hR : ∀ t ∈ R, t.name ∉ a :: js.map (·.name)) (jn : RJoin V) (n : Nat) (hn : js.length < n) :
    ∃ ts, resort order n [some (lastName a js)] jn.on (js.map joinTable ++ R ++ [primaryTable a ws]) = (ts, R) ∧
      (∀ t ∈ ts, t.type ≠ .right) ∧
      (ts.map fun t => (⟨t.name, .left, if t.type = .primary then onText o land lor (t.on ++ t.const) (.conj ws)
        else t.on ++ t.const ++ t.rest⟩ : Join V)) = (leftsW a ws (js ++ [jn])).map fun j => ⟨j.name, .left, j.on⟩ := by
  induction js using revInd generalizing jn n with
  | h0 =>
    obtain ⟨n, rfl⟩ : ∃ m, n = m + 1 := ⟨n - 1, by simp at hn; omega⟩
    have hfind : (R ++ [primaryTable a ws]).find? (fun t => decide (some t.name = some a)) = some (primaryTable a ws) := by
      rw [List.find?_append, List.find?_eq_none.2]
      · simp [primaryTable]
      · intro t ht
        have := hR t ht
        simpa using this
    have hdrop : (R ++ [primaryTable a ws]).filter (fun u => decide (some u.name ≠ some a)) = R := by
      rw [List.filter_append, List.filter_eq_self.2]
      · simp [primaryTable]
      · intro t ht
        have := hR t ht
        simpa using this
    have hl : lastName a ([] : List (RJoin V)) = a := rfl
    rw [hl, resort]
    simp only [List.map_nil, List.nil_append, hfind, hdrop, resort_nil]
    refine ⟨_, by simp only [primaryTable]; rfl, ?_, ?_⟩
    · intro t ht; simp at ht; subst ht; simp
    · simp [leftsW, lefts, onText]
  | h1 js j ih =>
    obtain ⟨n, rfl⟩ : ∃ m, n = m + 1 := ⟨n - 1, by simp at hn; omega⟩
    obtain ⟨hch, hs, hne, hties, _⟩ := (chain_snoc a js j).1 h
    have hd' : (a :: js.map (·.name)).Nodup := by
      simp only [List.map_append, ← List.cons_append] at hd
      exact (List.nodup_append.1 hd).1
    have hj : j.name ∉ a :: js.map (·.name) := by
      intro hin
      simp only [List.map_append, List.map_cons, List.map_nil, ← List.cons_append] at hd
      exact (List.nodup_append.1 hd).2.2 _ hin _ (by simp) rfl
    have hla : lastName a js ≠ j.name := fun e => hj (e ▸ lastName_mem a js)
    obtain ⟨p1, p2, p3⟩ := ties_parts _ _ hla j.on hties
    have hnm : ∀ t ∈ js.map (joinTable (V := V)), t.name ≠ j.name := by
      intro t ht e
      obtain ⟨k, hk, rfl⟩ := List.mem_map.1 ht
      exact hj (by rw [← e]; exact List.mem_cons_of_mem _ (List.mem_map.2 ⟨k, hk, rfl⟩))
    have hnR : ∀ t ∈ R, t.name ≠ j.name := by
      intro t ht e
      refine hR t ht ?_
      rw [e]; simp
    have haj : a ≠ j.name := fun e => hj (by rw [← e]; simp)
    have hlist : (js ++ [j]).map joinTable ++ R ++ [primaryTable a ws] = js.map joinTable ++ (joinTable j :: (R ++ [primaryTable a ws])) := by
      simp
    have hfind : ((js ++ [j]).map joinTable ++ R ++ [primaryTable a ws]).find? (fun t => decide (some t.name = some j.name)) =
        some (joinTable j) := by
      rw [hlist, List.find?_append, List.find?_eq_none.2]
      · simp [joinTable]
      · intro t ht; simpa using hnm t ht
    have hdrop : ((js ++ [j]).map joinTable ++ R ++ [primaryTable a ws]).filter (fun u => decide (some u.name ≠ some j.name)) =
        js.map joinTable ++ R ++ [primaryTable a ws] := by
      rw [hlist, List.filter_append, List.filter_cons, List.filter_append, List.filter_eq_self.2, List.filter_eq_self.2]
      · simp [joinTable, primaryTable, haj]
      · intro t ht; simpa using hnR t ht
      · intro t ht; simpa using hnm t ht
    obtain ⟨ts, h1, h2, h3⟩ := ih hd' hch (fun t ht hin => hR t ht (by
      simp only [List.map_append, ← List.cons_append]; exact List.mem_append_left _ hin)) j n (by simp at hn; omega)
    rw [lastName_snoc, resort]
    simp only [hfind, hdrop, resort_nil]
    have hty : (joinTable j).type = .right := by simp [joinTable, hs]
    have hre : (joinTable j).related = relatedOf j.name j.on := rfl
    have honj : (joinTable j).on = j.on := p1
    rw [if_pos hty, hre, ordered _ _ hla j.on hne hties order horder, honj, h1]
    simp only [List.append_nil]
    refine ⟨_, rfl, ?_, ?_⟩
    · intro t ht
      rcases List.mem_cons.1 ht with rfl | ht
      · simp
      · exact h2 t ht
    · rw [List.map_cons, h3, leftsW_snoc a ws (js ++ [j]) (by simp) jn, lastName_snoc, List.map_cons]
      congr 1
      simp [joinTable, p2, p3]

/-! ### The rows -/

theorem beside_comm (e : Env V) (s t : Join.Name) (h : s ≠ t) (r q : Row V) :
    beside (beside e s r) t q = beside (beside e t q) s r := by
  funext m
  unfold beside
  by_cases h1 : m = t
  · subst h1
    have : m ≠ s := fun e => h e.symm
    simp [this]
  · simp [h1]

theorem trueIn_congr (o : Ops V) (c : Cond V) (e e' : Env V) (h : ∀ r ∈ condFields c, e (r.table.getD "") = e' (r.table.getD "")) :
    (trueIn o e c ↔ trueIn o e' c) := by
  unfold trueIn
  rw [evalX_congr (condX o c) _ (fun r => e' (r.table.getD "") r.col)]
  intro r hr
  rw [fields_condX] at hr
  rw [h r hr]

theorem ties_fields (a b : Join.Name) (c : Cond V) (h : Ties a b c) (r : Ref) (hr : r ∈ condFields c) :
    r.table = some a ∨ r.table = some b := by
  obtain ⟨x, hx, _, ht⟩ := h
  cases hx with
  | left op k =>
    simp only [condFields, fields, List.mem_append, List.mem_singleton] at hr
    rcases hr with rfl | hr
    · exact .inr rfl
    · exact .inl (ht r hr)
  | right op k =>
    simp only [condFields, fields, List.mem_append, List.mem_singleton] at hr
    rcases hr with hr | rfl
    · exact .inl (ht r hr)
    · exact .inr rfl

theorem ok_congr (o : Ops V) (a b : Join.Name) (on : List (Cond V)) (h : ∀ c ∈ on, Ties a b c) (e e' : Env V) (ha : e a = e' a)
    (hb : e b = e' b) : decide (∀ c ∈ on, trueIn o e c) = decide (∀ c ∈ on, trueIn o e' c) := by
  have : ∀ c ∈ on, (trueIn o e c ↔ trueIn o e' c) := fun c hc => trueIn_congr o c e e' fun r hr => by
    rcases ties_fields a b c (h c hc) r hr with e1 | e1 <;> simp [e1, ha, hb]
  rw [decide_eq_decide]
  exact ⟨fun h c hc => (this c hc).1 (h c hc), fun h c hc => (this c hc).2 (h c hc)⟩

/-- The LEFT JOINs of the chain do not see other tables. -/
theorem leftOf_beside (null : V) (o : Ops V) (db : Join.Name → List (Row V)) (t s u : Join.Name) (on : List (Cond V))
    (h : ∀ c ∈ on, Ties t s c) (hut : u ≠ t) (hus : u ≠ s) (row : Row V) (e : Env V) :
    leftOf null o db t on (beside e u row) = (leftOf null o db t on e).map fun e => beside e u row := by
  unfold leftOf
  simp only
  have hR : (db t).map (beside (beside e u row) t) = ((db t).map (beside e t)).map fun e => beside e u row := by
    rw [List.map_map]
    apply List.map_congr_left
    intro r _
    exact beside_comm e u t hut row r
  have hf : (((db t).map (beside e t)).map fun e => beside e u row).filter (fun e => decide (∀ c ∈ on, trueIn o e c)) =
      (((db t).map (beside e t)).filter (fun e => decide (∀ c ∈ on, trueIn o e c))).map fun e => beside e u row := by
    rw [List.filter_map]
    congr 1
    apply List.filter_congr
    intro e' _
    have h1 : t ≠ u := fun e => hut e.symm
    have h2 : s ≠ u := fun e => hus e.symm
    exact ok_congr o t s on h _ _ (by simp [beside, h1]) (by simp [beside, h2])
  rw [hR, hf]
  generalize ((db t).map (beside e t)).filter (fun e => decide (∀ c ∈ on, trueIn o e c)) = m
  cases m with
  | nil => simp only [List.map_nil, if_true, List.map_cons]; rw [beside_comm e u t hut]
  | cons x m => simp

theorem leftSeq_beside (null : V) (o : Ops V) (db : Join.Name → List (Row V)) (a : Join.Name) (js : List (RJoin V)) (h : RightChain a js)
    (u : Join.Name) (hu : u ∉ a :: js.map (·.name)) (row : Row V) (e : Env V) :
    leftSeq null o db (lefts a js) (beside e u row) = (leftSeq null o db (lefts a js) e).map fun e => beside e u row := by
  induction js using revInd generalizing e with
  | h0 => rfl
  | h1 js j ih =>
    obtain ⟨hch, _, _, hties, _⟩ := (chain_snoc a js j).1 h
    have hu' : u ∉ a :: js.map (·.name) := fun hin => hu (by
      simp only [List.map_append, ← List.cons_append]; exact List.mem_append_left _ hin)
    have h1 : u ≠ lastName a js := fun e => hu' (e ▸ lastName_mem a js)
    have h2 : u ≠ j.name := fun e => hu (by rw [e]; simp)
    rw [lefts_snoc]
    simp only [leftSeq]
    rw [leftOf_beside null o db _ _ u j.on hties h1 h2, List.flatMap_map, List.map_flatMap]
    congr 1
    funext e'
    exact ih hch hu' e'

theorem leftOf_ne (null : V) (o : Ops V) (db : Join.Name → List (Row V)) (t : Join.Name) (on : List (Cond V)) (e : Env V) :
    leftOf null o db t on e ≠ [] := by
  unfold leftOf
  simp only
  split
  · simp
  · assumption

theorem leftSeq_ne (null : V) (o : Ops V) (db : Join.Name → List (Row V)) (js : List (RJoin V)) (e : Env V) :
    leftSeq null o db js e ≠ [] := by
  induction js generalizing e with
  | nil => simp [leftSeq]
  | cons j js ih =>
    rw [leftSeq]
    have := leftOf_ne null o db j.name j.on e
    generalize leftOf null o db j.name j.on e = l at this
    cases l with
    | nil => exact absurd rfl this
    | cons x l => simp [List.flatMap_cons, ih]

/-- A row of NULLs goes through the chain alone. -/
theorem leftSeq_null (null : V) (o : Ops V) (db : Join.Name → List (Row V)) (a : Join.Name) (js : List (RJoin V))
    (hd : (a :: js.map (·.name)).Nodup) (h : RightChain a js)
    (hs : ∀ j ∈ js, ∃ c ∈ j.on, ∀ e : Env V, (∀ k, e j.name k = null) → ¬ trueIn o e c)
    (e : Env V) (he : ∀ t ∈ a :: js.map (·.name), ∀ k, e t k = null) : leftSeq null o db (lefts a js) e = [e] := by
  induction js using revInd with
  | h0 => rfl
  | h1 js j ih =>
    obtain ⟨hch, _, _, _, _⟩ := (chain_snoc a js j).1 h
    have hd' : (a :: js.map (·.name)).Nodup := by
      simp only [List.map_append, ← List.cons_append] at hd
      exact (List.nodup_append.1 hd).1
    have hj : lastName a js ≠ j.name := by
      intro hin
      have hm := lastName_mem a js
      rw [hin] at hm
      simp only [List.map_append, List.map_cons, List.map_nil, ← List.cons_append] at hd
      exact (List.nodup_append.1 hd).2.2 _ hm _ (by simp) rfl
    have hlt : ∀ k, e (lastName a js) k = null := he _ (by
      simp only [List.map_append, ← List.cons_append]; exact List.mem_append_left _ (lastName_mem a js))
    rw [lefts_snoc, leftSeq]
    have : leftOf null o db (lastName a js) j.on e = [e] := by
      unfold leftOf
      have hnil : ((db (lastName a js)).map (beside e (lastName a js))).filter (fun e => decide (∀ c ∈ j.on, trueIn o e c)) = [] := by
        rw [List.filter_eq_nil_iff]
        intro e' he'
        obtain ⟨r, _, rfl⟩ := List.mem_map.1 he'
        obtain ⟨c, hc, hcn⟩ := hs j (by simp)
        simp only [decide_eq_true_eq]
        intro hall
        refine hcn _ ?_ (hall c hc)
        intro k
        unfold beside
        rw [if_neg (fun e : j.name = lastName a js => hj e.symm)]
        exact he j.name (by simp) k
      simp only [hnil, if_true]
      congr 1
      funext m k
      unfold beside
      by_cases h1 : m = lastName a js
      · subst h1; simp [hlt]
      · simp [h1]
    simp only [this, List.flatMap_cons, List.flatMap_nil, List.append_nil]
    exact ih hd' hch (fun k hk => hs k (by simp [hk])) (fun t ht => he t (by
      simp only [List.map_append, ← List.cons_append]; exact List.mem_append_left _ ht))

theorem filter_leftSeq2 (null : V) (o : Ops V) (db : Join.Name → List (Row V)) (cs : List (RJoin V)) (a b : Join.Name)
    (hcs : ∀ j ∈ cs, j.name ≠ a ∧ j.name ≠ b) (w : Env V → Bool) (hw : ∀ e e' : Env V, e a = e' a → e b = e' b → w e = w e') (e : Env V) :
    (leftSeq null o db cs e).filter w = if w e then leftSeq null o db cs e else [] := by
  have hm : ∀ e' ∈ leftSeq null o db cs e, w e' = w e := fun e' he' =>
    hw _ _ (leftSeq_other null o db cs a (fun j hj => (hcs j hj).1) e e' he') (leftSeq_other null o db cs b (fun j hj => (hcs j hj).2) e e' he')
  cases h : w e with
  | true =>
    rw [if_pos rfl, List.filter_eq_self]
    intro e' he'; rw [hm e' he', h]
  | false =>
    rw [if_neg (by simp), List.filter_eq_nil_iff]
    intro e' he'; rw [hm e' he', h]; simp

/-- In SQL the chain is the sequence of LEFT JOINs. -/
theorem sql_chain (null : V) (o : Ops V) (db : Join.Name → List (Row V)) (a : Join.Name) (js : List (RJoin V))
    (hd : (a :: js.map (·.name)).Nodup) (h : RightChain a js)
    (hs : ∀ j ∈ js.dropLast, ∃ c ∈ j.on, ∀ e : Env V, (∀ k, e j.name k = null) → ¬ trueIn o e c) :
    js.foldl (SqlRight.step null o db) ((db a).map (beside (nothing null) a)) =
      (db (lastName a js)).flatMap fun r => leftSeq null o db (lefts a js) (beside (nothing null) (lastName a js) r) := by
  induction js using revInd with
  | h0 =>
    simp only [List.foldl_nil, lefts, leftSeq]
    rw [← List.map_eq_flatMap]
    rfl
  | h1 js j ih =>
    obtain ⟨hch, hside, _, hties, _⟩ := (chain_snoc a js j).1 h
    have hd' : (a :: js.map (·.name)).Nodup := by
      simp only [List.map_append, ← List.cons_append] at hd
      exact (List.nodup_append.1 hd).1
    have hj : j.name ∉ a :: js.map (·.name) := by
      intro hin
      simp only [List.map_append, List.map_cons, List.map_nil, ← List.cons_append] at hd
      exact (List.nodup_append.1 hd).2.2 _ hin _ (by simp) rfl
    have hla : lastName a js ≠ j.name := fun e => hj (e ▸ lastName_mem a js)
    have hs' : ∀ k ∈ js, ∃ c ∈ k.on, ∀ e : Env V, (∀ x, e k.name x = null) → ¬ trueIn o e c := by simpa using hs
    rw [List.foldl_append, ih hd' hch (fun k hk => hs' k (List.dropLast_subset _ hk)), lastName_snoc, List.foldl_cons, List.foldl_nil]
    simp only [SqlRight.step, hside]
    congr 1
    funext row
    generalize hE : beside (nothing null) j.name row = E
    rw [lefts_snoc, leftSeq]
    have hmap : (((db (lastName a js)).flatMap fun r => leftSeq null o db (lefts a js) (beside (nothing null) (lastName a js) r)).map
        fun e => beside e j.name row) = ((db (lastName a js)).map (beside E (lastName a js))).flatMap (leftSeq null o db (lefts a js)) := by
      rw [List.map_flatMap, List.flatMap_map]
      congr 1
      funext r
      rw [← leftSeq_beside null o db a js hch j.name hj row, beside_comm _ _ _ hla, hE]
    rw [hmap]
    have hfil : (((db (lastName a js)).map (beside E (lastName a js))).flatMap (leftSeq null o db (lefts a js))).filter
        (fun e => decide (∀ c ∈ j.on, trueIn o e c)) =
        (((db (lastName a js)).map (beside E (lastName a js))).filter (fun e => decide (∀ c ∈ j.on, trueIn o e c))).flatMap
          (leftSeq null o db (lefts a js)) := by
      rw [List.filter_flatMap, ← flatMap_cond]
      congr 1
      funext e
      refine filter_leftSeq2 null o db _ (lastName a js) j.name (fun k hk => ⟨lefts_ne a js hd' k hk, fun e => hj (e ▸ lefts_names a js k hk)⟩) _ ?_ e
      intro e e' h1 h2
      exact ok_congr o _ _ j.on hties e e' h1 h2
    rw [hfil]
    unfold leftOf
    simp only
    generalize ((db (lastName a js)).map (beside E (lastName a js))).filter (fun e => decide (∀ c ∈ j.on, trueIn o e c)) = m
    cases m with
    | nil =>
      simp only [List.flatMap_nil, if_true, List.flatMap_cons, List.append_nil]
      have hnull : ∀ t ∈ a :: js.map (·.name), ∀ k, E t k = null := by
        intro t ht k
        rw [← hE]
        unfold beside nothing
        rw [if_neg (fun e : t = j.name => hj (e ▸ ht))]
      have : beside E (lastName a js) (fun _ => null) = E := by
        funext m k
        unfold beside
        by_cases h1 : m = lastName a js
        · subst h1; simp [hnull _ (lastName_mem a js)]
        · simp [h1]
      rw [this, leftSeq_null null o db a js hd' hch hs' E hnull]
    | cons x m =>
      have := leftSeq_ne null o db (lefts a js) x
      rw [if_neg (by rw [List.flatMap_cons]; simp [this]), if_neg (by simp)]

theorem leftSeq_append (null : V) (o : Ops V) (db : Join.Name → List (Row V)) (js ks : List (RJoin V)) (e : Env V) :
    leftSeq null o db (js ++ ks) e = (leftSeq null o db js e).flatMap (leftSeq null o db ks) := by
  induction js generalizing e with
  | nil => simp [leftSeq]
  | cons j js ih =>
    simp only [List.cons_append, leftSeq, List.flatMap_assoc]
    congr 1
    funext e'
    exact ih e'

/-- A condition on `a` that NULLs do not satisfy may be in its ON as well. -/
theorem where_on (null : V) (o : Ops V) (db : Join.Name → List (Row V)) (a : Join.Name) (on ws : List (Cond V))
    (hws : ∀ c ∈ ws, ∀ e : Env V, (∀ k, e a k = null) → ¬ trueIn o e c) (e : Env V) :
    (leftOf null o db a (on ++ ws) e).filter (fun e => decide (∀ c ∈ ws, trueIn o e c)) =
      (leftOf null o db a on e).filter (fun e => decide (∀ c ∈ ws, trueIn o e c)) := by
  unfold leftOf
  simp only
  generalize (db a).map (beside e a) = R
  have hsplit : R.filter (fun e => decide (∀ c ∈ on ++ ws, trueIn o e c)) =
      (R.filter fun e => decide (∀ c ∈ on, trueIn o e c)).filter fun e => decide (∀ c ∈ ws, trueIn o e c) := by
    rw [List.filter_filter]
    apply List.filter_congr
    intro e _
    rw [← Bool.decide_and, decide_eq_decide]
    constructor
    · intro h; exact ⟨fun c hc => h c (by simp [hc]), fun c hc => h c (by simp [hc])⟩
    · rintro ⟨h1, h2⟩ c hc
      rcases List.mem_append.1 hc with hc | hc
      · exact h2 c hc
      · exact h1 c hc
  rw [hsplit]
  by_cases hws0 : ws = []
  · subst hws0; simp
  · have hE : decide (∀ c ∈ ws, trueIn o (beside e a fun _ => null) c) = false := by
      cases ws with
      | nil => exact absurd rfl hws0
      | cons c ws =>
        rw [decide_eq_false_iff_not]
        intro h
        refine hws c (by simp) _ ?_ (h c (by simp))
        intro k; unfold beside; simp
    generalize R.filter (fun e => decide (∀ c ∈ on, trueIn o e c)) = L
    by_cases h1 : L = []
    · subst h1; simp
    · rw [if_neg h1]
      by_cases h2 : L.filter (fun e => decide (∀ c ∈ ws, trueIn o e c)) = []
      · rw [if_pos h2, h2, List.filter_cons, hE]; simp
      · rw [if_neg h2, List.filter_filter]; simp

theorem leftsW_onOk (a : Join.Name) (js : List (RJoin V)) (hd : (a :: js.map (·.name)).Nodup) (h : RightChain a js) :
    ∀ j ∈ lefts a js, OnOk j.name j.on := by
  induction js using revInd with
  | h0 => intro j hj; cases hj
  | h1 js k ih =>
    obtain ⟨hch, _, _, hties, hnd⟩ := (chain_snoc a js k).1 h
    have hd' : (a :: js.map (·.name)).Nodup := by
      simp only [List.map_append, ← List.cons_append] at hd
      exact (List.nodup_append.1 hd).1
    have hla : lastName a js ≠ k.name := by
      intro hin
      have hm := lastName_mem a js
      rw [hin] at hm
      simp only [List.map_append, List.map_cons, List.map_nil, ← List.cons_append] at hd
      exact (List.nodup_append.1 hd).2.2 _ hm _ (by simp) rfl
    rw [lefts_snoc]
    intro j hj
    rcases List.mem_cons.1 hj with rfl | hj
    · exact ⟨fun c hc => ties_ok _ _ hla c (hties c hc), hnd⟩
    · exact ih hd' hch j hj

end RChain

open RChain in
/-- **C63** (full statement: any joins and any WHERE; false, see the violations): a chain `a RIGHT JOIN j₁ RIGHT JOIN j₂ … LEFT JOIN …
WHERE …` of any length returns SQL's rows, in SQL's order, when every ON compares columns of its table with expressions of the table
before it, WHERE uses columns of `a` only and is never true when they are all NULL, and the ON of every table of the chain but the last
has a condition that is never true when the columns of that table are NULL (as every comparison of SQL; this hypothesis is there
because the comparisons are a parameter). -/
theorem C63_chain_partial [DecidableEq V] (null : V) (o : Ops V)
    (hsym : ∀ a b, o.truthy (o.cmp .eq a b) = o.truthy (o.cmp .eq b a))
    (land lor : V → V → V) (order : List (Option Join.Name) → List (Option Join.Name))
    (horder : ∀ l, (order l).Nodup ∧ ∀ t, t ∈ order l ↔ t ∈ l) (a : Join.Name) (db : Join.Name → List (Row V))
    (rs : List (RJoin V)) (hne : rs ≠ []) (hchain : RightChain a rs) (hd : (a :: rs.map (·.name)).Nodup)
    (hstrict : ∀ j ∈ rs.dropLast, ∃ c ∈ j.on, ∀ e : Env V, (∀ k, e j.name k = null) → ¬ trueIn o e c)
    (cs : List (RJoin V)) (hcs : ∀ j ∈ cs, j.side = .left ∧ j.name ∉ a :: rs.map (·.name) ∧ OnOk j.name j.on)
    (ws : List (Cond V)) (hws : ∀ c ∈ ws, (∀ r ∈ condFields c, r.table = some a) ∧ NoSelf a c ∧
      ∀ e : Env V, (∀ k, e a k = null) → ¬ trueIn o e c)
    (hkeys : ∀ j ∈ rs.head?, ((j.on ++ ws).filterMap (keyColumn a)).Nodup) (n : Nat) (hn : rs.length < n) :
    RightJoin.run null o land lor order n a db (rs ++ cs) (.conj ws) =
      some (some (SqlRight.rows null o a db (rs ++ cs) ws)) := by
  -- the last table of the chain
  obtain ⟨js, jn, rfl⟩ : ∃ js jn, rs = js ++ [jn] := ⟨rs.dropLast, rs.getLast hne, (List.dropLast_concat_getLast hne).symm⟩
  obtain ⟨hch, hside, hon0, hties, hnd⟩ := (chain_snoc a js jn).1 hchain
  have hd' : (a :: js.map (·.name)).Nodup := by
    simp only [List.map_append, ← List.cons_append] at hd
    exact (List.nodup_append.1 hd).1
  have hjn : jn.name ∉ a :: js.map (·.name) := by
    intro hin
    simp only [List.map_append, List.map_cons, List.map_nil, ← List.cons_append] at hd
    exact (List.nodup_append.1 hd).2.2 _ hin _ (by simp) rfl
  have hla : lastName a js ≠ jn.name := fun e => hjn (e ▸ lastName_mem a js)
  obtain ⟨p1, p2, p3⟩ := ties_parts _ _ hla jn.on hties
  have hcn : ∀ t ∈ cs.map (joinTable (V := V)), t.name ∉ a :: (js ++ [jn]).map (·.name) := by
    intro t ht
    obtain ⟨j, hj, rfl⟩ := List.mem_map.1 ht
    exact (hcs j hj).2.1
  have hsel : RightJoin.select ((js ++ [jn] ++ cs).map joinTable) n (primaryTable a ws) = some (joinTable jn) := by
    have := select_chain [] (js ++ [jn]) (cs.map joinTable) a hd hchain (by simp) (by
      intro t ht x _
      obtain ⟨j, hj, rfl⟩ := List.mem_map.1 ht
      simp [joinTable, (hcs j hj).1]) (primaryTable a ws) rfl n hn
    rw [List.nil_append, ← List.map_append] at this
    rw [this]
    simp
  -- the rewritten query
  let joins : List (Join V) := ((leftsW a ws (js ++ [jn])).map fun j => ⟨j.name, .left, j.on⟩) ++ cs.map fun j => ⟨j.name, .left,
    j.on.filter (isOn j.name) ++ j.on.filter (RightJoin.isConst j.name) ++ j.on.filter (isRest j.name)⟩
  have hrw : rewrite o land lor order n a (js ++ [jn] ++ cs) (.conj ws) = some (.to jn.name joins ws) := by
    unfold rewrite
    simp only [Wh.conjuncts, hsel]
    have hty : (joinTable jn).type = .right := by simp [joinTable, hside]
    rw [if_neg (by rw [hty]; simp)]
    have hfl : ((js ++ [jn] ++ cs).map joinTable).filter (fun t => decide (t.name ≠ (joinTable jn).name)) =
        js.map joinTable ++ cs.map joinTable := by
      have hnm : (joinTable jn).name = jn.name := rfl
      rw [hnm, List.map_append, List.map_append, List.filter_append, List.filter_append]
      have f1 : (js.map joinTable).filter (fun t => decide (t.name ≠ jn.name)) = js.map joinTable := by
        rw [List.filter_eq_self]
        intro t ht
        obtain ⟨k, hk, rfl⟩ := List.mem_map.1 ht
        refine decide_eq_true fun e => hjn ?_
        rw [← e]; exact List.mem_cons_of_mem _ (List.mem_map.2 ⟨k, hk, rfl⟩)
      have f2 : (cs.map joinTable).filter (fun t => decide (t.name ≠ jn.name)) = cs.map joinTable := by
        rw [List.filter_eq_self]
        intro t ht
        refine decide_eq_true fun e => hcn t ht ?_
        rw [e]; simp
      rw [f1, f2]
      simp [joinTable]
    rw [hfl]
    have hNlt : js.length < (js ++ [jn] ++ cs).length * ((js ++ [jn] ++ cs).length + 2) + 2 +
        ((js.map joinTable ++ cs.map joinTable ++ [primaryTable a ws]).map fun t => t.related.length).sum + (joinTable jn).related.length := by
      have : js.length < (js ++ [jn] ++ cs).length := by simp only [List.length_append, List.length_cons]; omega
      have h2 : (js ++ [jn] ++ cs).length * 1 ≤ (js ++ [jn] ++ cs).length * ((js ++ [jn] ++ cs).length + 2) := Nat.mul_le_mul_left _ (by omega)
      omega
    obtain ⟨ts, h1, h2, h3⟩ := resort_chain order horder o land lor ws a js hd' hch (cs.map joinTable) (fun t ht hin => hcn t ht (by
      simp only [List.map_append, ← List.cons_append]; exact List.mem_append_left _ hin)) jn _ hNlt
    have hre : order (joinTable jn).related = [some (lastName a js)] := ordered _ _ hla jn.on hon0 hties order horder
    have honj : (joinTable jn).on = jn.on := p1
    simp only [hre, honj, h1]
    have hno : (ts ++ cs.map joinTable).any (fun t => decide (t.type = Ty.right)) = false := by
      rw [List.any_eq_false]
      intro t ht
      rcases List.mem_append.1 ht with ht | ht
      · simpa using h2 t ht
      · obtain ⟨j, hj, rfl⟩ := List.mem_map.1 ht
        simp [joinTable, (hcs j hj).1]
    simp only [hno, Bool.false_eq_true, if_false]
    congr 2
    · rw [List.map_append, h3]
      simp only [joins]
      congr 1
      rw [List.map_map]
      apply List.map_congr_left
      intro j hj
      simp [joinTable, (hcs j hj).1]
    · simp [joinTable, p2, p3, primaryTable]
  -- the first table of the chain
  obtain ⟨j1, tl, hj1⟩ : ∃ j1 tl, js ++ [jn] = j1 :: tl := by
    cases js with
    | nil => exact ⟨jn, [], rfl⟩
    | cons j js => exact ⟨j, js ++ [jn], rfl⟩
  have hlw : leftsW a ws (js ++ [jn]) = lefts j1.name tl ++ [⟨a, .left, j1.on ++ ws⟩] := by rw [hj1]; rfl
  have hl : lefts a (js ++ [jn]) = lefts j1.name tl ++ [⟨a, .left, j1.on⟩] := by rw [hj1]; rfl
  have hwok : ∀ c ∈ ws, (∀ r ∈ condFields c, r.table ≠ none) ∧ OwnConst a c ∧ NoSelf a c := by
    intro c hc
    obtain ⟨h1, h2, _⟩ := hws c hc
    refine ⟨fun r hr => by simp [h1 r hr], ?_, h2⟩
    unfold OwnConst
    split
    · intro _; exact h1 _ (by simp [condFields, fields])
    · exact h1 _ (by simp [condFields, fields])
    · trivial
  have hlok : ∀ j ∈ lefts a (js ++ [jn]), OnOk j.name j.on := leftsW_onOk a (js ++ [jn]) hd hchain
  have hwlok : ∀ j ∈ leftsW a ws (js ++ [jn]), OnOk j.name j.on := by
    intro j hj
    rw [hlw] at hj
    rcases List.mem_append.1 hj with hj | hj
    · exact hlok j (by rw [hl]; exact List.mem_append_left _ hj)
    · simp only [List.mem_singleton] at hj
      subst hj
      refine ⟨fun c hc => ?_, hkeys j1 (by rw [hj1]; rfl)⟩
      rcases List.mem_append.1 hc with hc | hc
      · exact (hlok ⟨a, .left, j1.on⟩ (by rw [hl]; simp)).1 c hc
      · exact hwok c hc
  obtain ⟨infos, hi, hll⟩ := runLeft_infos null o hsym jn.name db joins (leftsW a ws (js ++ [jn]) ++ cs)
    (by simp [joins, Function.comp_def]) (by
      intro i h h'
      simp only [joins]
      by_cases hlt : i < (leftsW a ws (js ++ [jn])).length
      · rw [List.getElem_append_left (by simpa using hlt), List.getElem_append_left hlt]
        simp
      · rw [List.getElem_append_right (by simpa using hlt), List.getElem_append_right (by omega)]
        simp only [List.getElem_map, List.length_map]
        exact partition_perm _ _) (by
      intro j hj
      rcases List.mem_append.1 hj with hj | hj
      · exact hwlok j hj
      · exact (hcs j hj).2.2)
  have hW : ∀ e : Env V, (ws.all (holds o jn.name e)) = decide (∀ c ∈ ws, trueIn o e c) := by
    intro e
    rw [List.all_eq, decide_eq_decide]
    constructor
    · intro h c hc
      have := h c hc
      rwa [trueIn_refVal o jn.name e c (hwok c hc).1, decide_eq_true_iff] at this
    · intro h c hc
      rw [trueIn_refVal o jn.name e c (hwok c hc).1, decide_eq_true_iff]
      exact h c hc
  have hwa : ∀ e e' : Env V, e a = e' a → decide (∀ c ∈ ws, trueIn o e c) = decide (∀ c ∈ ws, trueIn o e' c) := by
    intro e e' he
    have : ∀ c ∈ ws, (trueIn o e c ↔ trueIn o e' c) := fun c hc => trueIn_congr o c e e' fun r hr => by
      simp [(hws c hc).1 r hr, he]
    rw [decide_eq_decide]
    exact ⟨fun h c hc => (this c hc).1 (h c hc), fun h c hc => (this c hc).2 (h c hc)⟩
  have hpush : ∀ es : List (Env V), (es.flatMap (leftSeq null o db cs)).filter (fun e => decide (∀ c ∈ ws, trueIn o e c)) =
      (es.filter fun e => decide (∀ c ∈ ws, trueIn o e c)).flatMap (leftSeq null o db cs) := by
    intro es
    rw [List.filter_flatMap, ← flatMap_cond]
    congr 1
    funext e
    exact filter_leftSeq null o db cs a (fun j hj e => (hcs j hj).2.1 (by rw [e]; simp)) _ hwa e
  have hseq : ∀ e : Env V, (leftSeq null o db (leftsW a ws (js ++ [jn])) e).filter (fun e => decide (∀ c ∈ ws, trueIn o e c)) =
      (leftSeq null o db (lefts a (js ++ [jn])) e).filter (fun e => decide (∀ c ∈ ws, trueIn o e c)) := by
    intro e
    rw [hlw, hl, leftSeq_append, leftSeq_append, List.filter_flatMap, List.filter_flatMap]
    congr 1
    funext e'
    simp only [leftSeq, List.flatMap_singleton']
    exact where_on null o db a j1.on ws (fun c hc => (hws c hc).2.2) e'
  unfold RightJoin.run
  rw [hrw]
  simp only [Option.map_some]
  unfold runLeft
  rw [hi]
  simp only [Option.map_some, hll, hW]
  congr 2
  unfold SqlRight.rows
  rw [List.foldl_append, sql_chain null o db a (js ++ [jn]) hd hchain hstrict, foldl_left null o db cs (fun j hj => (hcs j hj).1),
    lastName_snoc, List.flatMap_assoc, List.filter_flatMap, List.filter_flatMap]
  congr 1
  funext row
  have hu : (upd (fun _ _ => null) jn.name row : Env V) = beside (nothing null) jn.name row := rfl
  rw [hu, leftSeq_append, hpush, hpush, hseq]

end

section
/-- `c.id = b.id`. -/
def cOnB' : Cond Nat := .cmp .eq (.col ⟨some "c", "id"⟩) (.col ⟨some "b", "id"⟩)

/-- The hypotheses of `C63_chain_partial` on `a RIGHT JOIN b ON b.id = a.id RIGHT JOIN c ON c.id = b.id WHERE a.x > 1`. -/
example : RightChain "a" [⟨"b", .right, [bOnA]⟩, ⟨"c", .right, [cOnB']⟩] ∧
    (∀ e : Env Nat, (∀ k, e "b" k = 0) → ¬ trueIn sqlOps e bOnA) ∧
    rjRun [⟨"b", .right, [bOnA]⟩, ⟨"c", .right, [cOnB']⟩] (.conj [.cmp .gt (.col ⟨some "a", "x"⟩) (.const 1)]) =
      some (some [[1, 2, 1, 5, 1]]) := by
  refine ⟨⟨⟨rfl, by simp, ?_, by decide +kernel⟩, ⟨rfl, by simp, ?_, by decide +kernel⟩, trivial⟩, ?_, by decide +kernel⟩
  · intro c hc
    simp only [List.mem_singleton] at hc
    subst hc
    exact ⟨_, .left _ _ _, by simp [fields], by simp [fields]⟩
  · intro c hc
    simp only [List.mem_singleton] at hc
    subst hc
    exact ⟨_, .left _ _ _, by simp [fields], by simp [fields]⟩
  · intro e h
    simp [trueIn, condX, evalX, h, sqlOps, natOps, bOnA]

end
end Verif.Props
