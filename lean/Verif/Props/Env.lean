import Verif.Model.Env
/-! Property theorems C08, C09: variable environments and contexts. -/
namespace Verif.Props
open Verif.Env

variable {α : Type}

/-! ## C08 -/

/-- Specification: the dictionary gives `key` the value `v` — under that name, or under the name without its
leading `@`. -/
def GivesValue (d : Dict Key α) (key : Key) (v : α) : Prop :=
  d.get? key = some v ∨ (d.get? key = none ∧ ∃ key', key = '@' :: key' ∧ d.get? key' = some v)

/-- **C08**: a read returns `v` iff some enclosing environment gives the key that value and no nearer one
gives it any value. -/
theorem C08_nearest_definition (chain : List (Dict Key α)) (key : Key) (v : α) :
    getValue chain key = some v ↔
      ∃ near d far, chain = near ++ d :: far ∧ (∀ e ∈ near, ∀ w, ¬ GivesValue e key w) ∧ GivesValue d key v := by
  induction chain with
  | nil => simp [getValue]
  | cons d ds ih =>
    have hskip : (∀ w, ¬ GivesValue d key w) → ((getValue (d :: ds) key = some v ↔
        ∃ near d' far, (d :: ds) = near ++ d' :: far ∧ (∀ e ∈ near, ∀ w, ¬ GivesValue e key w) ∧
          GivesValue d' key v)) := by
      intro hn
      have hrec : getValue (d :: ds) key = getValue ds key := by
        rw [getValue_cons]
        split
        · next w hw => exact absurd (Or.inl hw) (hn w)
        · next hnone =>
          split
          · next key' =>
            split
            · next w hw => exact absurd (Or.inr ⟨hnone, key', rfl, hw⟩) (hn w)
            · rfl
          · rfl
      rw [hrec, ih]
      constructor
      · rintro ⟨near, d', far, e, h1, h2⟩
        refine ⟨d :: near, d', far, by simp [e], ?_, h2⟩
        intro e' he
        rcases List.mem_cons.mp he with h | h
        · subst h; exact hn
        · exact h1 e' h
      · rintro ⟨near, d', far, e, h1, h2⟩
        cases near with
        | nil => simp at e; exact absurd (e.1 ▸ h2) (hn v)
        | cons n near =>
          simp at e
          exact ⟨near, d', far, e.2, fun e' he => h1 e' (by simp [he]), h2⟩
    by_cases hn : ∀ w, ¬ GivesValue d key w
    · exact hskip hn
    · simp only [Classical.not_forall, Classical.not_not] at hn
      obtain ⟨w, hw⟩ := hn
      have hval : getValue (d :: ds) key = some w := by
        rcases hw with h | ⟨h, key', rfl, h'⟩
        · simp [getValue, h]
        · simp [getValue, h, h']
      have huniq : ∀ v, GivesValue d key v → v = w := by
        intro v hv
        rcases hv with h | ⟨h, k1, e1, h1⟩ <;> rcases hw with g | ⟨g, k2, e2, g2⟩
        · rw [h] at g; simpa using g
        · rw [h] at g; simp at g
        · rw [h] at g; simp at g
        · rw [e1] at e2; simp at e2; rw [e2, g2] at h1; simpa using h1.symm
      rw [hval]
      constructor
      · intro e
        have e : w = v := by simpa using e
        exact ⟨[], d, ds, rfl, by simp, e ▸ hw⟩
      · rintro ⟨near, d', far, e, h1, h2⟩
        cases near with
        | nil => simp at e; rw [← e.1] at h2; rw [huniq v h2]
        | cons n near => simp at e; exact absurd hw (h1 d (by simp [e.1]) w)

/-- **C08**, failure clause: a read fails iff no enclosing environment gives the key a value. -/
theorem C08_unknown_iff (chain : List (Dict Key α)) (key : Key) :
    getValue chain key = none ↔ ∀ d ∈ chain, ∀ w, ¬ GivesValue d key w := by
  constructor
  · intro h d hd w hw
    induction chain with
    | nil => simp at hd
    | cons c cs ih =>
      rw [getValue_cons] at h
      split at h
      · simp at h
      · next hnone =>
        rcases List.mem_cons.mp hd with e | hd
        · subst e
          rcases hw with h' | ⟨_, key', rfl, h'⟩
          · rw [h'] at hnone; simp at hnone
          · simp [h'] at h
        · split at h
          · split at h
            · simp at h
            · exact ih h hd
          · exact ih h hd
  · intro h
    cases hg : getValue chain key with
    | none => rfl
    | some v =>
      obtain ⟨near, d, far, e, _, h2⟩ := (C08_nearest_definition chain key v).mp hg
      exact absurd h2 (h d (by simp [e]) v)

/-- The two lookup methods agree: `get(key, default)` is `get_value(key)`, or the default on `KeyError`. -/
theorem C08_get_agrees (chain : List (Dict Key α)) (key : Key) (dflt : α) :
    getDefault chain key dflt = (getValue chain key).getD dflt := by
  induction chain with
  | nil => rfl
  | cons d ds ih =>
    rw [getDefault_cons, getValue_cons]
    split
    · rfl
    · split
      · split
        · rfl
        · exact ih
      · exact ih

/-- Non-vacuity: the nearest definition wins over an outer one, and `@x` finds `x`. -/
example :
    getValue [[("@y".toList, 1)], [("x".toList, 2)], [("@x".toList, 3)]] "@x".toList = some 2 ∧
    getValue [[("@y".toList, 1)]] "@x".toList = none := by decide

/-! ## C09 -/

/-- Specification: the variable a name given to the API addresses — `x` and `@x` are the same variable. -/
def atName (name : Key) : Key := if name = [] ∨ name.head? = some '@' then name else '@' :: name

theorem apiName_eq (name : Key) : apiName name = atName name := by
  cases name with
  | nil => rfl
  | cons c cs => simp only [apiName, atName]; by_cases h : c = '@' <;> simp [h]

/-- Specification: the last value written under `key` in the dictionary object `a` by a history of
`set_variable` calls. -/
def lastWrite (a : Nat) (key : Key) : List (Op α) → Option α
  | [] => none
  | op :: ops =>
    (lastWrite a key ops).or
      (match op with
       | .set (b :: _) name v => if b = a ∧ atName name = key then some v else none
       | _ => none)

/-- Specification of reading `key` in the context with dictionary objects `ctx`: the last value written in the
context itself (exact name, then name without `@`), otherwise what the parent context reads. -/
def specRead (ops : List (Op α)) : List Nat → Key → α → α
  | [], _, dflt => dflt
  | a :: parents, key, dflt =>
    match lastWrite a key ops with
    | some v => v
    | none =>
      match (match key with | '@' :: key' => lastWrite a key' ops | _ => none) with
      | some v => v
      | none => specRead ops parents key dflt

theorem specRead_cons (ops : List (Op α)) (a : Nat) (parents key) (dflt : α) :
    specRead ops (a :: parents) key dflt =
    (match lastWrite a key ops with
    | some v => v
    | none =>
      match (match key with | '@' :: key' => lastWrite a key' ops | _ => none) with
      | some v => v
      | none => specRead ops parents key dflt) := rfl

/-- A fresh engine: no variables; `n` dictionary objects exist. -/
def emptyHeap (α : Type) (n : Nat) : Heap α := ⟨fun _ => [], n⟩

/-- The histories in which contexts are used only after their creation: every write goes to an existing
dictionary object. -/
def Legal (n : Nat) : List (Op α) → Prop
  | [] => True
  | .set ctx _ _ :: ops => (∀ a ∈ ctx, a < n) ∧ Legal n ops
  | .new _ :: ops => Legal (n + 1) ops

theorem dict_run (ops : List (Op α)) : ∀ (h : Heap α), Legal h.next ops → (∀ a, h.next ≤ a → h.dict a = []) →
    ∀ a key, ((ops.foldl step h).dict a).get? key = (lastWrite a key ops).or ((h.dict a).get? key) := by
  induction ops with
  | nil => intro h _ _ a key; simp [lastWrite]
  | cons op ops ih =>
    intro h hl he a key
    simp only [List.foldl_cons, lastWrite]
    cases op with
    | set ctx name v =>
      cases ctx with
      | nil =>
        rw [show step h (.set [] name v) = h from rfl, ih h hl.2 he]
        simp
      | cons b bs =>
        have hb : b < h.next := hl.1 b (by simp)
        rw [ih (step h (.set (b :: bs) name v)) hl.2]
        · simp only [step, setVariable, Heap.write]
          by_cases hab : a = b
          · subst hab
            simp only [if_true, Dict.get?_set, true_and]
            rw [apiName_eq]
            by_cases hk : atName name = key
            · simp [hk]
            · simp [hk]
          · have : ¬ b = a := fun e => hab e.symm
            simp [hab, this]
        · intro c hc
          simp only [step, setVariable, Heap.write] at hc ⊢
          rw [if_neg (by omega)]
          exact he c hc
    | new parent =>
      rw [ih (step h (.new parent)) hl]
      · simp only [step, newContext]
        by_cases ha : a = h.next
        · subst ha
          simp [he h.next (Nat.le_refl _)]
        · simp [ha]
      · intro c hc
        simp only [step, newContext] at hc ⊢
        split
        · rfl
        · exact he c (by omega)

/-- **C09**: after any history of `set_variable` calls and context creations, `get_variable` in a context returns
the latest value written in that context, otherwise what its parent context returns (the default at the end). -/
theorem C09_reads_latest_write (n : Nat) (ops : List (Op α)) (hl : Legal n ops) (ctx : List Nat) (name : Key)
    (dflt : α) :
    getVariable (ops.foldl step (emptyHeap α n)) ctx name dflt = specRead ops ctx (atName name) dflt := by
  unfold getVariable
  rw [apiName_eq]
  generalize atName name = key
  induction ctx with
  | nil => rfl
  | cons a as ih =>
    have hd := dict_run ops (emptyHeap α n) hl (by intro a _; rfl) a
    have e : ∀ k, Dict.get? ((ops.foldl step (emptyHeap α n)).dict a) k = lastWrite a k ops := by
      intro k; rw [hd]; simp [emptyHeap]
    simp only [Heap.chain, List.map_cons] at ih ⊢
    rw [getDefault_cons, specRead_cons, e]
    cases hk : lastWrite a key ops with
    | some v => rfl
    | none =>
      simp only
      split
      · next key' =>
        rw [e]
        simp only
        cases hk' : lastWrite a key' ops with
        | some v => simp
        | none => simpa using ih
      · next hne =>
        split
        · next v hv =>
          split at hv
          · next k' => exact absurd rfl (hne k')
          · simp at hv
        · exact ih

/-- **C09**, the sign: reading or writing `x` is reading or writing `@x`, in every context. -/
theorem C09_at_sign (h : Heap α) (ctx : List Nat) (name : Key) (hne : name ≠ []) (hat : name.head? ≠ some '@')
    (v dflt : α) :
    getVariable h ctx ('@' :: name) dflt = getVariable h ctx name dflt ∧
    setVariable h ctx ('@' :: name) v = setVariable h ctx name v := by
  have e : apiName ('@' :: name) = apiName name := by rw [apiName_eq, apiName_eq]; simp [atName, hne, hat]
  constructor
  · unfold getVariable; rw [e]
  · unfold setVariable; rw [e]

/-- **C09**, isolation: a write in a context changes no read in a context that is not that context or one of its
descendants. -/
theorem C09_isolation (h : Heap α) (a : Nat) (as : List Nat) (name name' : Key) (v dflt : α) (ctx : List Nat)
    (hn : a ∉ ctx) :
    getVariable (setVariable h (a :: as) name v) ctx name' dflt = getVariable h ctx name' dflt := by
  unfold getVariable
  have : (setVariable h (a :: as) name v).chain ctx = h.chain ctx := by
    unfold Heap.chain setVariable Heap.write
    apply List.map_congr_left
    intro b hb
    have : b ≠ a := fun e => hn (e ▸ hb)
    simp [this]
  rw [this]

/-- **C09**, a context reads its own write, whatever its parents contain. -/
theorem C09_read_your_write (h : Heap α) (a : Nat) (as : List Nat) (name : Key) (v dflt : α) :
    getVariable (setVariable h (a :: as) name v) (a :: as) name dflt = v := by
  unfold getVariable Heap.chain setVariable Heap.write
  simp only [List.map_cons, if_true]
  rw [getDefault_cons]
  simp

/-- **C09**, a new context sees its parent's variables until it writes its own. -/
theorem C09_new_context_inherits (h : Heap α) (parent : List Nat) (hp : ∀ a ∈ parent, a < h.next) (name : Key)
    (dflt : α) :
    getVariable (newContext h parent).1 (newContext h parent).2 name dflt = getVariable h parent name dflt := by
  unfold getVariable
  have e : (newContext h parent).1.chain parent = h.chain parent := by
    unfold Heap.chain newContext
    apply List.map_congr_left
    intro b hb
    have := hp b hb
    have : b ≠ h.next := by omega
    simp [this]
  have e2 : (newContext h parent).1.chain (newContext h parent).2 = [] :: h.chain parent := by
    rw [← e]; simp [Heap.chain, newContext]
  rw [e2]
  generalize apiName name = key
  rw [getDefault_cons]
  simp only [Dict.get?_nil]
  split <;> simp

/-- Non-vacuity: engine (object 1, over the global object 0) and two contexts created from it. -/
example :
    let ops : List (Op Nat) := [.set [1, 0] "x".toList 1, .new [1, 0], .set [2, 1, 0] "x".toList 2, .new [1, 0],
      .set [1, 0] "y".toList 5]
    Legal 2 ops ∧
    getVariable (ops.foldl step (emptyHeap Nat 2)) [2, 1, 0] "x".toList 0 = 2 ∧
    getVariable (ops.foldl step (emptyHeap Nat 2)) [3, 1, 0] "@x".toList 0 = 1 ∧
    getVariable (ops.foldl step (emptyHeap Nat 2)) [3, 1, 0] "y".toList 0 = 5 := by
  refine ⟨?_, by decide, by decide, by decide⟩
  simp [Legal]

end Verif.Props
