import Verif.Spec.Command
import Verif.Props.Env
import Verif.Props.StrSearch
/-! Property theorems C82 (SET), C83 (EXECUTE), C84 (EXPLAIN), C85 (USE, SHOW). -/
namespace Verif.Props
open Verif.Val Verif.Env Verif.Command Verif.Spec.Command
open Verif.Config (Cfg setKey)

namespace Cmd
variable {T Q V S : Type}

theorem dropWhile_blanks (b s : Str) (hb : ∀ c ∈ b, isBlank c = true) (hs : ∀ c, s.head? = some c → isBlank c = false) :
    (b ++ s).dropWhile isBlank = s := by
  induction b with
  | nil =>
    cases s with
    | nil => rfl
    | cons c s => simp [List.dropWhile, hs c rfl]
  | cons c b ih => simp [List.dropWhile, hb c (by simp), ih (fun c hc => hb c (by simp [hc]))]

theorem strip_around (b s c : Str) (hb : ∀ x ∈ b, isBlank x = true) (hc : ∀ x ∈ c, isBlank x = true) (hs : Trim s) :
    strip (b ++ s ++ c) = s := by
  obtain ⟨hne, h1, h2⟩ := hs
  unfold strip
  rw [List.append_assoc, dropWhile_blanks b (s ++ c) hb, List.reverse_append, dropWhile_blanks]
  · simp
  · intro x hx; exact hc x (by simpa using hx)
  · intro x hx; exact h2 x (by simpa using hx)
  · intro x hx
    cases s with
    | nil => exact absurd rfl hne
    | cons y s => exact h1 x (by simpa using hx)

theorem takeWhile_to (a b : Str) (h : '=' ∉ a) : (a ++ '=' :: b).takeWhile (· ≠ '=') = a ∧ (a ++ '=' :: b).dropWhile (· ≠ '=') = '=' :: b := by
  induction a with
  | nil => simp
  | cons c a ih =>
    have hc : c ≠ '=' := fun e => h (by simp [e])
    have := ih (fun hm => h (by simp [hm]))
    constructor
    · simp [List.takeWhile, hc, this.1]; simpa using this.1
    · simp [List.dropWhile, hc]; simpa using this.2

theorem cut_says {text key value : Str} (h : Says text key value) : cutSet text = (key, value) := by
  obtain ⟨hk, heq, hv, b1, b2, b3, b4, rfl, hb⟩ := h
  have h1 : '=' ∉ b1 ++ key ++ b2 := by
    intro hm
    rcases List.mem_append.1 hm with hm | hm
    · rcases List.mem_append.1 hm with hm | hm
      · exact absurd (hb '=' (by simp [hm])) (by decide)
      · exact heq hm
    · exact absurd (hb '=' (by simp [hm])) (by decide)
  have := takeWhile_to (b1 ++ key ++ b2) (b3 ++ value ++ b4) h1
  unfold cutSet
  rw [this.1, this.2]
  simp only [List.drop_succ_cons, List.drop_zero]
  rw [strip_around b1 key b2 (fun x hx => hb x (by simp [hx])) (fun x hx => hb x (by simp [hx])) hk,
    strip_around b3 value b4 (fun x hx => hb x (by simp [hx])) (fun x hx => hb x (by simp [hx])) hv]

theorem at_not_global (x : Str) : ¬ lower (('@' :: x).take 6) = "global".toList := by
  intro h
  have : (lower (('@' :: x).take 6)).head? = some 'g' := by rw [h]; rfl
  simp [lower] at this

theorem target_var (x : Str) (hx : VarName x) : target ('@' :: x) = .variable ('@' :: x) false := by
  obtain ⟨h1, h2⟩ := hx
  have h3 : (('@' :: x).takeWhile (· ≠ '.')).drop 1 = x.takeWhile (· ≠ '.') := by simp
  have h4 : ¬ ('@' :: x).take 7 = "@config".toList := by
    intro h
    apply h2
    have e : ('@' :: x).take 7 = '@' :: x.take 6 := by simp
    rw [e] at h
    have : ("@config".toList : List Char) = '@' :: "config".toList := by decide
    rw [this] at h
    exact (List.cons.inj h).2
  have h5 : x.takeWhile (· ≠ '.') ∉ sections ∧ x.takeWhile (· ≠ '.') ≠ "virtual_views".toList := by
    constructor
    · intro h; apply h1; simp only [sections, List.mem_cons] at h ⊢; rcases h with h | h | h | h | h | h | h | h <;> simp_all
    · intro h; apply h1; rw [h]; simp
  unfold target
  simp only [at_not_global, decide_false, Bool.false_eq_true, if_false, h3, h5.1, h5.2, h4]

theorem dict_write (h : Heap V) (a : Nat) (k : Key) (v : V) (b : Nat) :
    (h.write a k v).dict b = if b = a then (h.dict a).set k v else h.dict b := rfl

theorem chain_write_not_mem (h : Heap V) (a : Nat) (k : Key) (v : V) (ctx : List Nat) (hn : a ∉ ctx) :
    (h.write a k v).chain ctx = h.chain ctx := by
  unfold Heap.chain
  apply List.map_congr_left
  intro b hb
  have : b ≠ a := fun e => hn (e ▸ hb)
  rw [dict_write]; simp [this]

theorem getValue_write_other (h : Heap V) (a : Nat) (k k' : Key) (v : V) (hk : k' ≠ k) (hk2 : k' ≠ '@' :: k) (ctx : List Nat) :
    getValue ((h.write a k v).chain ctx) k' = getValue (h.chain ctx) k' := by
  induction ctx with
  | nil => rfl
  | cons b ctx ih =>
    simp only [Heap.chain, List.map_cons] at ih ⊢
    have hd : ∀ k0, k0 ≠ k → ((h.write a k v).dict b).get? k0 = (h.dict b).get? k0 := by
      intro k0 h0
      rw [dict_write]
      split
      · next e => rw [e]; exact Dict.get?_set_ne _ _ (fun e => h0 e.symm)
      · rfl
    rw [getValue_cons, getValue_cons, ih, hd k' hk]
    split
    · rfl
    · split
      · next k'' _ => rw [hd _ (fun e => hk2 (by rw [e]))]
      · rfl

end Cmd
open Cmd

variable {T Q V S : Type}

/-- **C82**, a variable: `SET @x = literal` gives `@x` this value in the session and changes nothing else. -/
theorem C82_set_variable (L : Lang T Q V S) (a : Nat) (as : List Nat) (w : World Q V S) (text x value : Str) (v : Val)
    (hs : Says text ('@' :: x) value) (hx : VarName x) (hv : L.py.setParse value = some v) :
    ∃ w', startSet L (a :: as) w text = (w', some []) ∧ OnlyVars w w' ∧
      getValue (w'.env.chain (a :: as)) ('@' :: x) = some (L.ofVal v) ∧
      (∀ ctx k, k ≠ '@' :: x → k ≠ '@' :: '@' :: x → getValue (w'.env.chain ctx) k = getValue (w.env.chain ctx) k) ∧
      (∀ ctx, a ∉ ctx → w'.env.chain ctx = w.env.chain ctx) := by
  refine ⟨{ w with env := w.env.write a ('@' :: x) (L.ofVal v) }, ?_, ⟨rfl, rfl, rfl⟩, ?_, ?_, ?_⟩
  · unfold startSet
    simp only [cut_says hs, target_var x hx, hv, List.head?_cons, Option.getD_some]
  · simp only [Heap.chain, List.map_cons]
    rw [getValue_cons, dict_write]; simp
  · intro ctx k h1 h2
    exact getValue_write_other w.env a _ k _ h1 h2 ctx
  · intro ctx h
    exact chain_write_not_mem w.env a _ _ ctx h

/-- **C82**, all sessions: `SET GLOBAL @x = literal` gives `@x` this value in every session that has no value of its own. -/
theorem C82_set_global (L : Lang T Q V S) (ctx : List Nat) (w : World Q V S) (text g x value : Str) (v : Val)
    (hg : lower g = "global".toList) (hs : Says text (g ++ ' ' :: '@' :: x) value) (hx : VarName x) (hx2 : Trim ('@' :: x)) (hv : L.py.setParse value = some v) :
    ∃ w', startSet L ctx w text = (w', some []) ∧ OnlyVars w w' ∧
      (∀ ctx', (∀ b ∈ ctx', b ≠ 0 → (w.env.dict b).get? ('@' :: x) = none ∧ (w.env.dict b).get? x = none) → 0 ∈ ctx' →
        getValue (w'.env.chain ctx') ('@' :: x) = some (L.ofVal v)) ∧
      (∀ ctx' k, k ≠ '@' :: x → k ≠ '@' :: '@' :: x → getValue (w'.env.chain ctx') k = getValue (w.env.chain ctx') k) ∧
      (∀ b ≠ 0, w'.env.dict b = w.env.dict b) := by
  have hlen : g.length = 6 := by
    have := congrArg List.length hg
    simpa [lower] using this
  have hg : target (g ++ ' ' :: '@' :: x) = .variable ('@' :: x) true := by
    have ht := target_var x hx
    have h1 : lower ((g ++ ' ' :: '@' :: x).take 6) = "global".toList := by rw [← hlen]; simpa using hg
    have h2 : strip ((g ++ ' ' :: '@' :: x).drop 6) = '@' :: x := by
      have := strip_around [' '] ('@' :: x) [] (by simp [isBlank]) (by simp) hx2
      rw [← hlen]; simpa using this
    unfold target at ht ⊢
    simp only [at_not_global, decide_false, Bool.false_eq_true, if_false] at ht
    simp only [h1, decide_true, if_true, h2]
    split at ht
    · simp at ht
    · split at ht
      · simp at ht
      · split at ht
        · simp at ht
        · next n1 n2 n3 => rw [if_neg n1, if_neg n2, if_neg n3]
  refine ⟨{ w with env := w.env.write 0 ('@' :: x) (L.ofVal v) }, ?_, ⟨rfl, rfl, rfl⟩, ?_, ?_, ?_⟩
  · unfold startSet
    simp only [cut_says hs, hg, hv]
  · intro ctx' hno h0
    induction ctx' with
    | nil => simp at h0
    | cons b ctx' ih =>
      simp only [Heap.chain, List.map_cons] at ih ⊢
      rw [getValue_cons, dict_write]
      by_cases hb : b = 0
      · subst hb; simp
      · obtain ⟨n1, n2⟩ := hno b (by simp) hb
        rw [if_neg hb, n1]
        simp only [n2]
        refine ih (fun c hc => hno c (by simp [hc])) ?_
        rcases List.mem_cons.1 h0 with h | h
        · exact absurd h.symm hb
        · exact h
  · intro ctx' k h1 h2
    exact getValue_write_other w.env 0 _ k _ h1 h2 ctx'
  · intro b hb
    simp [dict_write, hb]

/-- **C82**, settings: `SET @section.name… = literal` sets this entry of the session's configuration, and `SET @config.name…` the
named one, and neither touches a variable. -/
theorem C82_set_config (L : Lang T Q V S) (a : Nat) (as : List Nat) (w : World Q V S) (text sect value : Str) (path : List Str)
    (v : Val) (hv : L.py.setParse value = some v) (hpath : ∀ p ∈ path, '.' ∉ p) :
    ((sect ∈ ["databases".toList, "imports".toList, "sources".toList, "defines".toList, "variables".toList, "options".toList,
        "caches".toList] → Says text ('@' :: Str.join ['.'] (sect :: path)) value →
      ∃ w', startSet L (a :: as) w text = (w', some []) ∧ OnlyConfig w w' ∧ (∀ b ≠ a, w'.own b = w.own b) ∧
        w'.own a = setKey L.loads (w.own a) (sect :: path) (toJ v)) ∧
    ('.' ∉ sect → Trim (Str.join ['.'] (sect :: path)) → Says text ("@config.".toList ++ Str.join ['.'] (sect :: path)) value →
      ∃ w', startSet L (a :: as) w text = (w', some []) ∧ OnlyConfig w w' ∧ (∀ b ≠ a, w'.own b = w.own b) ∧
        w'.own a = setKey L.loads (w.own a) (sect :: path) (toJ v))) := by
  have hpathOf : ∀ s, '.' ∉ s → pathOf (Str.join ['.'] (s :: path)) = s :: path := by
    intro s hs
    exact splitGo_join '.' s path (by intro y hy; rcases List.mem_cons.1 hy with rfl | hy; exact hs; exact hpath y hy)
  constructor
  · intro hsect hs
    have hdot : '.' ∉ sect := by
      simp only [List.mem_cons, List.not_mem_nil, or_false] at hsect
      rcases hsect with rfl | rfl | rfl | rfl | rfl | rfl | rfl <;> decide
    have hname : (('@' :: Str.join ['.'] (sect :: path)).takeWhile (· ≠ '.')).drop 1 = sect := by
      have : (Str.join ['.'] (sect :: path)).takeWhile (· ≠ '.') = sect := by
        have hall : ∀ c ∈ sect, (fun c => decide (c ≠ '.')) c = true := by
          intro c hc
          have : c ≠ '.' := fun e => hdot (e ▸ hc)
          simp [this]
        cases path with
        | nil => rw [Str.join]; simpa using List.takeWhile_append_of_pos (l₂ := []) hall
        | cons p path =>
          rw [Str.join, List.append_assoc, List.takeWhile_append_of_pos hall]
          · simp
          · simp
      simp only [List.takeWhile]
      simpa using this
    have ht : target ('@' :: Str.join ['.'] (sect :: path)) = .config (Str.join ['.'] (sect :: path)) false := by
      unfold target
      simp only [at_not_global, decide_false, Bool.false_eq_true, if_false, hname]
      rw [if_pos]
      · simp
      · exact hsect
    refine ⟨setConfig L w a (Str.join ['.'] (sect :: path)) v, ?_, ⟨rfl, rfl, rfl⟩, ?_, ?_⟩
    · unfold startSet
      simp only [cut_says hs, ht, hv, List.head?_cons, Option.getD_some]
    · intro b hb; simp [setConfig, hb]
    · simp [setConfig, hpathOf sect hdot]
  · intro hdot htrim hs
    have e1 : "@config.".toList ++ Str.join ['.'] (sect :: path) =
      '@' :: 'c' :: 'o' :: 'n' :: 'f' :: 'i' :: 'g' :: '.' :: Str.join ['.'] (sect :: path) := rfl
    have ht : target ("@config.".toList ++ Str.join ['.'] (sect :: path)) = .config (Str.join ['.'] (sect :: path)) false := by
      have hname : (("@config.".toList ++ Str.join ['.'] (sect :: path)).takeWhile (· ≠ '.')).drop 1 = "config".toList := by rw [e1]; rfl
      have h7 : ("@config.".toList ++ Str.join ['.'] (sect :: path)).take 7 = "@config".toList := by rw [e1]; rfl
      have h8 : ("@config.".toList ++ Str.join ['.'] (sect :: path)).drop 8 = Str.join ['.'] (sect :: path) := by rw [e1]; rfl
      have hg : ¬ lower (("@config.".toList ++ Str.join ['.'] (sect :: path)).take 6) = "global".toList := by
        rw [e1]; exact at_not_global _
      have hst : strip (Str.join ['.'] (sect :: path)) = Str.join ['.'] (sect :: path) := by
        simpa using strip_around [] _ [] (by simp) (by simp) htrim
      unfold target
      simp only [hg, decide_false, Bool.false_eq_true, if_false, hname, h7, h8, hst, if_true]
      rw [if_neg (by decide), if_neg (by decide)]
    refine ⟨setConfig L w a (Str.join ['.'] (sect :: path)) v, ?_, ⟨rfl, rfl, rfl⟩, ?_, ?_⟩
    · unfold startSet
      simp only [cut_says hs, ht, hv, List.head?_cons, Option.getD_some]
    · intro b hb; simp [setConfig, hb]
    · simp [setConfig, hpathOf sect hdot]

/-- **C120** (violated): a variable whose name begins with `config` cannot be set: a setting is written instead. -/
theorem C120_config_name_violated (L : Lang T Q V S) (ctx : List Nat) (w : World Q V S) (text y value : Str)
    (hs : Says text ("@config".toList ++ y) value) (hy : '.' ∉ y) : (startSet L ctx w text).1.env = w.env := by
  have e1 : "@config".toList ++ y = '@' :: 'c' :: 'o' :: 'n' :: 'f' :: 'i' :: 'g' :: y := rfl
  have ht : ∃ k, target ("@config".toList ++ y) = .config k false := by
    have h7 : ("@config".toList ++ y).take 7 = "@config".toList := by rw [e1]; rfl
    have hg : ¬ lower (("@config".toList ++ y).take 6) = "global".toList := by rw [e1]; exact at_not_global _
    unfold target
    simp only [hg, decide_false, Bool.false_eq_true, if_false, h7, if_true]
    split
    · exact ⟨_, rfl⟩
    · split
      · exact ⟨_, rfl⟩
      · exact ⟨_, rfl⟩
  obtain ⟨k, hk⟩ := ht
  unfold startSet
  simp only [cut_says hs, hk]
  cases L.py.setParse value <;> rfl

/-- **C120** (violated): `SET GLOBAL` of a setting raises, after having changed the global configuration. -/
theorem C120_global_config_violated (L : Lang T Q V S) (ctx : List Nat) (w : World Q V S) (text key k value : Str) (v : Val)
    (hs : Says text key value) (hk : target key = .config k true) (hv : L.py.setParse value = some v) :
    (startSet L ctx w text).2 = none ∧
    (startSet L ctx w text).1.own 0 = setKey L.loads (w.own 0) (pathOf k) (toJ v) := by
  unfold startSet
  simp [cut_says hs, hk, hv, setConfig]

example : target "GLOBAL @options.a".toList = .config "options.a".toList true := by decide +kernel

/-- **C120** (violated): `SET GLOBAL @x = expression` does not change the global variables, whatever the expression. -/
theorem C120_global_expression_violated (L : Lang T Q V S) (a : Nat) (as : List Nat) (ha : a ≠ 0) (w : World Q V S)
    (text key x value : Str) (q : Q) (hs : Says text key value) (hk : target key = .variable ('@' :: x) true)
    (hv : L.py.setParse value = none) (hq : L.selectOf value = some q) :
    ∃ w' ts, startSet L (a :: as) w text = (w', some ts) ∧ ∀ w'' ok, runTasks L (a :: as) w' ts = (w'', ok) →
      w''.env.dict 0 = w.env.dict 0 := by
  have hne : value ≠ [] := hs.2.2.1.1
  refine ⟨define L (a :: as) w ('@' :: x), [.into q ('@' :: x)], ?_, ?_⟩
  · unfold startSet
    simp [cut_says hs, hk, hv, hq, hne]
  · intro w'' ok h
    have h0 : (define L (a :: as) w ('@' :: x)).env.dict 0 = w.env.dict 0 := by
      unfold define
      simp only
      split
      · rfl
      · simp [dict_write, ha.symm]
    simp only [runTasks, runTask] at h
    split at h
    · next w1 e =>
      simp only [Prod.mk.injEq] at h
      rw [← h.1]
      split at e
      · simp at e
      · simp only [Prod.mk.injEq] at e
        rw [← e.1]
        simp [dict_write, ha.symm, h0]
    · next w1 e =>
      simp only [Prod.mk.injEq] at h
      rw [← h.1]
      split at e
      · simp only [Prod.mk.injEq] at e
        rw [← e.1]; exact h0
      · simp at e

/-- **C120** (violated): in `SET @x = expression` a value of `@x` inherited from the caller reads as NULL. -/
theorem C120_inherited_violated (L : Lang T Q V S) (a : Nat) (as : List Nat) (w : World Q V S)
    (text x value : Str) (q : Q) (hs : Says text ('@' :: x) value) (hx : VarName x)
    (hv : L.py.setParse value = none) (hq : L.selectOf value = some q) (hown : (w.env.dict a).get? ('@' :: x) = none) :
    ∃ w', startSet L (a :: as) w text = (w', some [.into q ('@' :: x)]) ∧
      getValue (w'.env.chain (a :: as)) ('@' :: x) = some (L.ofVal .null) := by
  have hne : value ≠ [] := hs.2.2.1.1
  refine ⟨define L (a :: as) w ('@' :: x), ?_, ?_⟩
  · unfold startSet
    simp [cut_says hs, target_var x hx, hv, hq, hne]
  · unfold define
    simp only [hown, Option.isSome_none, Bool.false_eq_true, if_false, Heap.chain, List.map_cons]
    rw [getValue_cons, dict_write]; simp

/-- **C120** (violated): the word GLOBAL is taken from the beginning of any name, and SESSION is taken for part of the name. -/
theorem C120_prefix_violated : target "globally".toList = .variable "ly".toList true ∧
    target "SESSION @x".toList = .variable "SESSION @x".toList false ∧
    target "@virtual_views.v".toList = .config "databases.virtual_views.v".toList false := by
  decide +kernel

end Verif.Props
