import Verif.Spec.Globals
import Verif.Props.Column
import Verif.Props.Env
/-! C151 (command line and environment variables) and C152 (the options of a statement). -/
namespace Verif.Props.GlobalsLemmas
open Verif.Env Verif.Globals Verif.GlobalsSpec

theorem names_argStep (g : Dict Key GVal) (arg : List Char) (k : Key) (h : ¬ Names k arg) : (argStep g arg).get? k = g.get? k := by
  unfold argStep
  split
  · rfl
  · next h2 =>
    have h2 : arg.take 2 = ['-', '-'] := by simpa using h2
    have e : arg = '-' :: '-' :: arg.drop 2 := by
      conv => lhs; rw [← List.take_append_drop 2 arg]
      rw [h2]; rfl
    refine Dict.get?_set_ne _ _ fun hk => h ?_
    have hj := Props.ColumnLemmas.join_pieces '=' (arg.drop 2)
    cases hp : Column.pieces '=' (arg.drop 2) with
    | nil => exact absurd hp (Props.ColumnLemmas.pieces_ne _ _)
    | cons p ps =>
      rw [hp] at hk hj
      have hk : p = k := hk
      cases ps with
      | nil => left; rw [e, ← hj, ← hk]; rfl
      | cons q qs => right; exact ⟨_, by rw [e, ← hj, ← hk]; rfl⟩

theorem names_fold (args : List (List Char)) (k : Key) (h : ∀ a ∈ args, ¬ Names k a) :
    ∀ g, (args.foldl argStep g).get? k = g.get? k := by
  induction args with
  | nil => intro g; rfl
  | cons a args ih =>
    intro g
    rw [List.foldl_cons, ih (fun b hb => h b (by simp [hb])), names_argStep g a k (h a (by simp))]

theorem argStep_of (g : Dict Key GVal) (t : List Char) :
    argStep g ('-' :: '-' :: t) = g.set ((Column.pieces '=' t).headD []) (argValue (Column.pieces '=' t)) := rfl

theorem argStep_flag (g : Dict Key GVal) (k : Key) (hk : '=' ∉ k) : argStep g ('-' :: '-' :: k) = g.set k (.bool true) := by
  rw [argStep_of, Props.ColumnLemmas.pieces_free _ _ hk]; rfl

theorem argStep_value (g : Dict Key GVal) (k v : List Char) (hk : '=' ∉ k) (hv : '=' ∉ v) :
    argStep g ('-' :: '-' :: (k ++ '=' :: v)) = g.set k (argValue [k, v]) := by
  rw [argStep_of, Props.ColumnLemmas.pieces_cut _ _ _ hk, Props.ColumnLemmas.pieces_free _ _ hv]; rfl

theorem argStep_cut (g : Dict Key GVal) (k v w : List Char) (hk : '=' ∉ k) (hv : '=' ∉ v) :
    argStep g ('-' :: '-' :: (k ++ '=' :: (v ++ '=' :: w))) = g.set k (argValue [k, v]) := by
  rw [argStep_of, Props.ColumnLemmas.pieces_cut _ _ _ hk, Props.ColumnLemmas.pieces_cut _ _ _ hv]
  cases Column.pieces '=' w <;> rfl

theorem says_step (g : Dict Key GVal) {arg : List Char} {k : Key} {v : GVal} (h : Says arg k v) (hk : '=' ∉ k) (hv : NoEq v) :
    argStep g arg = g.set k v := by
  cases h with
  | flag => exact argStep_flag g k hk
  | bare _ v hq =>
    rw [argStep_value g k v hk hv]
    cases v with
    | nil => rfl
    | cons c r =>
      obtain ⟨h1, h2⟩ := hq c r rfl
      simp [argValue, h1, h2]
  | quoted _ v q hq =>
    have hq' : '=' ∉ q :: (v ++ [q]) := by
      have hv : '=' ∉ v := hv
      rcases hq with rfl | rfl <;> simp [hv]
    rw [argStep_value g k _ hk hq']
    rcases hq with rfl | rfl <;> simp [argValue]

theorem environ_fold (lower : Key → Key) (l : List (Key × List Char)) (k : Key) (h : ∀ e ∈ l, lower e.1 ≠ k) :
    ∀ g, (l.foldl (environStep lower) g).get? k = g.get? k := by
  induction l with
  | nil => intro g; rfl
  | cons e l ih =>
    intro g
    rw [List.foldl_cons, ih (fun b hb => h b (by simp [hb]))]
    exact Dict.get?_set_ne _ _ (h e (by simp))

theorem global_no_arg (lower : Key → Key) (p : Process) (k : Key) (ha : ∀ a ∈ p.argv, ¬ Names k a) (hb : ¬ IsBuiltin k) :
    (buildGlobal lower p).get? k = (p.environ.foldl (environStep lower) []).get? k := by
  simp only [IsBuiltin, List.mem_cons, List.not_mem_nil, or_false, not_or] at hb
  unfold buildGlobal
  simp only []
  rw [names_fold _ _ ha, Dict.get?_set_ne _ _ (Ne.symm hb.2.2.2), Dict.get?_set_ne _ _ (Ne.symm hb.2.2.1),
    Dict.get?_set_ne _ _ (Ne.symm hb.2.1), Dict.get?_set_ne _ _ (Ne.symm hb.1)]

end Verif.Props.GlobalsLemmas

namespace Verif.Props
open Verif.Env Verif.Globals Verif.GlobalsSpec GlobalsLemmas

/-- **C151** (full statement: the last argument naming `k` says its value; false, see `C151_value_cut_violated`, for values with
`=`).  Proved: it is so for every command line, every environment and every name, if the value has no `=`. -/
theorem C151_argument_partial (lower : Key → Key) (p : Process) (before after : List (List Char)) (arg : List Char) (k : Key) (v : GVal)
    (ha : p.argv = before ++ arg :: after) (hs : Says arg k v) (hl : ∀ a ∈ after, ¬ Names k a) (hk : '=' ∉ k) (hv : NoEq v) :
    getValue [buildGlobal lower p] k = some v := by
  have h : (buildGlobal lower p).get? k = some v := by
    unfold buildGlobal
    simp only []
    rw [ha, List.foldl_append, List.foldl_cons, says_step _ hs hk hv, names_fold _ _ hl, Dict.get?_set_self]
  simp [getValue, h]

/-- **C151**: the four names of the program win over the environment, and only an argument replaces them. -/
theorem C151_builtin (lower : Key → Key) (p : Process) (k : Key) (t : List Char) (hb : Builtin p k t)
    (ha : ∀ a ∈ p.argv, ¬ Names k a) : getValue [buildGlobal lower p] k = some (.text t) := by
  have h : (buildGlobal lower p).get? k = some (.text t) := by
    unfold buildGlobal
    simp only []
    rw [names_fold _ _ ha]
    cases hb with
    | home => rw [Dict.get?_set_ne _ _ (by decide), Dict.get?_set_ne _ _ (by decide), Dict.get?_set_ne _ _ (by decide), Dict.get?_set_self]
    | syncanyHome => rw [Dict.get?_set_ne _ _ (by decide), Dict.get?_set_ne _ _ (by decide), Dict.get?_set_self]
    | cwd => rw [Dict.get?_set_ne _ _ (by decide), Dict.get?_set_self]
    | platform => rw [Dict.get?_set_self]
  simp [getValue, h]

/-- **C151**: any other name not on the command line is the last environment variable spelled so up to case. -/
theorem C151_environment (lower : Key → Key) (p : Process) (k : Key) (before after : List (Key × List Char)) (n : Key) (t : List Char)
    (he : p.environ = before ++ (n, t) :: after) (hn : lower n = k) (hl : ∀ e ∈ after, lower e.1 ≠ k) (hb : ¬ IsBuiltin k)
    (ha : ∀ a ∈ p.argv, ¬ Names k a) : getValue [buildGlobal lower p] k = some (.text t) := by
  have h : (buildGlobal lower p).get? k = some (.text t) := by
    rw [global_no_arg lower p k ha hb, he, List.foldl_append, List.foldl_cons, environ_fold _ _ _ hl]
    simp [environStep, hn]
  simp [getValue, h]

/-- **C151**: and a name found nowhere is undefined. -/
theorem C151_unknown (lower : Key → Key) (p : Process) (k : Key) (he : ∀ e ∈ p.environ, lower e.1 ≠ k) (hb : ¬ IsBuiltin k)
    (ha : ∀ a ∈ p.argv, ¬ Names k a) (hat : k.head? ≠ some '@') : getValue [buildGlobal lower p] k = none := by
  have h : (buildGlobal lower p).get? k = none := by rw [global_no_arg lower p k ha hb, environ_fold _ _ _ he]; rfl
  cases k with
  | nil => simp [getValue, h]
  | cons c r =>
    have hc : c ≠ '@' := by simpa using hat
    rw [getValue_cons, h]
    simp only []
    split
    · next r' e => cases e; exact absurd rfl hc
    · rfl

/-- **C151**: `%cd` changes `cwd` and nothing else. -/
theorem C151_change_dir (g : Dict Key GVal) (cwd : List Char) (k : Key) :
    (changeDir g cwd).get? k = if k = "cwd".toList then some (.text cwd) else g.get? k := by
  unfold changeDir
  rw [Dict.get?_set]
  split <;> split <;> simp_all

/-- **C151 is violated** for every value with `=` in it: `--k=v=w` gives only `v`. -/
theorem C151_value_cut_violated (lower : Key → Key) (p : Process) (before after : List (List Char)) (k v w : List Char)
    (ha : p.argv = before ++ ('-' :: '-' :: (k ++ '=' :: (v ++ '=' :: w))) :: after) (hl : ∀ a ∈ after, ¬ Names k a) (hk : '=' ∉ k)
    (hv : '=' ∉ v) (hq : ∀ c r, v = c :: r → c ≠ '"' ∧ c ≠ '\'') :
    Says ('-' :: '-' :: (k ++ '=' :: (v ++ '=' :: w))) k (.text (v ++ '=' :: w)) ∧
    getValue [buildGlobal lower p] k = some (.text v) := by
  constructor
  · refine .bare k _ fun c r e => ?_
    cases v with
    | nil => simp only [List.nil_append, List.cons.injEq] at e; rw [← e.1]; decide
    | cons d v =>
      simp only [List.cons_append, List.cons.injEq] at e
      rw [← e.1]; exact hq d v rfl
  · have h : (buildGlobal lower p).get? k = some (.text v) := by
      unfold buildGlobal
      simp only []
      rw [ha, List.foldl_append, List.foldl_cons, argStep_cut _ k v w hk hv, names_fold _ _ hl, Dict.get?_set_self]
      cases v with
      | nil => rfl
      | cons c r =>
        obtain ⟨h1, h2⟩ := hq c r rfl
        simp [argValue, h1, h2]
    simp [getValue, h]

/-- **C151 is violated** for quoted values with `=`: the closing quote is no longer there, and the last character before the `=` is
lost instead. -/
theorem C151_quoted_cut_violated (lower : Key → Key) (p : Process) (before after : List (List Char)) (k v w : List Char) (c : Char)
    (ha : p.argv = before ++ ('-' :: '-' :: (k ++ '=' :: '"' :: (v ++ [c] ++ '=' :: w ++ ['"']))) :: after)
    (hl : ∀ a ∈ after, ¬ Names k a) (hk : '=' ∉ k) (hv : '=' ∉ v) (hc : c ≠ '=') :
    Says ('-' :: '-' :: (k ++ '=' :: '"' :: (v ++ [c] ++ '=' :: w ++ ['"']))) k (.text (v ++ [c] ++ '=' :: w)) ∧
    getValue [buildGlobal lower p] k = some (.text v) := by
  constructor
  · exact .quoted k _ '"' (.inl rfl)
  · have h : (buildGlobal lower p).get? k = some (.text v) := by
      unfold buildGlobal
      simp only []
      have e : ('-' :: '-' :: (k ++ '=' :: '"' :: (v ++ [c] ++ '=' :: w ++ ['"'])))
          = '-' :: '-' :: (k ++ '=' :: (('"' :: (v ++ [c])) ++ '=' :: (w ++ ['"']))) := by simp
      rw [ha, List.foldl_append, List.foldl_cons, e, argStep_cut _ k ('"' :: (v ++ [c])) (w ++ ['"']) hk (by simp [hv, Ne.symm hc]),
        names_fold _ _ hl, Dict.get?_set_self]
      simp [argValue]
    simp [getValue, h]

/-- Non-vacuity for C151: `prog --a=1 --b --a="x y"` with `HOME` and `USER` in the environment. -/
example :
    let p : Process := { quiet with environ := [("HOME".toList, "/e".toList), ("USER".toList, "me".toList)],
                                    argv := ["prog".toList, "--a=1".toList, "--b".toList, "--a=\"x y\"".toList] }
    let g := buildGlobal (·.map Char.toLower) p
    getValue [g] "a".toList = some (.text "x y".toList) ∧ getValue [g] "b".toList = some (.bool true) ∧
      getValue [g] "home".toList = some (.text "/h".toList) ∧ getValue [g] "user".toList = some (.text "me".toList) ∧
      getValue [g] "c".toList = none ∧ Says "--a=\"x y\"".toList "a".toList (.text "x y".toList) := by
  refine ⟨by decide +kernel, by decide +kernel, by decide +kernel, by decide +kernel, by decide +kernel, ?_⟩
  exact .quoted "a".toList "x y".toList '"' (.inl rfl)

/-! ## C152: the options of a statement -/

/-- **C152**: each option of a statement is the variable `@option` as `get_variable` reads it (nearest context first, C08), else its
default; `@primary_order` is always false. -/
theorem C152_options (chain : List (Dict Key GVal)) (o : Key × GVal) (h : o ∈ options) :
    (arguments chain).get? o.1 = some (getDefault chain o.1 o.2) ∧ (arguments chain).get? "@primary_order".toList = some (.bool false) := by
  unfold arguments options at *
  simp only [List.map_cons, List.map_nil, List.cons_append, List.nil_append]
  refine ⟨?_, by simp [Dict.get?]⟩
  simp only [List.mem_cons, List.not_mem_nil, or_false] at h
  rcases h with rfl | rfl | rfl | rfl | rfl | rfl | rfl | rfl | rfl | rfl | rfl <;> simp [Dict.get?]

namespace GlobalsLemmas

theorem getDefault_append {α : Type} (user : List (Dict Key α)) (g : Dict Key α) (k : Key) (d : α)
    (h : getDefault [g] k d = d) : getDefault (user ++ [g]) k d = getDefault user k d := by
  induction user with
  | nil => exact h
  | cons u user ih =>
    rw [List.cons_append, getDefault_cons, getDefault_cons]
    split
    · rfl
    · split
      · split
        · rfl
        · exact ih
      · exact ih

theorem getDefault_free {α : Type} (user : List (Dict Key α)) (g : Dict Key α) (k : Key) (d : α)
    (h : ∀ u ∈ user, u.get? ('@' :: k) = none ∧ u.get? k = none) :
    getDefault (user ++ [g]) ('@' :: k) d = getDefault [g] ('@' :: k) d := by
  induction user with
  | nil => rfl
  | cons u user ih =>
    obtain ⟨h1, h2⟩ := h u (by simp)
    rw [List.cons_append, getDefault_cons, h1]
    simp only [h2]
    exact ih fun v hv => h v (by simp [hv])

theorem option_at (o : Key × GVal) (h : o ∈ options) : ∃ k, o.1 = '@' :: k ∧ '=' ∉ k ∧ ¬ IsBuiltin k ∧ ¬ IsBuiltin ('@' :: k) := by
  unfold options at h
  simp only [List.mem_cons, List.not_mem_nil, or_false] at h
  have hh : ∀ k : Key, ¬ IsBuiltin ('@' :: k) := by
    intro k hk
    simp [IsBuiltin] at hk
  rcases h with rfl | rfl | rfl | rfl | rfl | rfl | rfl | rfl | rfl | rfl | rfl <;>
    exact ⟨_, rfl, by decide, by decide, hh _⟩

end GlobalsLemmas

/-- **C152** (full statement: an option has the value the user's contexts give it, else its default; false, see
`C152_environment_violated`).  Proved: it is so for every option, every chain of contexts and every process whose environment and
command line do not happen to use the option's name. -/
theorem C152_user_partial (lower : Key → Key) (p : Process) (user : List (Dict Key GVal)) (o : Key × GVal) (h : o ∈ options)
    (he : ∀ e ∈ p.environ, '@' :: lower e.1 ≠ o.1 ∧ lower e.1 ≠ o.1) (ha : ∀ a ∈ p.argv, ¬ Names o.1 a ∧ ¬ Names o.1.tail a) :
    (arguments (user ++ [buildGlobal lower p])).get? o.1 = some (getDefault user o.1 o.2) := by
  rw [(C152_options _ o h).1]
  obtain ⟨k, hk, _, hb, hb'⟩ := option_at o h
  rw [hk] at he ha ⊢
  simp only [List.tail_cons] at ha
  have g1 : (buildGlobal lower p).get? ('@' :: k) = none := by
    rw [global_no_arg lower p _ (fun a h => (ha a h).1) hb', environ_fold _ _ _ fun e h => (he e h).2]; rfl
  have g2 : (buildGlobal lower p).get? k = none := by
    rw [global_no_arg lower p _ (fun a h => (ha a h).2) hb, environ_fold _ _ _ fun e h hh => (he e h).1 (by rw [hh])]; rfl
  rw [getDefault_append]
  rw [getDefault_cons, g1]
  simp only [g2]
  rfl

/-- **C152 is violated**: in every process whose environment has a variable called like an option (`LIMIT`, `BATCH`, `TIMEOUT`,
`VERBOSE`, …), every statement runs with the text of that variable as the option, although nobody set it. -/
theorem C152_environment_violated (lower : Key → Key) (p : Process) (user : List (Dict Key GVal)) (o : Key × GVal) (h : o ∈ options)
    (hu : ∀ u ∈ user, u.get? o.1 = none ∧ u.get? o.1.tail = none) (before after : List (Key × List Char)) (n : Key) (t : List Char)
    (he : p.environ = before ++ (n, t) :: after) (hn : '@' :: lower n = o.1) (hl : ∀ e ∈ after, '@' :: lower e.1 ≠ o.1)
    (hat : ∀ e ∈ p.environ, lower e.1 ≠ o.1) (ha : ∀ a ∈ p.argv, ¬ Names o.1 a ∧ ¬ Names o.1.tail a) :
    (arguments (user ++ [buildGlobal lower p])).get? o.1 = some (.text t) := by
  rw [(C152_options _ o h).1]
  obtain ⟨k, hk, _, hb, hb'⟩ := option_at o h
  rw [hk] at hu hn hl hat ha ⊢
  simp only [List.tail_cons] at hu ha
  have hn : lower n = k := by simpa using hn
  have g1 : (buildGlobal lower p).get? ('@' :: k) = none := by
    rw [global_no_arg lower p _ (fun a h => (ha a h).1) hb', environ_fold _ _ _ hat]; rfl
  have g2 : (buildGlobal lower p).get? k = some (.text t) := by
    rw [global_no_arg lower p _ (fun a h => (ha a h).2) hb, he, List.foldl_append, List.foldl_cons,
      environ_fold _ _ _ fun e h hh => hl e h (by rw [hh])]
    simp [environStep, hn]
  rw [getDefault_free user _ k _ hu, getDefault_cons, g1]
  simp only [g2]

/-- **C152**: `--option=v` on the command line gives the option the text `v` (not a number), `--option` gives true, unless a context
of the user defines it. -/
theorem C152_argument (lower : Key → Key) (p : Process) (user : List (Dict Key GVal)) (o : Key × GVal) (h : o ∈ options)
    (hu : ∀ u ∈ user, u.get? o.1 = none ∧ u.get? o.1.tail = none) (before after : List (List Char)) (arg : List Char) (v : GVal)
    (harg : p.argv = before ++ arg :: after) (hs : Says arg o.1.tail v) (hl : ∀ a ∈ after, ¬ Names o.1.tail a) (hv : NoEq v)
    (hat : ∀ e ∈ p.environ, lower e.1 ≠ o.1) (ha : ∀ a ∈ p.argv, ¬ Names o.1 a) :
    (arguments (user ++ [buildGlobal lower p])).get? o.1 = some v := by
  rw [(C152_options _ o h).1]
  obtain ⟨k, hk, heq, hb, hb'⟩ := option_at o h
  rw [hk] at hu hs hl hat ha ⊢
  simp only [List.tail_cons] at hu hs hl
  have g1 : (buildGlobal lower p).get? ('@' :: k) = none := by
    rw [global_no_arg lower p _ ha hb', environ_fold _ _ _ hat]; rfl
  have g2 : (buildGlobal lower p).get? k = some v := by
    unfold buildGlobal
    simp only []
    rw [harg, List.foldl_append, List.foldl_cons, says_step _ hs heq hv, names_fold _ _ hl, Dict.get?_set_self]
  rw [getDefault_free user _ k _ hu, getDefault_cons, g1]
  simp only [g2]

/-- **C152**: when no context, environment variable or argument mentions an option (with or without its `@`), a statement is compiled
with exactly these: nothing is printed, no limits, 10000 rows per batch of a join. -/
theorem C152_defaults (chain : List (Dict Key GVal))
    (h : ∀ d ∈ chain, ∀ k, k ∈ (arguments []).map (·.1) → d.get? k = none ∧ d.get? k.tail = none) :
    arguments chain =
      [("@verbose".toList, .bool false), ("@timeout".toList, .int 0), ("@limit".toList, .int 0), ("@batch".toList, .int 0),
       ("@streaming".toList, .bool false), ("@recovery".toList, .bool false), ("@join_batch".toList, .int 10000),
       ("@insert_batch".toList, .int 0), ("@use_input".toList, .null), ("@use_output".toList, .null),
       ("@use_output_type".toList, .null), ("@primary_order".toList, .bool false)] := by
  induction chain with
  | nil => rfl
  | cons d chain ih =>
    have ih := ih fun e he => h e (List.mem_cons_of_mem _ he)
    rw [← ih]
    unfold arguments
    congr 1
    apply List.map_congr_left
    intro o ho
    obtain ⟨k, hk, _, _, _⟩ := GlobalsLemmas.option_at o ho
    have hm : o.1 ∈ (arguments []).map (·.1) := by
      unfold arguments
      rw [List.map_append, List.map_map]
      exact List.mem_append_left _ (List.mem_map_of_mem (f := (fun a : Key × GVal => a.1) ∘ _) ho)
    obtain ⟨h1, h2⟩ := h d List.mem_cons_self o.1 hm
    rw [hk] at h1 h2 ⊢
    rw [List.tail_cons] at h2
    rw [getDefault_cons, h1]
    simp only [h2]

example : ∀ d ∈ ([[("x".toList, GVal.int 3)], [("home".toList, .null)]] : List (Dict Key GVal)), ∀ k, k ∈ (arguments []).map (·.1) →
    d.get? k = none ∧ d.get? k.tail = none := by decide +kernel

/-- Non-vacuity for C152: `LIMIT=5` in the environment and `--verbose` on the command line; `@batch` set by the user. -/
example :
    let p : Process := { quiet with environ := [("LIMIT".toList, "5".toList)], argv := ["prog".toList, "--verbose".toList] }
    let a := arguments [[("@batch".toList, GVal.int 3)], buildGlobal (·.map Char.toLower) p]
    a.get? "@limit".toList = some (.text "5".toList) ∧ a.get? "@verbose".toList = some (.bool true) ∧
      a.get? "@batch".toList = some (.int 3) ∧ a.get? "@timeout".toList = some (.int 0) := by
  decide +kernel

end Verif.Props
