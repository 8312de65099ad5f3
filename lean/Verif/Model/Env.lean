import Verif.Basic
/-!
Model of the variable environments: `EnvVariables` (executor.py:41-80), the API `set_variable` /
`get_variable` (`__init__.py:40-48`, `121-133`), contexts (`__init__.py:140-143`, executor.py:92-102), and the
textual substitution `Executor.compile_variable` (executor.py:104-140).
-/
namespace Verif.Env

/-- Variable names. -/
abbrev Key := List Char

/-- executor.py:64-71 `EnvVariables.get_value`: `none` is the `KeyError`.  The list is this dictionary followed
by its ancestors (`self`, `self.parent`, …): `parent` is assigned once, in the constructor. -/
def getValue {α : Type} : List (Dict Key α) → Key → Option α
  | [], _ => none
  | d :: ds, key =>
    match d.get? key with
    | some v => some v
    | none =>
      match key with
      | '@' :: key' =>
        match d.get? key' with
        | some v => some v
        | none => getValue ds key
      | _ => getValue ds key

/-- executor.py:73-80 `EnvVariables.get(key, default)` (written separately in the code). -/
def getDefault {α : Type} : List (Dict Key α) → Key → α → α
  | [], _, dflt => dflt
  | d :: ds, key, dflt =>
    match d.get? key with
    | some v => v
    | none =>
      match key with
      | '@' :: key' =>
        match d.get? key' with
        | some v => v
        | none => getDefault ds key dflt
      | _ => getDefault ds key dflt

theorem getValue_cons {α : Type} (d : Dict Key α) (ds) (key : Key) : getValue (d :: ds) key =
    (match d.get? key with
    | some v => some v
    | none =>
      match key with
      | '@' :: key' =>
        match d.get? key' with
        | some v => some v
        | none => getValue ds key
      | _ => getValue ds key) := rfl

theorem getDefault_cons {α : Type} (d : Dict Key α) (ds) (key : Key) (dflt : α) :
    getDefault (d :: ds) key dflt =
    (match d.get? key with
    | some v => v
    | none =>
      match key with
      | '@' :: key' =>
        match d.get? key' with
        | some v => v
        | none => getDefault ds key dflt
      | _ => getDefault ds key dflt) := rfl

/-- `__init__.py:41-42`, `46-47`: prefix `@` unless the name is empty or already has it. -/
def apiName : Key → Key
  | [] => []
  | c :: cs => if c ≠ '@' then '@' :: c :: cs else c :: cs

/-- The heap of `EnvVariables` objects.  A context (executor) is the list of the addresses of its own
dictionary and of those of its ancestors, ending with the global one. -/
structure Heap (α : Type) where
  dict : Nat → Dict Key α
  next : Nat

/-- The dictionaries of a context. -/
def Heap.chain {α : Type} (h : Heap α) (ctx : List Nat) : List (Dict Key α) := ctx.map h.dict

/-- `dict[key] = value` on one object. -/
def Heap.write {α : Type} (h : Heap α) (a : Nat) (k : Key) (v : α) : Heap α :=
  { h with dict := fun b => if b = a then (h.dict a).set k v else h.dict b }

/-- `__init__.py:45-48` `set_variable` of a context. -/
def setVariable {α : Type} (h : Heap α) (ctx : List Nat) (name : Key) (v : α) : Heap α :=
  match ctx with
  | [] => h
  | a :: _ => h.write a (apiName name) v

/-- `__init__.py:40-43` `get_variable` of a context. -/
def getVariable {α : Type} (h : Heap α) (ctx : List Nat) (name : Key) (dflt : α) : α :=
  getDefault (h.chain ctx) (apiName name) dflt

/-- `__init__.py:140-143` `context()`: a new executor whose environment is a new empty dictionary with the
parent executor's environment as parent (executor.py:101-102). -/
def newContext {α : Type} (h : Heap α) (parent : List Nat) : Heap α × List Nat :=
  ({ dict := fun b => if b = h.next then [] else h.dict b, next := h.next + 1 }, h.next :: parent)

/-- Operations of a history. -/
inductive Op (α : Type) where
  | set (ctx : List Nat) (name : Key) (v : α)
  | new (parent : List Nat)

/-- One operation. -/
def step {α : Type} (h : Heap α) : Op α → Heap α
  | .set ctx name v => setVariable h ctx name v
  | .new parent => (newContext h parent).1

/-! ### `compile_variable` -/

/-- A match of `ENV_VARIABLE_RE` = `\$\{[@\w]+?(:.*?)?\}` (executor.py:20). -/
structure Ref where
  name : Key
  dflt : Option (List Char)
  deriving DecidableEq, Repr

/-- The matched text (group 1). -/
def Ref.text (r : Ref) : List Char :=
  '$' :: '{' :: (r.name ++ (match r.dflt with | none => [] | some d => ':' :: d) ++ ['}'])

/-- executor.py:20: match of the regular expression at the beginning of the text.  `isW` is the class `\w`.
Neither `:` nor `}` is in `[@\w]`, so the lazy name is the longest run of such characters; the lazy default
ends at the first `}`. -/
def matchRef (isW : Char → Bool) : List Char → Option (Ref × List Char)
  | '$' :: '{' :: r =>
    let isName := fun c => isW c || c = '@'
    let name := r.takeWhile isName
    if name = [] then none
    else match r.dropWhile isName with
      | '}' :: r' => some (⟨name, none⟩, r')
      | ':' :: r' =>
        match r'.dropWhile (· ≠ '}') with
        | '}' :: r'' => some (⟨name, some (r'.takeWhile (· ≠ '}'))⟩, r'')
        | _ => none
      | _ => none
  | _ => none

theorem dropWhile_length {α : Type} (f : α → Bool) (l : List α) : (l.dropWhile f).length ≤ l.length :=
  (List.dropWhile_sublist f).length_le

theorem matchRef_rest {isW : Char → Bool} {s r' : List Char} {r : Ref} (h : matchRef isW s = some (r, r')) :
    r'.length < s.length := by
  unfold matchRef at h
  split at h
  · next r0 =>
    have h0 := dropWhile_length (fun c => isW c || decide (c = '@')) r0
    simp only at h
    split at h
    · simp at h
    · split at h
      · next r1 e => simp at h; rw [e] at h0; simp at h0 ⊢; rw [← h.2]; omega
      · next r1 e =>
        split at h
        · next r2 e2 =>
          have h1 := dropWhile_length (fun c => decide (c ≠ '}')) r1
          rw [e2] at h1
          simp at h; rw [e] at h0; simp at h0 h1 ⊢; rw [← h.2]; omega
        · simp at h
      · simp at h
  · simp at h

/-- executor.py:105 `ENV_VARIABLE_RE.findall(sql)`. -/
def findAll (isW : Char → Bool) (s : List Char) : List Ref :=
  match s with
  | [] => []
  | c :: cs =>
    match h : matchRef isW (c :: cs) with
    | some (r, rest) => r :: findAll isW rest
    | none => findAll isW cs
termination_by s.length
decreasing_by
  · exact matchRef_rest h
  · simp

/-- Python `s.replace(old, new)` for a non-empty `old`. -/
def replaceAll (old new : List Char) (hold : old ≠ []) (s : List Char) : List Char :=
  match s with
  | [] => []
  | c :: cs =>
    if old.isPrefixOf (c :: cs) then new ++ replaceAll old new hold ((c :: cs).drop old.length)
    else c :: replaceAll old new hold cs
termination_by s.length
decreasing_by
  · have : 0 < old.length := List.length_pos_iff.mpr hold
    simp; omega
  · simp

theorem Ref.text_ne_nil (r : Ref) : r.text ≠ [] := by simp [Ref.text]

/-- What `compile_variable` depends on besides the text. -/
structure SubstEnv (α : Type) where
  chain : List (Dict Key α)
  /-- executor.py:123-138 `format_variable_value` (kept abstract). -/
  fmt : α → List Char
  /-- `str.lower` per character (Python's `str.lower` may change lengths for a few letters: simplified). -/
  lower : Char → Char
  /-- executor.py:112-120: a default of the form `func(args)` is evaluated by a calculater (third-party);
  `none` when that raises, in particular when the default is not of this form. -/
  evalDefault : List Char → Option (List Char)

/-- executor.py:106-122, 139: the text replacing one reference. -/
def SubstEnv.value {α : Type} (e : SubstEnv α) (r : Ref) : List Char :=
  match getValue e.chain (r.name.map e.lower) with
  | some v => e.fmt v
  | none => (e.evalDefault (r.dflt.getD [])).getD (r.dflt.getD [])

/-- executor.py:104-140 `compile_variable`. -/
def compileVariable {α : Type} (isW : Char → Bool) (e : SubstEnv α) (sql : List Char) : List Char :=
  (findAll isW sql).foldl (fun s r => replaceAll r.text (e.value r) (Ref.text_ne_nil r) s) sql

end Verif.Env
