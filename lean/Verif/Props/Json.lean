import Verif.Spec.Json
import Verif.Proofs.Value
/-! Property theorems C37-C39: JSON paths and functions. -/
namespace Verif.Props
open Verif.Val Verif.Json Verif.JsonSpec

/-! ### Paths -/

theorem indexOf_none {c : Char} {s : Str} (h : c ∉ s) : Json.indexOf c s = none := by
  induction s with
  | nil => rfl
  | cons d s ih =>
    simp only [List.mem_cons, not_or] at h
    rw [Json.indexOf, if_neg (Ne.symm h.1), ih h.2]; rfl

theorem indexOf_append {c : Char} {x : Str} (h : c ∉ x) (y : Str) :
    Json.indexOf c (x ++ y) = (Json.indexOf c y).map (· + x.length) := by
  induction x with
  | nil => simp
  | cons d x ih =>
    simp only [List.mem_cons, not_or] at h
    rw [List.cons_append, Json.indexOf, if_neg (Ne.symm h.1), ih h.2]
    cases Json.indexOf c y <;> simp; omega

theorem indexOf_hit {c : Char} {x : Str} (h : c ∉ x) (y : Str) : Json.indexOf c (x ++ c :: y) = some x.length := by
  rw [indexOf_append h, Json.indexOf, if_pos rfl]; simp

theorem parse_name (p : Str) (h0 : p ≠ []) (h1 : '.' ∉ p) (h2 : '[' ∉ p) : parsePath p = [.name p] := by
  cases p with
  | nil => exact absurd rfl h0
  | cons c p =>
    rw [parsePath]
    simp only [indexOf_none h1, indexOf_none h2]

theorem parse_dot (n q : Str) (h0 : n ≠ []) (h1 : '.' ∉ n) (h2 : '[' ∉ n) :
    parsePath (n ++ '.' :: q) = .name n :: parsePath (stripDots q) := by
  cases n with
  | nil => exact absurd rfl h0
  | cons c n =>
    have hd : Json.indexOf '.' (c :: (n ++ '.' :: q)) = some (n.length + 1) := indexOf_hit h1 q
    have ht : (c :: (n ++ '.' :: q)).take (n.length + 1) = c :: n := by simp
    have hq : (n ++ '.' :: q).drop (n.length + 1) = q := by simp [List.drop_append]
    rw [List.cons_append, parsePath]
    simp only [hd, ht, hq]
    cases hb : Json.indexOf '[' (c :: (n ++ '.' :: q)) with
    | none => rfl
    | some st =>
      have : n.length + 1 < st := by
        have e : c :: (n ++ '.' :: q) = (c :: n ++ ['.']) ++ q := by simp
        rw [e, indexOf_append (by simp [List.mem_cons] at h2 ⊢; exact h2)] at hb
        cases hq2 : Json.indexOf '[' q with
        | none => simp [hq2] at hb
        | some i => simp [hq2] at hb; omega
      simp only [this, if_true]

theorem parse_bracket (n k q : Str) (h1 : '.' ∉ n) (h2 : '[' ∉ n) (h3 : ']' ∉ n) (h4 : ']' ∉ k) :
    parsePath (n ++ '[' :: (k ++ ']' :: q)) =
      (if n = [] then [] else [.name n]) ++ bracket k :: parsePath (stripDots q) := by
  have hb : Json.indexOf '[' (n ++ '[' :: (k ++ ']' :: q)) = some n.length := indexOf_hit h2 _
  have he : Json.indexOf ']' (n ++ '[' :: (k ++ ']' :: q)) = some (n.length + 1 + k.length) := by
    have e : n ++ '[' :: (k ++ ']' :: q) = (n ++ '[' :: k) ++ ']' :: q := by simp
    rw [e, indexOf_hit]
    · simp; omega
    · simp [h3, h4]
  have ht : (n ++ '[' :: (k ++ ']' :: q)).take n.length = n := by simp
  have hk : ((n ++ '[' :: (k ++ ']' :: q)).take (n.length + 1 + k.length)).drop (n.length + 1) = k := by
    rw [List.drop_take, show n.length + 1 + k.length - (n.length + 1) = k.length by omega]
    have : (n ++ '[' :: (k ++ ']' :: q)).drop (n.length + 1) = k ++ ']' :: q := by simp [List.drop_append]
    rw [this]; simp
  have hq : (n ++ '[' :: (k ++ ']' :: q)).drop (n.length + 1 + k.length + 1) = q := by
    have e : n ++ '[' :: (k ++ ']' :: q) = (n ++ '[' :: k ++ [']']) ++ q := by simp
    rw [e, List.drop_left' (by simp; omega)]
  have hdot : ∀ d, Json.indexOf '.' (n ++ '[' :: (k ++ ']' :: q)) = some d → ¬ d < n.length := by
    intro d hd
    rw [indexOf_append h1] at hd
    cases hi : Json.indexOf '.' ('[' :: (k ++ ']' :: q)) with
    | none => simp [hi] at hd
    | some i => simp [hi] at hd; omega
  generalize hp : n ++ '[' :: (k ++ ']' :: q) = p at hb he ht hk hq hdot
  cases p with
  | nil => simp at hp
  | cons c p' =>
    rw [parsePath]
    have hlt : n.length < n.length + 1 + k.length := by omega
    have hif : (if 0 < n.length then [Leg.name n] else []) = if n = [] then [] else [Leg.name n] := by
      cases n <;> simp
    rw [List.drop_succ_cons] at hq
    simp only [hb, he, ht, hk, hq, hlt, if_true, hif]
    cases hd : Json.indexOf '.' (c :: p') with
    | none => simp
    | some d =>
      have := hdot d hd
      cases d with
      | zero => simp
      | succ d => simp only [this, if_false]; simp

/-- The text a path has after the root is removed. -/
def bodyText : List Leg → Str
  | .name n :: r => n ++ tailText r
  | p => tailText p

theorem stripDots_id (s : Str) (h1 : s.head? ≠ some '.') (h2 : s.getLast? ≠ some '.') : stripDots s = s := by
  have e : ∀ t : Str, t.head? ≠ some '.' → t.dropWhile (· = '.') = t := by
    intro t ht
    cases t with
    | nil => rfl
    | cons c t =>
      have : c ≠ '.' := fun h => ht (by simp [h])
      simp [List.dropWhile_cons, this]
  rw [stripDots, e s h1, e s.reverse (by rwa [List.head?_reverse]), List.reverse_reverse]

theorem stripDots_dot (s : Str) : stripDots ('.' :: s) = stripDots s := by
  simp [stripDots]

theorem getLast_append (a b : Str) (h : b ≠ []) : (a ++ b).getLast? = b.getLast? := by
  rw [List.getLast?_append]
  cases e : b.getLast? with
  | none => rw [List.getLast?_eq_none_iff] at e; exact absurd e h
  | some x => rfl

theorem tailText_last (p : List Leg) (h : ∀ x ∈ p, PlainLeg x) : (tailText p).getLast? ≠ some '.' := by
  induction p with
  | nil => simp [tailText]
  | cons x p ih =>
    have ih' := ih fun y hy => h y (by simp [hy])
    have hx := h x (by simp)
    cases hp : tailText p with
    | nil =>
      cases x with
      | name n =>
        obtain ⟨h1, h2, _, _⟩ := hx
        rw [tailText, hp, List.append_nil]
        intro hl
        cases n with
        | nil => exact h1 rfl
        | cons c n =>
          rw [List.getLast?_cons_cons] at hl
          exact h2 (List.mem_of_getLast? hl)
      | idx k =>
        rw [tailText, hp]
        have e : '[' :: natText k ++ [']'] = ('[' :: natText k) ++ [']'] := rfl
        rw [e, List.getLast?_concat]
        decide
    | cons c t =>
      rw [hp] at ih'
      cases x with
      | name n =>
        rw [tailText, hp, getLast_append _ _ (by simp)]
        exact ih'
      | idx k =>
        rw [tailText, hp, getLast_append _ _ (by simp), List.getLast?_cons_cons]
        exact ih'

theorem bodyText_last (p : List Leg) (h : ∀ x ∈ p, PlainLeg x) : (bodyText p).getLast? ≠ some '.' := by
  cases p with
  | nil => simp [bodyText, tailText]
  | cons x p =>
    have ht := tailText_last (x :: p) h
    cases x with
    | name n =>
      obtain ⟨h1, h2, _, _⟩ := h (.name n) (by simp)
      rw [tailText, List.cons_append] at ht
      rw [bodyText]
      intro hl
      apply ht
      cases n with
      | nil => exact absurd rfl h1
      | cons c n => simpa using hl
    | idx k => exact ht

theorem bodyText_head (p : List Leg) (h : ∀ x ∈ p, PlainLeg x) : (bodyText p).head? ≠ some '.' := by
  cases p with
  | nil => simp [bodyText, tailText]
  | cons x p =>
    cases x with
    | name n =>
      obtain ⟨h1, h2, _, _⟩ := h (.name n) (by simp)
      cases n with
      | nil => exact absurd rfl h1
      | cons c n =>
        simp only [bodyText, List.cons_append, List.head?_cons, ne_eq, Option.some.injEq]
        rintro rfl; exact h2 (by simp)
    | idx k => simp [bodyText, tailText]

theorem stripDots_body (p : List Leg) (h : ∀ x ∈ p, PlainLeg x) : stripDots (bodyText p) = bodyText p :=
  stripDots_id _ (bodyText_head p h) (bodyText_last p h)

theorem stripDots_tail (p : List Leg) (h : ∀ x ∈ p, PlainLeg x) : stripDots (tailText p) = bodyText p := by
  cases p with
  | nil => rfl
  | cons x p =>
    cases x with
    | name n =>
      rw [tailText, List.cons_append, stripDots_dot]
      exact stripDots_body (.name n :: p) h
    | idx k => exact stripDots_body (.idx k :: p) h

theorem bracket_nat (k : Nat) : bracket (natText k) = .idx k := by
  rw [bracket, if_pos (allDigits_natText k), digitsVal_natText]

theorem digits_no {k : Nat} {c : Char} (h : isDigit c = false) : c ∉ natText k := fun hm => by
  rw [natText_digits k c hm] at h; exact absurd h (by simp)

theorem parse_body (p : List Leg) (h : ∀ x ∈ p, PlainLeg x) : parsePath (bodyText p) = p := by
  match p, h with
  | [], _ => rw [bodyText, tailText, parsePath]; simp
  | [.name n], h =>
    obtain ⟨h1, h2, h3, _⟩ := h (.name n) (by simp)
    rw [bodyText, tailText, List.append_nil, parse_name n h1 h2 h3]
  | .name n :: .name m :: r, h =>
    obtain ⟨h1, h2, h3, _⟩ := h (.name n) (by simp)
    have hr : ∀ x ∈ Leg.name m :: r, PlainLeg x := fun x hx => h x (List.mem_cons_of_mem _ hx)
    rw [bodyText, tailText, List.cons_append, parse_dot n _ h1 h2 h3]
    have e : m ++ tailText r = bodyText (.name m :: r) := rfl
    rw [e, stripDots_body _ hr, parse_body (.name m :: r) hr]
  | .name n :: .idx k :: r, h =>
    obtain ⟨h1, h2, h3, h4⟩ := h (.name n) (by simp)
    have hr : ∀ x ∈ r, PlainLeg x := fun x hx => h x (by simp [hx])
    rw [bodyText, tailText, List.cons_append, parse_bracket n (natText k) _ h2 h3 h4 (digits_no rfl), if_neg h1, bracket_nat,
      stripDots_tail r hr, parse_body r hr]
    rfl
  | .idx k :: r, h =>
    have hr : ∀ x ∈ r, PlainLeg x := fun x hx => h x (by simp [hx])
    have := parse_bracket [] (natText k) (tailText r) (by simp) (by simp) (by simp) (digits_no rfl)
    rw [List.nil_append] at this
    rw [bodyText, tailText, List.cons_append, this, if_pos rfl, bracket_nat, stripDots_tail r hr, parse_body r hr]
    · rfl
    · simp
termination_by p.length

/-- **C37**, paths: the text of a path with plain names is read back as that path, whatever its length. -/
theorem C37_path_roundtrip (p : List Leg) (h : ∀ x ∈ p, PlainLeg x) : legs (pathText p) = p := by
  have : dropRoot (pathText p) = bodyText p := by
    cases p with
    | nil => rfl
    | cons x p => cases x <;> rfl
  rw [legs, this, parse_body p h]

/-- The path `$.a[0].b-c[12]`. -/
example : legs "$.a[0].b-c[12]".toList = [.name ['a'], .idx 0, .name "b-c".toList, .idx 12] := by
  have := C37_path_roundtrip [.name ['a'], .idx 0, .name "b-c".toList, .idx 12] (by
    intro x hx
    simp only [List.mem_cons, List.not_mem_nil, or_false] at hx
    rcases hx with rfl | rfl | rfl | rfl <;> simp [PlainLeg])
  have e : pathText [.name ['a'], .idx 0, .name "b-c".toList, .idx 12] = "$.a[0].b-c[12]".toList := by decide +kernel
  rwa [e] at this

/-! ### Reading -/

theorem lookup_entry (k : Str) (d : List (Str × J)) : lookup k d = entry k d := by
  induction d with
  | nil => rfl
  | cons x d ih =>
    obtain ⟨k', v⟩ := x
    rw [lookup]
    by_cases h : k' = k
    · simp [entry, h]
    · rw [if_neg h, ih]; simp [entry, h]

theorem noStar_tail {x : Leg} {p : List Leg} (h : NoStar (x :: p)) : NoStar p := fun hm => h (by simp [hm])

theorem get_at {j : J} {p : List Leg} {x : J} (h : At j p x) (hs : NoStar p) : getP j p = x := by
  induction h with
  | here j => rw [getP]
  | elem h _ ih => rw [getP]; simp only [h]; exact ih (noStar_tail hs)
  | @member d k y p x h _ ih =>
    have hk : k ≠ ['*'] := fun e => hs (by simp [e])
    rw [getP, if_neg hk]; simp only [lookup_entry, h]; exact ih (noStar_tail hs)

/-- No leg of the path is an index into a text. -/
def NoTextIndex (j : J) (p : List Leg) : Prop := ∀ pre n post s, p = pre ++ Leg.idx n :: post → ¬ At j pre (.str s)

theorem get_not {j : J} {p : List Leg} (hs : NoStar p) (ht : NoTextIndex j p) (h : ∀ x, ¬ At j p x) : getP j p = .null := by
  induction p generalizing j with
  | nil => exact absurd (At.here j) (h j)
  | cons leg p ih =>
    have hs' := noStar_tail hs
    cases leg with
    | idx n =>
      cases j with
      | arr l =>
        rw [getP]
        cases hn : l[n]? with
        | none => rfl
        | some y =>
          refine ih hs' ?_ fun x hx => h x (.elem hn hx)
          intro pre m post s hp hat
          exact ht (.idx n :: pre) m post s (by rw [hp]; rfl) (.elem hn hat)
      | str s => exact absurd (At.here _) (ht [] n p s rfl)
      | _ => rw [getP] <;> simp
    | name k =>
      have hk : k ≠ ['*'] := fun e => hs (by simp [e])
      cases j with
      | obj d =>
        rw [getP, if_neg hk]
        cases hn : lookup k d with
        | none => rfl
        | some y =>
          rw [lookup_entry] at hn
          refine ih hs' ?_ fun x hx => h x (.member hn hx)
          intro pre m post s hp hat
          exact ht (.name k :: pre) m post s (by rw [hp]; rfl) (.member hn hat)
      | _ => rw [getP, if_neg hk] <;> simp

theorem at_unique {j : J} {p : List Leg} {x y : J} (h : At j p x) (h' : At j p y) : x = y := by
  induction h with
  | here j => cases h'; rfl
  | elem h _ ih =>
    cases h' with
    | elem h1 h2 => rw [h] at h1; cases h1; exact ih h2
  | member h _ ih =>
    cases h' with
    | member h1 h2 => rw [h] at h1; cases h1; exact ih h2

/-- **C37**, JSON_EXTRACT of a path without wildcard: the value the path leads to; NULL when it leads nowhere. -/
theorem C37_extract (j : J) (hj : j ≠ .null) (p : List Leg) (hp : ∀ x ∈ p, PlainLeg x) (hs : NoStar p) :
    (∀ x, At j p x → extract j [pathText p] = x) ∧
    (NoTextIndex j p → (∀ x, ¬ At j p x) → extract j [pathText p] = .null) := by
  have e : extract j [pathText p] = getP j p := by
    cases j <;> first | exact absurd rfl hj | (simp only [extract, C37_path_roundtrip p hp])
  rw [e]
  exact ⟨fun x h => get_at h hs, fun ht h => get_not hs ht h⟩

/-! ### Writing -/

theorem entry_put (k k' : Str) (v : J) (d : List (Str × J)) :
    entry k' (put k v d) = if k = k' then some v else entry k' d := by
  rw [← lookup_entry, ← lookup_entry]
  induction d with
  | nil => by_cases h : k = k' <;> simp [put, lookup, h]
  | cons x d ih =>
    obtain ⟨k1, v1⟩ := x
    by_cases h1 : k1 = k
    · subst h1
      by_cases h : k1 = k' <;> simp [put, lookup, h]
    · by_cases h : k1 = k'
      · subst h
        simp [put, h1, lookup, Ne.symm h1]
      · simp only [put, h1, if_false, lookup, h, ih]

/-- The document in which the value at `p` is replaced. -/
theorem set_at {j c : J} {pre : List Leg} {leg : Leg} (h : At j pre c) (hf : Fits c leg) (v : J) :
    At (setP j (pre ++ [leg]) v) (pre ++ [leg]) v := by
  induction h with
  | here j =>
    cases j <;> cases leg <;> simp only [Fits] at hf
    · rename_i l n
      rw [List.nil_append, setP]
      simp only [if_true]
      by_cases hn : l.length ≤ n
      · rw [if_pos hn]
        have : n = l.length := by omega
        exact .elem (by simp [this]) (.here v)
      · rw [if_neg hn]
        exact .elem (List.getElem?_set_self (by omega)) (.here v)
    · rename_i d k
      rw [List.nil_append, setP]
      simp only [if_true]
      exact .member (by rw [entry_put, if_pos rfl]) (.here v)
  | @elem l n y p x hy _ ih =>
    rw [List.cons_append, setP]
    have hne : p ++ [leg] ≠ [] := by simp
    simp only [hne, if_false, hy]
    refine .elem ?_ (ih hf)
    have : n < l.length := by
      rw [List.getElem?_eq_some_iff] at hy; exact hy.1
    simp [this]
  | @member d k y p x hy _ ih =>
    rw [List.cons_append, setP]
    have hne : p ++ [leg] ≠ [] := by simp
    simp only [hne, if_false, lookup_entry, hy]
    exact .member (by rw [entry_put, if_pos rfl]) (ih hf)

/-- Two paths that part somewhere. -/
def Disjoint (p q : List Leg) : Prop := ¬ p <+: q ∧ ¬ q <+: p

theorem disjoint_cons {x y : Leg} {p q : List Leg} (h : Disjoint (x :: p) (y :: q)) : x ≠ y ∨ (x = y ∧ Disjoint p q) := by
  by_cases hxy : x = y
  · subst hxy
    refine Or.inr ⟨rfl, fun h' => h.1 ?_, fun h' => h.2 ?_⟩
    · exact List.cons_prefix_cons.2 ⟨rfl, h'⟩
    · exact List.cons_prefix_cons.2 ⟨rfl, h'⟩
  · exact Or.inl hxy

theorem not_disjoint_nil {p : List Leg} : ¬ Disjoint p [] := fun h => h.2 (List.nil_prefix)

theorem at_elem_iff {l : List J} {n : Nat} {p : List Leg} {x : J} :
    At (.arr l) (.idx n :: p) x ↔ ∃ y, l[n]? = some y ∧ At y p x :=
  ⟨fun h => by cases h with | elem h1 h2 => exact ⟨_, h1, h2⟩, fun ⟨_, h1, h2⟩ => .elem h1 h2⟩

theorem at_member_iff {d : List (Str × J)} {k : Str} {p : List Leg} {x : J} :
    At (.obj d) (.name k :: p) x ↔ ∃ y, entry k d = some y ∧ At y p x :=
  ⟨fun h => by cases h with | member h1 h2 => exact ⟨_, h1, h2⟩, fun ⟨_, h1, h2⟩ => .member h1 h2⟩

theorem at_arr_name {l : List J} {k : Str} {p : List Leg} {x : J} : ¬ At (.arr l) (.name k :: p) x := by intro h; cases h
theorem at_obj_idx {d : List (Str × J)} {n : Nat} {p : List Leg} {x : J} : ¬ At (.obj d) (.idx n :: p) x := by intro h; cases h

theorem set_other {j c : J} {pre : List Leg} {leg : Leg} (h : At j pre c) (hf : Fits c leg) (v : J) (q : List Leg)
    (hd : Disjoint (pre ++ [leg]) q) (x : J) : At (setP j (pre ++ [leg]) v) q x ↔ At j q x := by
  induction h generalizing q with
  | here j =>
    cases q with
    | nil => exact absurd hd not_disjoint_nil
    | cons a q =>
      have hne : leg ≠ a := by
        rcases disjoint_cons hd with h | ⟨_, h⟩
        · exact h
        · exact absurd (List.nil_prefix) h.1
      cases j <;> cases leg <;> simp only [Fits] at hf
      · rename_i l n
        rw [List.nil_append, setP]
        simp only [if_true]
        cases a with
        | name k => split <;> exact ⟨fun h => absurd h at_arr_name, fun h => absurd h at_arr_name⟩
        | idx m =>
          have hmn : n ≠ m := fun e => hne (by rw [e])
          split
          · rename_i hn
            have : n = l.length := by omega
            rw [at_elem_iff, at_elem_iff]
            have e : (l ++ [v])[m]? = l[m]? := by
              by_cases hm : m < l.length
              · rw [List.getElem?_append_left hm]
              · rw [List.getElem?_eq_none (l := l ++ [v]) (by rw [List.length_append]; simp only [List.length_cons, List.length_nil]; omega),
                  List.getElem?_eq_none (l := l) (by omega)]
            rw [e]
          · rw [at_elem_iff, at_elem_iff, List.getElem?_set_ne hmn]
      · rename_i d k
        rw [List.nil_append, setP]
        simp only [if_true]
        cases a with
        | idx n => exact ⟨fun h => absurd h at_obj_idx, fun h => absurd h at_obj_idx⟩
        | name k' =>
          have hk : k ≠ k' := fun e => hne (by rw [e])
          rw [at_member_iff, at_member_iff, entry_put, if_neg hk]
  | @elem l n y p c hy hat ih =>
    rw [List.cons_append] at hd ⊢
    rw [setP]
    have hne : p ++ [leg] ≠ [] := by simp
    simp only [hne, if_false, hy]
    cases q with
    | nil => exact absurd hd not_disjoint_nil
    | cons a q =>
      cases a with
      | name k => exact ⟨fun h => absurd h at_arr_name, fun h => absurd h at_arr_name⟩
      | idx m =>
        rw [at_elem_iff, at_elem_iff]
        rcases disjoint_cons hd with h | ⟨h, hd'⟩
        · have hmn : n ≠ m := fun e => h (by rw [e])
          rw [List.getElem?_set_ne hmn]
        · injection h with h
          subst h
          have hlt : n < l.length := by rw [List.getElem?_eq_some_iff] at hy; exact hy.1
          rw [List.getElem?_set_self hlt, hy]
          simp only [Option.some.injEq, exists_eq_left']
          exact ih hf q hd'
  | @member d k y p c hy hat ih =>
    rw [List.cons_append] at hd ⊢
    rw [setP]
    have hne : p ++ [leg] ≠ [] := by simp
    simp only [hne, if_false, lookup_entry, hy]
    cases q with
    | nil => exact absurd hd not_disjoint_nil
    | cons a q =>
      cases a with
      | idx n => exact ⟨fun h => absurd h at_obj_idx, fun h => absurd h at_obj_idx⟩
      | name k' =>
        rw [at_member_iff, at_member_iff, entry_put]
        rcases disjoint_cons hd with h | ⟨h, hd'⟩
        · have hk : k ≠ k' := fun e => h (by rw [e])
          rw [if_neg hk]
        · injection h with h
          subst h
          rw [if_pos rfl, hy]
          simp only [Option.some.injEq, exists_eq_left']
          exact ih hf q hd'

/-- **C37**, JSON_SET then JSON_EXTRACT: when the parent of the path exists and can take the last leg, the path afterwards
leads to the value set, and every disjoint path leads exactly where it led before. -/
theorem C37_set_extract (j c v : J) (pre : List Leg) (leg : Leg) (hp : ∀ x ∈ pre ++ [leg], PlainLeg x)
    (hat : At j pre c) (hf : Fits c leg) :
    At (jsonSet j [(pathText (pre ++ [leg]), v)]) (pre ++ [leg]) v ∧
    (NoStar (pre ++ [leg]) → extract (jsonSet j [(pathText (pre ++ [leg]), v)]) [pathText (pre ++ [leg])] = v) ∧
    ∀ q, Disjoint (pre ++ [leg]) q → ∀ x, At (jsonSet j [(pathText (pre ++ [leg]), v)]) q x ↔ At j q x := by
  have e : jsonSet j [(pathText (pre ++ [leg]), v)] = setP j (pre ++ [leg]) v := by
    rw [jsonSet, jsonSet, C37_path_roundtrip _ hp]
  rw [e]
  have h1 := set_at hat hf v
  refine ⟨h1, fun hs => ?_, fun q hd x => set_other hat hf v q hd x⟩
  refine (C37_extract _ ?_ _ hp hs).1 v h1
  intro hnull
  rw [hnull] at h1
  cases pre <;> cases h1

/-- JSON_SET on a path whose parent does not exist, or cannot take the leg, changes nothing. -/
theorem set_noop (j v : J) (pre : List Leg) (leg : Leg)
    (h : ∀ c, At j pre c → ∀ l n, ¬(c = .arr l ∧ leg = .idx n) ∧ ∀ d k, ¬(c = .obj d ∧ leg = .name k)) :
    setP j (pre ++ [leg]) v = j := by
  induction pre generalizing j with
  | nil =>
    have h' := h j (.here j)
    cases j <;> cases leg <;> try rfl
    · rename_i l n; exact absurd ⟨rfl, rfl⟩ (h' l n).1
    · rename_i d k; exact absurd ⟨rfl, rfl⟩ ((h' [] 0).2 d k)
  | cons a pre ih =>
    have hne : pre ++ [leg] ≠ [] := by simp
    rw [List.cons_append]
    cases a with
    | idx n =>
      cases j with
      | arr l =>
        rw [setP]
        simp only [hne, if_false]
        cases hn : l[n]? with
        | none => rfl
        | some y =>
          simp only
          rw [ih y fun c hc => h c (.elem hn hc)]
          obtain ⟨hlt, rfl⟩ := List.getElem?_eq_some_iff.1 hn
          rw [List.set_getElem_self]
      | _ => rw [setP]; simp
    | name k =>
      cases j with
      | obj d =>
        rw [setP]
        simp only [hne, if_false]
        cases hn : lookup k d with
        | none => rfl
        | some y =>
          simp only
          rw [ih y fun c hc => h c (.member (by rw [← lookup_entry]; exact hn) hc)]
          congr 1
          clear h ih
          induction d with
          | nil => simp [lookup] at hn
          | cons z d ihd =>
            obtain ⟨k', w⟩ := z
            rw [lookup] at hn
            by_cases hk : k' = k
            · rw [if_pos hk] at hn
              cases hn
              rw [put, if_pos hk]
            · rw [if_neg hk] at hn
              rw [put, if_neg hk, ihd hn]
      | _ => rw [setP]; simp

/-- **C37**: otherwise JSON_SET changes nothing. -/
theorem C37_set_unaddressable (j v : J) (pre : List Leg) (leg : Leg) (hp : ∀ x ∈ pre ++ [leg], PlainLeg x)
    (h : ∀ c, At j pre c → (∀ l n, ¬(c = .arr l ∧ leg = .idx n)) ∧ ∀ d k, ¬(c = .obj d ∧ leg = .name k)) :
    jsonSet j [(pathText (pre ++ [leg]), v)] = j := by
  rw [jsonSet, jsonSet, C37_path_roundtrip _ hp]
  exact set_noop j v pre leg fun c hc l n => ⟨(h c hc).1 l n, (h c hc).2⟩

/-- **C37 is violated by indexes into texts**: JSON_EXTRACT('{"a": "xy"}', '$.a[0]') is 'x' instead of NULL. -/
theorem C37_text_index_violated :
    extract (.obj [(['a'], .str ['x', 'y'])]) [pathText [.name ['a'], .idx 0]] = .str ['x'] := by
  have : legs (pathText [.name ['a'], .idx 0]) = [.name ['a'], .idx 0] := C37_path_roundtrip _ (by
    intro x hx
    simp only [List.mem_cons, List.not_mem_nil, or_false] at hx
    rcases hx with rfl | rfl <;> simp [PlainLeg])
  rw [extract, this]
  · rfl
  · simp

/-- C37 applies to `{"a": [1, {"b": 2}]}` and the paths `$.a[1].c` (new member) and `$.a[2]` (appended). -/
example : At (.obj [(['a'], .arr [.int 1, .obj [(['b'], .int 2)]])]) [.name ['a'], .idx 1] (.obj [(['b'], .int 2)]) ∧
    Fits (.obj [(['b'], .int 2)]) (.name ['c']) ∧
    At (.obj [(['a'], .arr [.int 1, .obj [(['b'], .int 2)]])]) [.name ['a']] (.arr [.int 1, .obj [(['b'], .int 2)]]) ∧
    Fits (.arr [.int 1, .obj [(['b'], .int 2)]]) (.idx 2) :=
  ⟨.member rfl (.elem rfl (.here _)), trivial, .member rfl (.here _), by simp [Fits]⟩

/-! ## C38 -/

theorem entry_pop (k k' : Str) (d : List (Str × J)) (hn : (d.map (·.1)).Nodup) :
    entry k' (pop k d) = if k = k' then none else entry k' d := by
  rw [← lookup_entry, ← lookup_entry]
  induction d with
  | nil => by_cases h : k = k' <;> simp [pop, lookup, h]
  | cons x d ih =>
    obtain ⟨k1, v1⟩ := x
    simp only [List.map_cons, List.nodup_cons] at hn
    have hnone : ∀ (d : List (Str × J)) k, k ∉ d.map (·.1) → lookup k d = none := by
      intro d k hk
      induction d with
      | nil => rfl
      | cons y d ih => simp only [List.map_cons, List.mem_cons, not_or] at hk; simp [lookup, Ne.symm hk.1, ih hk.2]
    by_cases h1 : k1 = k
    · subst h1
      by_cases h : k1 = k'
      · subst h; simp [pop, hnone d k1 hn.1]
      · simp [pop, lookup, h]
    · by_cases h : k1 = k'
      · subst h
        simp [pop, h1, lookup, Ne.symm h1]
      · simp only [pop, h1, if_false, lookup, h, ih hn.2]

/-- What JSON_REMOVE makes of the container the last leg points into. -/
def removed : J → Leg → J
  | .obj d, .name k => .obj (pop k d)
  | .arr l, .idx n => .arr (l.eraseIdx n)
  | j, _ => j

/-- The last leg names a member of the container. -/
def Member : J → Leg → Prop
  | .obj d, .name k => (entry k d).isSome
  | .arr l, .idx n => n < l.length
  | _, _ => False

/-- All legs are names. -/
def Names (p : List Leg) : Prop := ∀ x ∈ p, ∃ k, x = Leg.name k

theorem remove_at {j c : J} {pre : List Leg} {leg : Leg} (h : At j pre c) (hm : Member c leg) (hn : Names pre) :
    At (removeP j (pre ++ [leg])) pre (removed c leg) ∧
    ∀ q, Disjoint pre q → ∀ x, At (removeP j (pre ++ [leg])) q x ↔ At j q x := by
  induction h with
  | here j =>
    refine ⟨?_, fun q hd => absurd (List.nil_prefix) hd.1⟩
    cases j <;> cases leg <;> simp only [Member] at hm
    · rw [List.nil_append, removeP]; simp only [if_true, removed]; exact .here _
    · rename_i d k
      rw [List.nil_append, removeP]
      rw [← lookup_entry] at hm
      cases hl : lookup k d with
      | none => simp [hl] at hm
      | some y => simp only [if_true, removed]; exact .here _
  | elem h _ _ => obtain ⟨k, hk⟩ := hn _ (List.mem_cons_self); simp at hk
  | @member d k y p c hy hat ih =>
    have hne : p ++ [leg] ≠ [] := by simp
    obtain ⟨ih1, ih2⟩ := ih hm fun x hx => hn x (List.mem_cons_of_mem _ hx)
    rw [List.cons_append, removeP]
    simp only [lookup_entry, hy, hne, if_false]
    refine ⟨.member (by rw [entry_put, if_pos rfl]) ih1, fun q hd x => ?_⟩
    cases q with
    | nil => exact absurd hd not_disjoint_nil
    | cons a q =>
      cases a with
      | idx n => exact ⟨fun h => absurd h at_obj_idx, fun h => absurd h at_obj_idx⟩
      | name k' =>
        rw [at_member_iff, at_member_iff, entry_put]
        rcases disjoint_cons hd with h | ⟨h, hd'⟩
        · have hk : k ≠ k' := fun e => h (by rw [e])
          rw [if_neg hk]
        · injection h with h
          subst h
          rw [if_pos rfl, hy]
          simp only [Option.some.injEq, exists_eq_left']
          exact ih2 q hd' x

theorem at_append {j c x : J} {p q : List Leg} (h : At j p c) (h' : At c q x) : At j (p ++ q) x := by
  induction h with
  | here j => exact h'
  | elem h1 _ ih => exact .elem h1 (ih h')
  | member h1 _ ih => exact .member h1 (ih h')

theorem at_append_iff {j c x : J} {p q : List Leg} (h : At j p c) : At j (p ++ q) x ↔ At c q x := by
  refine ⟨fun h' => ?_, at_append h⟩
  induction h with
  | here j => exact h'
  | elem h1 _ ih =>
    rw [List.cons_append, at_elem_iff] at h'
    obtain ⟨y, hy, h'⟩ := h'
    rw [h1] at hy; cases hy
    exact ih h'
  | member h1 _ ih =>
    rw [List.cons_append, at_member_iff] at h'
    obtain ⟨y, hy, h'⟩ := h'
    rw [h1] at hy; cases hy
    exact ih h'

/-- **C38**, removing a member of an object (all legs but the last being names): afterwards the path leads nowhere, and every
disjoint path leads exactly where it led before. -/
theorem C38_remove_member_partial (j : J) (pre : List Leg) (k : Str) (d : List (Str × J))
    (hp : ∀ x ∈ pre ++ [.name k], PlainLeg x) (hn : Names pre) (hat : At j pre (.obj d)) (hm : (entry k d).isSome)
    (hnd : (d.map (·.1)).Nodup) :
    (∀ q x, ¬ At (jsonRemove j [pathText (pre ++ [.name k])]) (pre ++ .name k :: q) x) ∧
    ∀ q, Disjoint (pre ++ [.name k]) q → ∀ x, At (jsonRemove j [pathText (pre ++ [.name k])]) q x ↔ At j q x := by
  have e : jsonRemove j [pathText (pre ++ [.name k])] = removeP j (pre ++ [.name k]) := by
    rw [jsonRemove, jsonRemove, C37_path_roundtrip _ hp]
  rw [e]
  obtain ⟨h1, h2⟩ := remove_at (leg := .name k) hat hm hn
  simp only [removed] at h1
  constructor
  · intro q x hx
    rw [at_append_iff h1, at_member_iff, entry_pop _ _ _ hnd, if_pos rfl] at hx
    obtain ⟨y, hy, _⟩ := hx
    simp at hy
  · intro q hd x
    by_cases hpq : pre <+: q
    · obtain ⟨r, rfl⟩ := hpq
      rw [at_append_iff h1, at_append_iff hat]
      cases r with
      | nil => exact absurd (by simp : pre ++ [] <+: pre ++ [.name k]) hd.2
      | cons a r =>
        cases a with
        | idx n => exact ⟨fun h => absurd h at_obj_idx, fun h => absurd h at_obj_idx⟩
        | name k' =>
          have hk : k ≠ k' := by
            rintro rfl
            exact hd.1 (by simp)
          rw [at_member_iff, at_member_iff, entry_pop _ _ _ hnd, if_neg hk]
    · refine h2 q ⟨hpq, fun h' => hd.2 (h'.trans (List.prefix_append _ _))⟩ x

/-- **C38**, removing an element of an array (all legs but the last being names): the elements before it stay, those after it
move down by one, and every path that does not pass through the array leads where it led before. -/
theorem C38_remove_element_partial (j : J) (pre : List Leg) (n : Nat) (l : List J)
    (hp : ∀ x ∈ pre ++ [.idx n], PlainLeg x) (hn : Names pre) (hat : At j pre (.arr l)) (hm : n < l.length) :
    (∀ i r x, At (jsonRemove j [pathText (pre ++ [.idx n])]) (pre ++ .idx i :: r) x ↔
      At j (pre ++ .idx (if i < n then i else i + 1) :: r) x) ∧
    ∀ q, Disjoint pre q → ∀ x, At (jsonRemove j [pathText (pre ++ [.idx n])]) q x ↔ At j q x := by
  have e : jsonRemove j [pathText (pre ++ [.idx n])] = removeP j (pre ++ [.idx n]) := by
    rw [jsonRemove, jsonRemove, C37_path_roundtrip _ hp]
  rw [e]
  obtain ⟨h1, h2⟩ := remove_at (leg := .idx n) hat hm hn
  simp only [removed] at h1
  refine ⟨fun i r x => ?_, h2⟩
  rw [at_append_iff h1, at_append_iff hat, at_elem_iff, at_elem_iff, List.getElem?_eraseIdx]
  split <;> simp_all

/-- **C38 is violated when a leg before the last is an index**: JSON_REMOVE('{"a": [{"b": 1, "c": 2}, 3]}', '$.a[0].b') deletes
the whole element 0. -/
theorem C38_index_leg_violated :
    jsonRemove (.obj [(['a'], .arr [.obj [(['b'], .int 1), (['c'], .int 2)], .int 3])])
      [pathText [.name ['a'], .idx 0, .name ['b']]] = .obj [(['a'], .arr [.int 3])] := by
  have : legs (pathText [.name ['a'], .idx 0, .name ['b']]) = [.name ['a'], .idx 0, .name ['b']] := C37_path_roundtrip _ (by
    intro x hx
    simp only [List.mem_cons, List.not_mem_nil, or_false] at hx
    rcases hx with rfl | rfl | rfl <;> simp [PlainLeg])
  rw [jsonRemove, jsonRemove, this]
  simp [removeP, lookup, put]

/-- More generally, for every array and every path through it. -/
theorem C38_index_leg_general (l : List J) (n : Nat) (k : Str) (ks : List Leg) :
    removeP (.arr l) (.idx n :: .name k :: ks) = .arr (l.eraseIdx n) := by
  rw [removeP]; simp only [reduceCtorEq, if_false]; rw [removeP]; simp

/-- C38 applies to `$.a.b` in `{"a": {"b": 1, "c": 2}}`. -/
example : Names [Leg.name ['a']] ∧ At (.obj [(['a'], .obj [(['b'], .int 1), (['c'], .int 2)])]) [.name ['a']]
    (.obj [(['b'], .int 1), (['c'], .int 2)]) ∧ (entry ['b'] [(['b'], J.int 1), (['c'], .int 2)]).isSome :=
  ⟨fun x hx => ⟨['a'], by simpa using hx⟩, .member rfl (.here _), rfl⟩

end Verif.Props
