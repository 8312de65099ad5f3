import Verif.Model.Functions
import Verif.Spec.Functions
import Verif.Props.Scalar
import Verif.Props.Bits
import Verif.Props.Split
import Verif.Props.Str
import Verif.Props.StrSearch
import Verif.Proofs.RawSql
import Verif.Props.Nest
/-!
The functions of SQL as a statement calls them, C185.
-/
namespace Verif.Props
open Verif.Val Verif.Text Verif.SqlFunctions

namespace FunctionsLemmas
variable (py : Py) (same : Char → Char → Bool) (other : Str → List Val → Val)

theorem ensureNumber_num {x : Val} {p : Rat} (h : SqlFunctions.Num x p) : ∃ n, py.ensureNumber x = some n ∧ n.toRat = p ∧ x ≠ .null := by
  cases h with
  | int i => exact ⟨.int i, rfl, rfl, by simp⟩
  | flt => exact ⟨.flt p, rfl, rfl, by simp⟩

theorem arRaw_num {x y : Val} {p q : Rat} (op : Ar) (hx : SqlFunctions.Num x p) (hy : SqlFunctions.Num y q) :
    ∃ m n, py.ar op x y = caught ((op.apply m n).map Num.toVal) ∧ m.toRat = p ∧ n.toRat = q ∧
      (Fractional x y → ∀ i j, ¬ (m = .int i ∧ n = .int j)) := by
  obtain ⟨m, hm, hmp, hx0⟩ := ensureNumber_num py hx
  obtain ⟨n, hn, hnq, hy0⟩ := ensureNumber_num py hy
  refine ⟨m, n, ?_, hmp, hnq, ?_⟩
  · unfold Py.ar Py.arRaw
    rw [if_neg (by simp [hx0, hy0]), hm, hn]
  · rintro ⟨r, rfl | rfl⟩ i j ⟨rfl, rfl⟩
    · simp [Py.ensureNumber] at hm
    · simp [Py.ensureNumber] at hn

theorem binary_ar (op : Ar) {x y : Val} (h : x = .null ∨ y = .null) : py.ar op x y = .null := by
  rcases h with rfl | rfl
  · exact ((C27_arithmetic_null py y).1 op).1
  · exact ((C27_arithmetic_null py x).1 op).2

theorem twoTexts_null {f : Str → Str → Val} {x y : Val} (h : x = .null ∨ y = .null) : caught (Str.twoTexts py f x y) = .null := by
  unfold Str.twoTexts
  rw [if_pos h]; rfl

theorem like_null {x y : Val} (h : x = .null ∨ y = .null) : Str.like same x y = .null := by
  rcases h with rfl | rfl
  · exact (C36_like_null same y).1
  · exact (C36_like_null same x).2

theorem simple_split : ∀ r : Str, Simple r → (∃ r', r = r' ++ ['%']) ∧ NoDouble r ∧ '_' ∉ r
  | [], h => h.elim
  | [c], h => by
    by_cases hc : c = '%'
    · subst hc; exact ⟨⟨[], rfl⟩, by simp [NoDouble], by simp⟩
    · exfalso
      unfold Simple at h
      split at h <;> simp_all [Simple]
  | c :: d :: r, h => by
    have hr : Simple (d :: r) := by
      unfold Simple at h
      split at h <;> simp_all
    have hn : ¬ (c = '%' ∧ d = '%') := by
      rintro ⟨rfl, rfl⟩
      simp [Simple] at h
    have hu : c ≠ '_' := by
      rintro rfl
      simp [Simple] at h
    obtain ⟨⟨r', he⟩, hd, hm⟩ := simple_split (d :: r) hr
    refine ⟨⟨c :: r', by rw [he]; rfl⟩, ?_, ?_⟩
    · unfold NoDouble
      split
      · rename_i h'
        injection h' with h1 h2
        injection h2 with h2 _
        exact hn ⟨h1, h2⟩
      · rename_i h'
        injection h' with _ h2
        rw [← h2]; exact hd
      · trivial
    · simp only [List.mem_cons, not_or] at hm ⊢
      exact ⟨fun e => hu e.symm, hm⟩

theorem concat_call (args : List Val) : Call.sqlCalls py same other "concat".toList args = Str.concat py args := by
  show (Option.getD (Call.Fn.apply { params := 0, rest := true, body := Str.concatRaw py } args) .null) = _
  unfold Call.Fn.apply
  simp [Str.concat, caught]

theorem floor_num {x : Val} {p : Rat} (h : SqlFunctions.Num x p) :
    ∃ f : Int, py.floor x = .int f ∧ ∀ k : Int, (k : Rat) ≤ p ↔ k ≤ f := by
  cases h with
  | int i => exact ⟨i, (C51_integers py i none).1, fun k => Rat.intCast_le_intCast⟩
  | flt =>
    obtain ⟨f, c, hf, -, h, -⟩ := C51_floor_ceil py p
    exact ⟨f, hf, h⟩

theorem ceil_num {x : Val} {p : Rat} (h : SqlFunctions.Num x p) :
    ∃ f : Int, py.ceil x = .int f ∧ ∀ k : Int, p ≤ (k : Rat) ↔ f ≤ k := by
  cases h with
  | int i => exact ⟨i, (C51_integers py i none).2.1, fun k => Rat.intCast_le_intCast⟩
  | flt =>
    obtain ⟨f, c, -, hc, -, h⟩ := C51_floor_ceil py p
    exact ⟨c, hc, h⟩

theorem sign_num {x : Val} {p : Rat} (h : SqlFunctions.Num x p) :
    py.sign x = .int (if p = 0 then 0 else if p < 0 then -1 else 1) := by
  cases h with
  | int i => rfl
  | flt q => rfl

theorem isBlank_iff (c : Char) : isBlank c = true ↔ White c := by
  simp [isBlank, White]

theorem replace_call (s a b : Str) (ha : a ≠ []) {r : Str} (h : Replaced a b s r) :
    Str.mysqlReplace py (.str s) (.str a) (.str b) = .str r := by
  induction h with
  | none h => exact (C35_replace py (v := .str _) rfl a b ha).1 h
  | first h _ ih =>
    obtain ⟨r', h1, h2⟩ := (C35_replace py (v := .str _) rfl a b ha).2 _ _ h
    rw [h2]
    rw [ih] at h1
    injection h1 with h1
    rw [h1]

theorem twoTexts_bool (f : Str → Str → Bool) (s t : Str) :
    caught (Str.twoTexts py (fun s t => ofBool (f s t)) (.str s) (.str t)) = .int 1 ∨
    caught (Str.twoTexts py (fun s t => ofBool (f s t)) (.str s) (.str t)) = .int 0 := by
  show ofBool (f s t) = _ ∨ ofBool (f s t) = _
  cases f s t
  · exact Or.inr rfl
  · exact Or.inl rfl

theorem like_bool (r s : Str) : Str.like same (.str s) (.str r) = .int 1 ∨ Str.like same (.str s) (.str r) = .int 0 := by
  show ofBool _ = _ ∨ ofBool _ = _
  cases Str.reMatch same (Str.likeToks r) s
  · exact Or.inr rfl
  · exact Or.inl rfl

theorem like_iff {r s : Str} (hr : Simple r) (hs : '\n' ∉ s) : Str.like same (.str s) (.str r) = .int 1 ↔ Like same r s := by
  obtain ⟨⟨r', e⟩, hd, hu⟩ := simple_split r hr
  exact (C36_like_partial same r s hd hu hs).2 r' e

end FunctionsLemmas
open FunctionsLemmas

variable (py : Py) (same : Char → Char → Bool) (other : Str → List Val → Val)

theorem C185_function {f : Str} {args : List Val} {v : Val} (h : Std same f args v) : Call.sqlCalls py same other f args = v := by
  cases h with
  | binary_null hf h =>
    simp only [List.map_cons, List.map_nil, List.mem_cons, List.not_mem_nil, or_false] at hf
    rename_i x y
    rcases hf with rfl | rfl | rfl | rfl | rfl | rfl | rfl | rfl | rfl
    · exact binary_ar py .add h
    · exact binary_ar py .sub h
    · exact binary_ar py .mul h
    · exact binary_ar py .div h
    · exact binary_ar py .mod h
    · exact twoTexts_null py h
    · exact twoTexts_null py h
    · exact twoTexts_null py h
    · exact like_null same h
  | unary_null hf =>
    simp only [List.map_cons, List.map_nil, List.mem_cons, List.not_mem_nil, or_false] at hf
    rcases hf with rfl | rfl | rfl | rfl | rfl | rfl | rfl | rfl | rfl | rfl <;> rfl
  | first_null hf =>
    simp only [List.map_cons, List.map_nil, List.mem_cons, List.not_mem_nil, or_false] at hf
    rcases hf with rfl | rfl | rfl | rfl | rfl <;> rfl
  | concat_null h => exact (concat_call py same other args).trans (C35_concat_null py args h)
  | add_int a b => exact (C30_integer_arithmetic py a b).1
  | sub_int a b => exact (C30_integer_arithmetic py a b).2.1
  | mul_int a b => exact (C30_integer_arithmetic py a b).2.2.1
  | add hx hy h =>
    obtain ⟨m, n, e, rfl, rfl, hf⟩ := arRaw_num py .add hx hy
    refine Eq.trans ?_ (e.trans ?_)
    · rfl
    · cases m <;> cases n <;> first | rfl | exact absurd ⟨rfl, rfl⟩ (hf h _ _)
  | sub hx hy h =>
    obtain ⟨m, n, e, rfl, rfl, hf⟩ := arRaw_num py .sub hx hy
    refine Eq.trans ?_ (e.trans ?_)
    · rfl
    · cases m <;> cases n <;> first | rfl | exact absurd ⟨rfl, rfl⟩ (hf h _ _)
  | mul hx hy h =>
    obtain ⟨m, n, e, rfl, rfl, hf⟩ := arRaw_num py .mul hx hy
    refine Eq.trans ?_ (e.trans ?_)
    · rfl
    · cases m <;> cases n <;> first | rfl | exact absurd ⟨rfl, rfl⟩ (hf h _ _)
  | div hx hy h =>
    obtain ⟨m, n, e, rfl, rfl, -⟩ := arRaw_num py .div hx hy
    refine Eq.trans ?_ (e.trans ?_)
    · rfl
    · rw [Ar.apply, if_neg h]; rfl
  | div_zero hx hy h =>
    obtain ⟨m, n, e, rfl, rfl, -⟩ := arRaw_num py .div hx hy
    refine Eq.trans ?_ (e.trans ?_)
    · rfl
    · rw [Ar.apply, if_pos h]; rfl
  | mod a b h =>
    have hb : ¬ ((b : Int) = 0) := by omega
    have e : py.ar .mod (.int a) (.int b) = .int ((a : Int).fmod b) := by
      show caught ((Ar.apply .mod (.int a) (.int b)).map Num.toVal) = _
      rw [Ar.apply, if_neg hb]; rfl
    refine Eq.trans ?_ (e.trans ?_)
    · rfl
    · rw [Int.fmod_eq_emod_of_nonneg _ (by omega)]; rfl
  | mod_zero hx hy h =>
    obtain ⟨m, n, e, rfl, hq, -⟩ := arRaw_num py .mod hx hy
    refine Eq.trans ?_ (e.trans ?_)
    · rfl
    · rw [← hq] at h
      cases m <;> cases n
      · rename_i a b
        have hb : b = 0 := by
          have : (b : Rat) = 0 := h
          exact_mod_cast this
        rw [Ar.apply, if_pos hb]; rfl
      all_goals (rw [Ar.apply, if_pos h] <;> first | rfl | (intros; simp_all))
  | abs_int a =>
    refine Eq.trans (C51_integers py a none).2.2.2.1 ?_
    congr 1
    split <;> omega
  | abs_flt a => rfl
  | floor n h h1 h2 =>
    obtain ⟨f, e, hf⟩ := floor_num py h
    refine Eq.trans e ?_
    have h3 : n ≤ f := (hf n).1 h1
    have h4 : ¬ n + 1 ≤ f := fun h => Rat.not_lt.2 ((hf (n + 1)).2 h) (by rw [Rat.intCast_add]; exact h2)
    exact congrArg Val.int (by omega)
  | ceil hf n h h1 h2 =>
    obtain ⟨c, e, hc⟩ := ceil_num py h
    have h3 : c ≤ n := (hc n).1 h1
    have h4 : ¬ c ≤ n - 1 := fun h => by
      have h5 := (hc (n - 1)).2 h
      rw [Rat.intCast_sub] at h5
      have h6 : ((n : Rat) - (1 : Int)) + 1 = n := Rat.sub_add_cancel
      have h7 := Rat.add_le_add_right (c := 1) |>.2 h5
      rw [h6] at h7
      exact Rat.not_lt.2 h7 h2
    have e' : py.ceil _ = .int n := e.trans (congrArg Val.int (by omega))
    rcases hf with rfl | rfl
    · exact e'
    · exact e'
  | sign_neg h hp =>
    refine Eq.trans (sign_num py h) ?_
    rw [if_neg (fun e => Rat.lt_irrefl (e ▸ hp)), if_pos hp]
  | sign_zero h hp =>
    refine Eq.trans (sign_num py h) ?_
    rw [if_pos hp]
  | sign_pos h hp =>
    refine Eq.trans (sign_num py h) ?_
    rw [if_neg (fun e => Rat.lt_irrefl (e ▸ hp)), if_neg (fun h => Rat.not_lt.2 (Rat.le_of_lt h) hp)]
  | char_length hf s => rcases hf with rfl | rfl <;> rfl
  | length s h =>
    obtain ⟨n, e, -, -, -, hl⟩ := C32_length s
    refine Eq.trans e ?_
    rw [hl.2 h]
  | concat l =>
    refine (concat_call py same other _).trans (C35_concat py _ l ?_)
    induction l with
    | nil => rfl
    | cons s l ih => simp only [List.map_cons, List.mapM_cons, ih]; rfl
  | left s n => exact C32_left py (v := .str s) rfl n
  | right s n h => exact C32_right py (v := .str s) rfl n h
  | substring hf s n h =>
    obtain ⟨n, rfl⟩ : ∃ k, n = k + 1 := ⟨n - 1, by omega⟩
    rcases hf with rfl | rfl <;> exact C32_substring py (v := .str s) rfl n
  | substring_length hf s n l h =>
    obtain ⟨n, rfl⟩ : ∃ k, n = k + 1 := ⟨n - 1, by omega⟩
    rcases hf with rfl | rfl <;> exact C32_substring_length py (v := .str s) rfl n l
  | «repeat» s n => exact (C35_repeat py (v := .str s) rfl n).1
  | reverse s => rfl
  | trim x t y hx hy ht =>
    have hb : isBlank ' ' = true := rfl
    have hno : ∀ c, ¬ White c → isBlank c = false := fun c h => by
      cases e : isBlank c
      · rfl
      · exact absurd ((isBlank_iff c).1 e) h
    have e : Verif.Val.strip (x ++ (t ++ y)) = t :=
      Verif.RawSql.strip_blanks (isS := isBlank) (fun c h => by rw [hx c h]; exact hb) (fun c h => by rw [hy c h]; exact hb)
        ⟨fun c h => hno c (ht.1 c h), fun c h => hno c (ht.2 c h)⟩
    rw [List.append_assoc]
    exact congrArg Val.str e
  | replace h hr => exact replace_call py _ _ _ h hr
  | startswith_yes s x => exact (C33_affixes py (a := .str (s ++ x)) (b := .str s) rfl rfl).1.2 ⟨x, rfl⟩
  | startswith_no h =>
    refine (twoTexts_bool py _ _ _).resolve_left fun e => ?_
    obtain ⟨x, hx⟩ := (C33_affixes py (a := .str _) (b := .str _) rfl rfl).1.1 e
    exact h x hx.symm
  | endswith_yes s x => exact (C33_affixes py (a := .str (x ++ s)) (b := .str s) rfl rfl).2.1.2 ⟨x, rfl⟩
  | endswith_no h =>
    refine (twoTexts_bool py _ _ _).resolve_left fun e => ?_
    obtain ⟨x, hx⟩ := (C33_affixes py (a := .str _) (b := .str _) rfl rfl).2.1.1 e
    exact h x hx.symm
  | contains_yes s x y => exact (C33_affixes py (a := .str (x ++ s ++ y)) (b := .str s) rfl rfl).2.2.2 ⟨x, y, rfl⟩
  | contains_no h =>
    refine (twoTexts_bool py _ _ _).resolve_left fun e => ?_
    obtain ⟨x, y, hx⟩ := (C33_affixes py (a := .str _) (b := .str _) rfl rfl).2.2.1 e
    exact h x y hx.symm
  | like_yes hr hs h => exact (like_iff same hr hs).2 h
  | like_no hr hs h => exact (like_bool same _ _).resolve_left fun e => h ((like_iff same hr hs).1 e)

/-- **C185** So SQL's meaning of a function is a value, not several; and the program has a meaning that agrees with SQL's. -/
theorem C185_implements : Implements same (Call.sqlCalls py same other) := fun _ _ _ h => C185_function py same other h

namespace FunctionsLemmas
open Verif.Expr

theorem strCmp_cases : ∀ s t : Str, (strCmp s t = .eq ∧ s = t) ∨ (strCmp s t = .lt ∧ Earlier s t) ∨ (strCmp s t = .gt ∧ Earlier t s)
  | [], [] => Or.inl ⟨rfl, rfl⟩
  | [], b :: t => Or.inr (Or.inl ⟨rfl, Or.inl ⟨b, t, rfl⟩⟩)
  | a :: s, [] => Or.inr (Or.inr ⟨rfl, Or.inl ⟨a, s, rfl⟩⟩)
  | a :: s, b :: t => by
    unfold strCmp
    split
    · rename_i h; exact Or.inr (Or.inl ⟨rfl, Or.inr ⟨[], a, b, s, t, rfl, rfl, h⟩⟩)
    split
    · rename_i h; exact Or.inr (Or.inr ⟨rfl, Or.inr ⟨[], b, a, t, s, rfl, rfl, h⟩⟩)
    rename_i h1 h2
    have hab : a = b := by
      have : a.toNat = b.toNat := by omega
      exact Char.toNat_inj.1 this
    subst hab
    have lift : ∀ {s t : Str}, Earlier s t → Earlier (a :: s) (a :: t) := by
      rintro s t (⟨c, r, rfl⟩ | ⟨p, c, d, s', t', rfl, rfl, h⟩)
      · exact Or.inl ⟨c, r, rfl⟩
      · exact Or.inr ⟨a :: p, c, d, s', t', rfl, rfl, h⟩
    rcases strCmp_cases s t with ⟨h, rfl⟩ | ⟨h, h'⟩ | ⟨h, h'⟩
    · exact Or.inl ⟨h, rfl⟩
    · exact Or.inr (Or.inl ⟨h, lift h'⟩)
    · exact Or.inr (Or.inr ⟨h, lift h'⟩)

theorem earlier_irrefl (s : Str) : ¬ Earlier s s := by
  rintro (⟨c, r, h⟩ | ⟨p, c, d, s', t', h, h', hlt⟩)
  · have := congrArg List.length h
    simp at this
  · rw [h] at h'
    have := List.append_cancel_left h'
    injection this with this _
    subst this
    omega

theorem strCmp_swap' (s t : Str) : strCmp t s = (strCmp s t).swap := strCmp_swap s t

theorem earlier_iff (s t : Str) : Earlier s t ↔ strCmp s t = .lt := by
  have asymm : ∀ s t : Str, Earlier s t → strCmp s t = .lt := by
    rintro s t (⟨c, r, rfl⟩ | ⟨p, c, d, s', t', rfl, rfl, h⟩)
    · induction s with
      | nil => rfl
      | cons a s ih =>
        rw [List.cons_append, strCmp, if_neg (Nat.lt_irrefl _), if_neg (Nat.lt_irrefl _)]
        exact ih
    · induction p with
      | nil => rw [List.nil_append, List.nil_append, strCmp, if_pos h]
      | cons a p ih =>
        rw [List.cons_append, List.cons_append, strCmp, if_neg (Nat.lt_irrefl _), if_neg (Nat.lt_irrefl _)]
        exact ih
  refine ⟨asymm s t, fun h => ?_⟩
  rcases strCmp_cases s t with ⟨h', _⟩ | ⟨_, h'⟩ | ⟨h', _⟩
  · rw [h] at h'; cases h'
  · exact h'
  · rw [h] at h'; cases h'

theorem text_holds (op : Cmp) (s t : Str) : op.holds (strCmp s t) = true ↔ CmpText s t op := by
  have hgt : Earlier t s ↔ strCmp s t = .gt := by
    rw [earlier_iff, strCmp_swap' s t]
    cases strCmp s t <;> simp [Ordering.swap]
  have heq : s = t ↔ strCmp s t = .eq := by
    constructor
    · rintro rfl
      rcases strCmp_cases s s with ⟨h, _⟩ | ⟨_, h⟩ | ⟨_, h⟩
      · exact h
      · exact absurd h (earlier_irrefl s)
      · exact absurd h (earlier_irrefl s)
    · intro h
      rcases strCmp_cases s t with ⟨_, h'⟩ | ⟨h', _⟩ | ⟨h', _⟩
      · exact h'
      · rw [h] at h'; cases h'
      · rw [h] at h'; cases h'
  cases op <;> simp only [CmpText, Cmp.holds, hgt, earlier_iff s t, heq, ne_eq, decide_eq_true_eq] <;> cases strCmp s t <;> simp

theorem num_holds (op : Cmp) (p q : Rat) : op.holds (ratCmp p q) = true ↔ CmpNum p q op := by
  unfold ratCmp
  split
  · rename_i h
    have hne : p ≠ q := fun e => Rat.lt_irrefl (e ▸ h)
    have hnl : ¬ q < p := fun h' => Rat.not_lt.2 (Rat.le_of_lt h) h'
    cases op <;> simp [CmpNum, Cmp.holds, hne, hnl, h, Rat.le_of_lt h, Rat.not_le.2 h]
  · rename_i h
    split
    · rename_i h'
      have hne : p ≠ q := fun e => Rat.lt_irrefl (e ▸ h')
      cases op <;> simp [CmpNum, Cmp.holds, hne, h, h', Rat.le_of_lt h', Rat.not_le.2 h']
    · rename_i h'
      have he : p = q := Rat.le_antisymm (Rat.not_lt.1 h') (Rat.not_lt.1 h)
      subst he
      cases op <;> simp [CmpNum, Cmp.holds, Rat.le_refl, Rat.lt_irrefl]

theorem num_kind {x y : Val} {p q : Rat} (hx : SqlFunctions.Num x p) (hy : SqlFunctions.Num y q) : SameKind x y ∧ kindCmp x y = ratCmp p q := by
  cases hx <;> cases hy <;> simp [SameKind, kindCmp, numeric]

end FunctionsLemmas

/-- **C185**: comparisons of two numbers, two texts or NULL are SQL's. -/
theorem C185_comparison {op : Cmp} {x y v : Val} (h : StdCmp op x y v) : py.cmp op x y = v := by
  cases h with
  | null h =>
    rcases h with rfl | rfl
    · exact (C27_comparison_null py op y).1
    · exact (C27_comparison_null py op x).2
  | num_yes hx hy h =>
    rw [cmp_kind py op (num_kind hx hy).1, (num_kind hx hy).2, (num_holds op _ _).2 h]; rfl
  | num_no hx hy h =>
    rw [cmp_kind py op (num_kind hx hy).1, (num_kind hx hy).2]
    cases e : op.holds (ratCmp _ _)
    · rfl
    · exact absurd ((num_holds op _ _).1 e) h
  | text_yes h =>
    rw [cmp_kind py op (by trivial)]
    show ofBool (op.holds (strCmp _ _)) = _
    rw [(text_holds op _ _).2 h]; rfl
  | text_no h =>
    rw [cmp_kind py op (by trivial)]
    show ofBool (op.holds (strCmp _ _)) = _
    cases e : op.holds (strCmp _ _)
    · rfl
    · exact absurd ((text_holds op _ _).1 e) h

/-- **C185** So the program's comparisons agree with SQL's. -/
theorem C185_implements_comparisons : ImplementsCmp py.cmp := fun _ _ _ _ h => C185_comparison py h

namespace FunctionsLemmas
open Verif.Expr Verif.Sql Verif.Select Verif.SqlSelect
variable {same} {text : Str → Bool} {cf cg : Cmp → Val → Val → Val} {f g : Str → List Val → Val}

/-- Agreeing with SQL's functions and comparisons. -/
def Both (same : Char → Char → Bool) (cmp : Cmp → Val → Val → Val) (f : Str → List Val → Val) : Prop := Implements same f ∧ ImplementsCmp cmp

theorem in3_same {p p' : Val → Option Bool} : ∀ (l : List Val), (∀ x ∈ l, p x = p' x) → in3 p l = in3 p' l
  | [], _ => rfl
  | x :: l, h => by
    show Sql.or3 (p x) (in3 p l) = Sql.or3 (p' x) (in3 p' l)
    rw [h x (by simp), in3_same l fun y hy => h y (by simp [hy])]

section
variable (hf : Both same cf f) (hg : Both same cg g) (row : Str → Val)
include hf hg

mutual
theorem sem_within : ∀ (e : E), Within same text cg g row e → sem text cf f row e = sem text cg g row e
  | .lit _, _ => by simp [sem]
  | .col c, _ => by simp [sem]
  | .cmp op a b, h => by
    simp only [Within] at h
    obtain ⟨h1, h2, w, hw⟩ := h
    simp only [sem]
    rw [sem_within a h1, sem_within b h2, hf.2 _ _ _ _ hw, hg.2 _ _ _ _ hw]
  | .and a b, h => by simp only [Within] at h; simp only [sem]; rw [sem_within a h.1, sem_within b h.2]
  | .or a b, h => by simp only [Within] at h; simp only [sem]; rw [sem_within a h.1, sem_within b h.2]
  | .not a, h => by simp only [Within] at h; simp only [sem]; rw [sem_within a h]
  | .is a k, h => by simp only [Within] at h; cases k <;> simp only [sem] <;> rw [sem_within a h]
  | .inl a l, h => by
    simp only [Within] at h
    simp only [sem]
    rw [sem_within a h.1, semL_within l h.2.1]
    exact congrArg ofTri (in3_same _ fun x hx => by
      obtain ⟨w, hw⟩ := h.2.2 x hx
      rw [hf.2 _ _ _ _ hw, hg.2 _ _ _ _ hw])
  | .between a lo hi, h => by
    simp only [Within] at h
    obtain ⟨h1, h2, h3, ⟨w, hw⟩, w', hw'⟩ := h
    simp only [sem]
    rw [sem_within a h1, sem_within lo h2, sem_within hi h3, hf.2 _ _ _ _ hw, hg.2 _ _ _ _ hw, hf.2 _ _ _ _ hw', hg.2 _ _ _ _ hw']
  | .paren a, h => by simp only [Within] at h; simp only [sem]; rw [sem_within a h]
  | .ite c t e, h => by
    simp only [Within] at h; simp only [sem]; rw [sem_within c h.1, sem_within t h.2.1, sem_within e h.2.2]
  | .ifnull a b, h => by simp only [Within] at h; simp only [sem]; rw [sem_within a h.1, sem_within b h.2]
  | .coalesce a l, h => by simp only [Within] at h; simp only [sem]; rw [sem_within a h.1, semL_within l h.2]
  | .caseC ws, h => by simp only [Within] at h; simp only [sem]; rw [semW_within ws none h]
  | .caseV a ws, h => by simp only [Within] at h; simp only [sem]; rw [sem_within a h.1, semW_within ws _ h.2]
  | .call n l, h => by
    simp only [Within] at h
    obtain ⟨hl, v, hv⟩ := h
    simp only [sem]
    rw [semL_within l hl, hf.1 _ _ _ hv, hg.1 _ _ _ hv]
theorem semL_within : ∀ (l : EL), WithinL same text cg g row l → semL text cf f row l = semL text cg g row l
  | .nil, _ => by simp [semL]
  | .cons e l, h => by simp only [WithinL] at h; simp only [semL]; rw [sem_within e h.1, semL_within l h.2]
theorem semW_within : ∀ (l : WL) (v : Option Val), WithinW same text cg g row v l → semW text cf f row v l = semW text cg g row v l
  | .noElse, v, _ => by simp [semW]
  | .els e, v, h => by simp only [WithinW] at h; simp only [semW]; rw [sem_within e h]
  | .when c t ws, v, h => by
    simp only [WithinW] at h
    simp only [semW]
    rw [sem_within c h.1, sem_within t h.2.1, semW_within ws v h.2.2.1]
    cases v with
    | none => rfl
    | some x =>
      obtain ⟨w, hw⟩ := h.2.2.2 x rfl
      simp only [hf.2 _ _ _ _ hw, hg.2 _ _ _ _ hw]
end
end

theorem sorted_congr {α : Type} {ι : Type} (le : Val → Val → Bool) (items : List ι) (k k' : ι → α → Val) (d : ι → Bool) (rows out : List α)
    (h : ∀ i ∈ items, ∀ a ∈ rows, k i a = k' i a) (hs : SqlOrder.Sorted le (items.map fun i => (k i, d i)) rows out) :
    SqlOrder.Sorted le (items.map fun i => (k' i, d i)) rows out := by
  have hle : ∀ a ∈ rows, ∀ b ∈ rows, (SqlOrder.Le le (items.map fun i => (k i, d i)) a b ↔
      SqlOrder.Le le (items.map fun i => (k' i, d i)) a b) := by
    intro a ha b hb
    clear hs
    induction items with
    | nil => simp [SqlOrder.Le]
    | cons i items ih =>
      simp only [List.map_cons, SqlOrder.Le]
      rw [h i (by simp) a ha, h i (by simp) b hb, ih fun j hj => h j (by simp [hj])]
  have hmem : ∀ a ∈ out, a ∈ rows := fun a ha => hs.perm.mem_iff.1 ha
  refine ⟨hs.perm, ?_, ?_⟩
  · refine hs.ascending.imp_of_mem ?_
    intro a b ha hb h
    exact (hle a (hmem a ha) b (hmem b hb)).1 h
  · intro p hp
    classical
    have e1 : out.filter p = out.filter fun a => p a && decide (a ∈ rows) :=
      List.filter_congr fun a ha => by rw [decide_eq_true (hmem a ha), Bool.and_true]
    have e2 : rows.filter p = rows.filter fun a => p a && decide (a ∈ rows) :=
      List.filter_congr fun a ha => by rw [decide_eq_true ha, Bool.and_true]
    rw [e1, e2]
    refine hs.stable _ ?_
    intro a b ha hb
    simp only [Bool.and_eq_true, decide_eq_true_eq] at ha hb
    exact (hle a ha.2 b hb.2).2 (hp a b ha.1 hb.1)

section
variable {S : Type} (q : Query S) (rows : List Row)

/-- The expressions of the query have the same value for both. -/
structure SameOn (text : Str → Bool) (cf cg : Cmp → Val → Val → Val) (f g : Str → List Val → Val) (q : Query S) (rows : List Row) : Prop where
  exprs : ∀ e, AcceptSpec.ExprOf q e → ∀ r ∈ rows, sem text cf f r e = sem text cg g r e
  having : ∀ e ∈ q.having, ∀ members : List Row, (∀ r ∈ members, r ∈ rows) →
    sem text cf f (fun n => colVal n (project text cg g q.cols members)) e =
      sem text cg g (fun n => colVal n (project text cg g q.cols members)) e

variable {q rows} (h : SameOn text cf cg f g q rows)
include h

theorem project_same (members : List Row) (hm : ∀ r ∈ members, r ∈ rows) :
    project text cf f q.cols members = project text cg g q.cols members := by
  unfold project
  refine List.map_congr_left fun c hc => ?_
  obtain ⟨n, it⟩ := c
  cases it with
  | expr e =>
    simp only [Prod.mk.injEq, true_and]
    cases hh : members.head? with
    | none => rfl
    | some r => exact h.exprs e (.column hc) r (hm r (List.mem_of_mem_head? (by simp [hh])))
  | agg args final =>
    simp only [Prod.mk.injEq, true_and]
    congr 1
    refine List.map_congr_left fun a ha => ?_
    congr 1
    exact List.map_congr_left fun r hr => h.exprs a.2 (.arg hc ha) r (hm r hr)

theorem cond_same (r : Row) (hr : r ∈ rows) : satisfies text cf f q.cond r = satisfies text cg g q.cond r := by
  unfold satisfies
  split
  · rfl
  · rename_i e he
    rw [h.exprs e (.cond he) r hr]

theorem having_same (members : List Row) (hm : ∀ r ∈ members, r ∈ rows) :
    satisfies text cf f q.having (fun n => colVal n (project text cg g q.cols members)) =
      satisfies text cg g q.having (fun n => colVal n (project text cg g q.cols members)) := by
  unfold satisfies
  split
  · rfl
  · rename_i e he
    rw [h.having e he members hm]

theorem groups_same (members : List Row) (hm : ∀ r ∈ members, r ∈ rows) :
    groupsOf text cf f q members = groupsOf text cg g q members := by
  have ha : ∀ c l e, aliased c l = some e → ∃ k, (k, Select.Item.expr (S := S) e) ∈ l := by
    intro c l
    induction l with
    | nil => intro e h; simp [aliased] at h
    | cons x l ih =>
      obtain ⟨k, it⟩ := x
      intro e h
      cases it with
      | expr e' =>
        simp only [aliased] at h
        split at h
        · injection h with h; subst h; exact ⟨k, by simp⟩
        · obtain ⟨k', hk⟩ := ih e h; exact ⟨k', by simp [hk]⟩
      | agg args final =>
        simp only [aliased] at h
        obtain ⟨k', hk⟩ := ih e h
        exact ⟨k', by simp [hk]⟩
  unfold groupsOf
  split
  · rfl
  · congr 2
    refine List.map_congr_left fun r hr => ?_
    rw [Prod.mk.injEq]
    refine ⟨List.map_congr_left fun k hk => congrArg Agg.keyOf ?_, rfl⟩
    cases k with
    | bare c =>
      simp only [groupValue]
      cases hc : aliased c q.cols with
      | none => rfl
      | some e =>
        obtain ⟨n, hn⟩ := ha c q.cols e hc
        exact h.exprs e (.column hn) r (hm r hr)
    | expr e => exact h.exprs e (.key hk) r (hm r hr)

omit h in
theorem groups_mem (members : List Row) (l : List Row) (hl : l ∈ groupsOf text cg g q members) : ∀ r ∈ l, r ∈ members := by
  unfold groupsOf at hl
  split at hl
  · simp only [List.mem_singleton] at hl; subst hl; exact fun r hr => hr
  · simp only [GroupSpec.groupBy, List.map_map, List.mem_map, Function.comp] at hl
    obtain ⟨k, -, rfl⟩ := hl
    intro r hr
    simp only [GroupSpec.group, List.mem_map, List.mem_filter] at hr
    obtain ⟨⟨k', r'⟩, ⟨⟨r'', h, e⟩, -⟩, rfl⟩ := hr
    injection e with _ e
    subst e; exact h

theorem rows_same {le : Val → Val → Bool} {out : List Out} (hr : RowResult text cf f le q rows out) : RowResult text cg g le q rows out := by
  obtain ⟨sorted, hs, rfl⟩ := hr
  have hp : ∀ r ∈ rows, project text cf f q.cols [r] = project text cg g q.cols [r] := fun r hr =>
    project_same h [r] fun r' h' => by simp only [List.mem_singleton] at h'; subst h'; exact hr
  have hfil : (rows.filter fun r => satisfies text cf f q.cond r && satisfies text cf f q.having (fun n => colVal n (project text cf f q.cols [r]))) =
      rows.filter fun r => satisfies text cg g q.cond r && satisfies text cg g q.having (fun n => colVal n (project text cg g q.cols [r])) := by
    refine List.filter_congr fun r hr => ?_
    rw [cond_same h r hr, hp r hr, having_same h [r] fun r' h' => by simp only [List.mem_singleton] at h'; subst h'; exact hr]
  refine ⟨sorted, ?_, ?_⟩
  · simp only [hfil] at hs ⊢
    refine sorted_congr le q.order _ _ (fun i => i.2) _ sorted ?_ hs
    intro i _ a ha
    have ha' := (List.mem_filter.1 ha).1
    obtain ⟨i, d⟩ := i
    rcases i with ⟨_ | t, n⟩ | _ | c <;> simp only [SqlOrder.value, hp a ha']
  · congr 1
    refine List.map_congr_left fun r hr => (hp r ?_).symm ▸ rfl
    have := hs.perm.mem_iff.1 hr
    exact (List.mem_filter.1 this).1

theorem grouped_same {le : Val → Val → Bool} {out : List Out} (hr : GroupResult text cf f le q rows out) :
    GroupResult text cg g le q rows out := by
  obtain ⟨members, sorted, hm, hn, hs, ho, rfl⟩ := hr
  have hfil : rows.filter (satisfies text cf f q.cond) = rows.filter (satisfies text cg g q.cond) :=
    List.filter_congr fun r hr => cond_same h r hr
  rw [hfil] at hm hn
  have hsub : ∀ r ∈ members, r ∈ rows := fun r hr => (List.mem_filter.1 (hm.mem_iff.1 hr)).1
  refine ⟨members, sorted, hm, hn, ?_, ho, rfl⟩
  refine hs.trans ?_
  rw [groups_same h members hsub]
  have e : (groupsOf text cg g q members).map (project text cf f q.cols) = (groupsOf text cg g q members).map (project text cg g q.cols) :=
    List.map_congr_left fun l hl => project_same h l fun r hr => hsub r (groups_mem members l hl r hr)
  rw [e]
  refine List.Perm.of_eq (List.filter_congr fun o ho => ?_)
  obtain ⟨l, hl, rfl⟩ := List.mem_map.1 ho
  exact having_same h l fun r hr => hsub r (groups_mem members l hl r hr)

theorem distinct_same {le : Val → Val → Bool} {out : List Out} (hr : DistinctResult text cf f le q rows out) :
    DistinctResult text cg g le q rows out := by
  obtain ⟨sorted, hn, hm, ho, rfl⟩ := hr
  refine ⟨sorted, hn, fun o => ?_, ho, rfl⟩
  rw [hm o]
  have hs : ∀ r ∈ rows, ∀ r' ∈ [r], r' ∈ rows := fun r hr r' h' => by simp only [List.mem_singleton] at h'; subst h'; exact hr
  constructor
  · rintro ⟨r, hr, h1, h2, e⟩
    simp only [] at h2 e
    rw [project_same h [r] (hs r hr)] at h2 e
    exact ⟨r, hr, (cond_same h r hr).symm.trans h1, (having_same h [r] (hs r hr)).symm.trans h2, e⟩
  · rintro ⟨r, hr, h1, h2, e⟩
    simp only [] at h2 e
    rw [← project_same h [r] (hs r hr)] at e
    refine ⟨r, hr, (cond_same h r hr).trans h1, ?_, e⟩
    simp only []
    rw [project_same h [r] (hs r hr)]
    exact (having_same h [r] (hs r hr)).trans h2

end

theorem within_same {S : Type} {q : Query S} {rows : List Row} (hf : Both same cf f) (hg : Both same cg g)
    (h : QueryWithin same text cg g q rows) : SameOn text cf cg f g q rows where
  exprs e he r hr := sem_within hf hg r e (h.exprs e he r hr)
  having e he members hm := sem_within hf hg _ e (h.having e he members hm)

theorem query_within {S : Type} {q : Query S} {rows : List Row} {le : Val → Val → Bool} {out : List Out} (hf : Both same cf f)
    (hg : Both same cg g) (h : QueryWithin same text cg g q rows) (hr : SqlNest.QueryResult text cf f le q rows out) :
    SqlNest.QueryResult text cg g le q rows out := by
  have hs := within_same hf hg h
  unfold SqlNest.QueryResult at hr ⊢
  split at hr
  · rename_i c; rw [if_pos c]; exact grouped_same hs hr
  · rename_i c; rw [if_neg c]
    split at hr
    · rename_i c; rw [if_pos c]; exact distinct_same hs hr
    · rename_i c; rw [if_neg c]; exact rows_same hs hr

theorem means_within {S : Type} {le : Val → Val → Bool} (hf : Both same cf f) (hg : Both same cg g) (e : Nest.Rel S) :
    ∀ (env : Str → List Out) (out : List Out), StatementWithin same text cg g le env e → SqlNest.Means text cf f le env e out →
      SqlNest.Means text cg g le env e out := by
  induction e with
  | scan t => intro env out _ h; exact h
  | select q src ih =>
    intro env out hw ⟨rows, h1, h2⟩
    have := ih env rows hw.1 h1
    exact ⟨rows, this, query_within hf hg (hw.2 rows this) h2⟩
  | union l r ihl ihr =>
    intro env out hw ⟨a, b, h1, h2, e⟩
    exact ⟨a, b, ihl env a hw.1 h1, ihr env b hw.2 h2, e⟩
  | withq n d b ihd ihb =>
    intro env out hw ⟨rows, h1, h2⟩
    have := ihd env rows hw.1 h1
    exact ⟨rows, this, ihb _ out (hw.2 rows this) h2⟩

end FunctionsLemmas

section
open Verif.Expr Verif.Sql Verif.Where Verif.Select Verif.SqlSelect Verif.Nest Verif.SqlNest Verif.Props.Nested
variable {S : Type} (text : Str → Bool)

/-- **C185**: an expression has the value SQL gives it, whatever `sql` and `cmp` say of the functions and comparisons where SQL leaves
them open. -/
theorem C185_expression (cmp : Cmp → Val → Val → Val) (hcmp : ImplementsCmp cmp) (sql : Str → List Val → Val) (hsql : Implements same sql)
    (row : Str → Val) (e : E) (h : Within same text cmp sql row e) :
    sem text py.cmp (Call.sqlCalls py same other) row e = sem text cmp sql row e :=
  sem_within ⟨C185_implements py same other, C185_implements_comparisons py⟩ ⟨hsql, hcmp⟩ row e h

/-- **C185**: a statement with functions and comparisons — in the select list, in WHERE (LIKE among them), GROUP BY, HAVING, arguments of
aggregates — returns SQL's result with SQL's functions and comparisons. -/
theorem C185_statement_partial (cmp : Cmp → Val → Val → Val) (hcmp : ImplementsCmp cmp) (sql : Str → List Val → Val) (hsql : Implements same sql)
    (en : Engine) (ht : ∀ x y, en.le x y = true ∨ en.le y x = true)
    (htr : ∀ x y z, en.le x y = true → en.le y z = true → en.le x z = true) (hf : Faithful py en.src)
    (hchunk : ∀ l, (en.chunk l).flatMap (·.1) = l) (e : Nest.Rel S) (db : Store) (out : List Out)
    (h : Nest.result py (Call.sqlCalls py same other) en db e = some out) (hs : Scoped e) (ha : Aligned e)
    (hok : Ok text py (Call.sqlCalls py same other) en db e) (hfresh : ∀ n ∈ bound e, db n = [])
    (hw : StatementWithin same text cmp sql en.le db e) : Means text cmp sql en.le db e out :=
  means_within ⟨C185_implements py same other, C185_implements_comparisons py⟩ ⟨hsql, hcmp⟩ e db out hw
    (C144_nested_partial text py (Call.sqlCalls py same other) en ht htr hf hchunk e db out h hs ha hok hfresh)

end

end Verif.Props
