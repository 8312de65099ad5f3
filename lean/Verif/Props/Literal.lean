import Verif.Spec.Literal
/-! C68: constants.  C69: INSERT … VALUES. -/
namespace Verif.Props
open Verif.Val Verif.Literal Verif.SqlLiteral

/-! ## C68 -/

theorem decode_plain (c : Char) (rest : List Char) (h : c ≠ '\\') : decode (c :: rest) = (decode rest).map (c :: ·) := by
  rw [decode]
  all_goals
    intros
    contradiction

theorem decode_simple (a b : Char) (rest : List Char) (ho : octDigit a = none) (hs : simpleEscape a = some b)
    (hx : a ≠ 'x' ∧ a ≠ 'u' ∧ a ≠ 'U' ∧ a ≠ 'N' ∧ a ≠ '\n') :
    decode ('\\' :: a :: rest) = (decode rest).map (b :: ·) := by
  obtain ⟨h1, h2, h3, h4, h5⟩ := hx
  match rest with
  | [] => rw [decode] <;> simp_all [decode]
  | [x] => rw [decode] <;> simp_all [decode]
  | x :: y :: r => rw [decode] <;> simp_all

/-- Without backslashes nothing fails. -/
theorem decode_id (l : List Char) (h : ∀ c ∈ l, c ≠ '\\') : decode l = some l := by
  induction l with
  | nil => rw [decode]
  | cons c l ih =>
    rw [decode_plain c l (h c (by simp)), ih fun x hx => h x (by simp [hx])]
    rfl

theorem toNat_ofNat {n : Nat} (h : n < 500) : (Char.ofNat n).toNat = n := by
  have hv : n.isValidChar := Or.inl (by omega)
  rw [Char.ofNat, dif_pos hv]
  simp [Char.toNat, Char.ofNatAux, UInt32.toNat]

theorem utf8_no_backslash (c : Char) (h : c.toNat ≤ 256) (hc : c ≠ '\\') : ∀ x ∈ utf8 c, x ≠ '\\' := by
  unfold utf8
  split
  · intro x hx; rw [List.mem_singleton.mp hx]; exact hc
  · rename_i h1
    intro x hx
    simp only [List.mem_cons, List.not_mem_nil, or_false] at hx
    have b1 : 192 + c.toNat / 64 < 500 := by omega
    have b2 : 128 + c.toNat % 64 < 500 := by omega
    rcases hx with rfl | rfl
    · intro hh
      have := congrArg Char.toNat hh
      rw [toNat_ofNat b1] at this
      have h2 : '\\'.toNat = 92 := rfl
      omega
    · intro hh
      have := congrArg Char.toNat hh
      rw [toNat_ofNat b2] at this
      have h2 : '\\'.toNat = 92 := rfl
      omega

/-- What becomes of a character of a literal. -/
def reread (c : Char) : List Char := if c.toNat ≤ 256 then utf8 c else [c]

theorem pieces_plain (s : List Char) (h : ∀ c ∈ s, c ≠ '\\') : ∀ p : List Char, (∀ c ∈ p, c ≠ '\\' ∧ c.toNat ≤ 256) →
    pieces p s = some (p.flatMap utf8 ++ s.flatMap reread) := by
  have dec : ∀ p : List Char, (∀ c ∈ p, c ≠ '\\' ∧ c.toNat ≤ 256) → decode (p.flatMap utf8) = some (p.flatMap utf8) := by
    intro p hp
    apply decode_id
    intro x hx
    obtain ⟨c, hc, hx⟩ := List.mem_flatMap.mp hx
    exact utf8_no_backslash c (hp c hc).2 (hp c hc).1 x hx
  induction s with
  | nil => intro p hp; rw [pieces, dec p hp]; simp
  | cons c s ih =>
    intro p hp
    have ih := ih fun x hx => h x (by simp [hx])
    rw [pieces]
    by_cases hc : c.toNat ≤ 256
    · rw [if_pos hc, ih (p ++ [c]) (by
        intro x hx
        rcases List.mem_append.mp hx with g | g
        · exact hp x g
        · rw [List.mem_singleton.mp g]; exact ⟨h c (by simp), hc⟩)]
      simp [reread, hc]
    · rw [if_neg hc, dec p hp, ih [] (by simp)]
      simp [reread, hc]

theorem textValue_plain (s : List Char) (h : ∀ c ∈ s, c ≠ '\\') : textValue s = s.flatMap reread := by
  rw [textValue, pieces_plain s h [] (by simp)]
  simp

/-- **C68** A literal without backslashes is its own text exactly when it has no character from code 128 to 256: other letters, as in
Chinese text, are kept, but each accented letter of Western Europe is replaced. -/
theorem C68_text (s : List Char) (h : ∀ c ∈ s, c ≠ '\\') : textValue s = s ↔ ∀ c ∈ s, c.toNat < 128 ∨ 256 < c.toNat := by
  have hlen : ∀ c : Char, 1 ≤ (reread c).length := by
    intro c; unfold reread utf8; split <;> (try split) <;> simp
  have hge : ∀ s : List Char, s.length ≤ (s.flatMap reread).length := by
    intro s
    induction s with
    | nil => simp
    | cons c s ih =>
      have := hlen c
      simp only [List.flatMap_cons, List.length_append, List.length_cons]
      omega
  rw [textValue_plain s h]
  constructor
  · intro heq
    induction s with
    | nil => simp
    | cons c s ih =>
      have hl := congrArg List.length heq
      simp only [List.flatMap_cons, List.length_append, List.length_cons] at hl
      have h1 := hge s
      have h2 := hlen c
      have h3 : (reread c).length = 1 := by omega
      have hc : c.toNat < 128 ∨ 256 < c.toNat := by
        by_cases g : c.toNat < 128
        · exact Or.inl g
        · by_cases g' : c.toNat ≤ 256
          · simp [reread, utf8, g, g'] at h3
          · exact Or.inr (by omega)
      have hr : reread c = [c] := by
        rcases hc with g | g
        · simp [reread, utf8, g, show c.toNat ≤ 256 by omega]
        · simp [reread, show ¬ c.toNat ≤ 256 by omega]
      rw [List.flatMap_cons, hr, List.singleton_append, List.cons.injEq] at heq
      intro x hx
      rcases List.mem_cons.mp hx with rfl | g
      · exact hc
      · exact ih (fun x hx => h x (by simp [hx])) heq.2 x g
  · intro hall
    induction s with
    | nil => rfl
    | cons c s ih =>
      have hr : reread c = [c] := by
        rcases hall c (by simp) with g | g
        · simp [reread, utf8, g, show c.toNat ≤ 256 by omega]
        · simp [reread, show ¬ c.toNat ≤ 256 by omega]
      rw [List.flatMap_cons, hr, ih (fun x hx => h x (by simp [hx])) (fun x hx => hall x (by simp [hx]))]
      rfl

/-- `'café'` becomes `'cafÃ©'`. -/
theorem C110_accent_violated : textValue "café".toList = "cafÃ©".toList := by decide +kernel

/-- **C68** What `written` escapes is read back: any text without characters of codes 128 to 256. -/
theorem C68_escapes (s : List Char) (h : ∀ c ∈ s, c.toNat < 128 ∨ 256 < c.toNat) : textValue (s.flatMap written) = s := by
  have dec1 : ∀ (c : Char) rest, decode (written c ++ rest) = (decode rest).map (c :: ·) := by
    intro c rest
    unfold written
    split
    · rename_i hc; subst hc; exact decode_simple _ _ rest (by decide) (by decide) (by decide)
    · split
      · rename_i hc; subst hc; exact decode_simple _ _ rest (by decide) (by decide) (by decide)
      · split
        · rename_i hc; subst hc; exact decode_simple _ _ rest (by decide) (by decide) (by decide)
        · split
          · rename_i hc; subst hc; exact decode_simple _ _ rest (by decide) (by decide) (by decide)
          · rename_i hc _ _ _; exact decode_plain c rest hc
  have dec : ∀ p : List Char, decode (p.flatMap written) = some p := by
    intro p
    induction p with
    | nil => rw [List.flatMap_nil, decode]
    | cons c p ih => rw [List.flatMap_cons, dec1, ih]; rfl
  have asc : ∀ c : Char, c.toNat < 128 → ∀ x ∈ written c, x.toNat < 128 := by
    intro c hc x hx
    unfold written at hx
    (repeat' split at hx) <;> simp only [List.mem_cons, List.not_mem_nil, or_false] at hx
    all_goals first
      | (rcases hx with rfl | rfl <;> decide)
      | (subst hx; exact hc)
  have utf : ∀ p : List Char, (∀ c ∈ p, c.toNat < 128) → (p.flatMap written).flatMap utf8 = p.flatMap written := by
    intro p hp
    have : ∀ l : List Char, (∀ x ∈ l, x.toNat < 128) → l.flatMap utf8 = l := by
      intro l hl
      induction l with
      | nil => rfl
      | cons x l ih =>
        rw [List.flatMap_cons, ih fun y hy => hl y (by simp [hy])]
        simp [utf8, hl x (by simp)]
    apply this
    intro x hx
    obtain ⟨c, hc, hx⟩ := List.mem_flatMap.mp hx
    exact asc c (hp c hc) x hx
  have move : ∀ (w p rest : List Char), (∀ x ∈ w, x.toNat < 128) → pieces p (w ++ rest) = pieces (p ++ w) rest := by
    intro w
    induction w with
    | nil => intro p rest _; simp
    | cons x w ih =>
      intro p rest hw
      rw [List.cons_append, pieces, if_pos (by have := hw x (by simp); omega), ih _ _ fun y hy => hw y (by simp [hy])]
      simp
  have main : ∀ (s p : List Char), (∀ c ∈ s, c.toNat < 128 ∨ 256 < c.toNat) → (∀ c ∈ p, c.toNat < 128) →
      pieces (p.flatMap written) (s.flatMap written) = some (p ++ s) := by
    intro s
    induction s with
    | nil => intro p _ hp; rw [List.flatMap_nil, pieces, utf p hp, dec]; simp
    | cons c s ih =>
      intro p hs hp
      have hs' : ∀ x ∈ s, x.toNat < 128 ∨ 256 < x.toNat := fun x hx => hs x (by simp [hx])
      rw [List.flatMap_cons]
      rcases hs c (by simp) with hc | hc
      · rw [move _ _ _ (asc c hc)]
        have := ih (p ++ [c]) hs' (by
          intro x hx
          rcases List.mem_append.mp hx with g | g
          · exact hp x g
          · rw [List.mem_singleton.mp g]; exact hc)
        simpa using this
      · have hw : written c = [c] := by
          unfold written
          have n1 : c ≠ '\\' := by rintro rfl; exact absurd hc (by decide)
          have n2 : c ≠ '\n' := by rintro rfl; exact absurd hc (by decide)
          have n3 : c ≠ '\t' := by rintro rfl; exact absurd hc (by decide)
          have n4 : c ≠ '\r' := by rintro rfl; exact absurd hc (by decide)
          simp [n1, n2, n3, n4]
        rw [hw, List.singleton_append, pieces, if_neg (by omega), utf p hp, dec]
        have := ih [] hs' (by simp)
        rw [List.flatMap_nil, List.nil_append] at this
        rw [this]
        simp
  have := main s [] h (by simp)
  rw [List.flatMap_nil, List.nil_append] at this
  rw [textValue, this]; rfl

example : textValue ("a\\b".toList.flatMap written ++ "\n青\t".toList.flatMap written) = "a\\b\n青\t".toList := by
  rw [← List.flatMap_append]
  exact C68_escapes _ (by decide)
/-- A literal that cannot be decoded is kept as it was written. -/
example : textValue "a\\x1".toList = "a\\x1".toList ∧ textValue "tab\\t.".toList = "tab\t.".toList := by decide +kernel

namespace Lit

theorem hexDigit_char (d : Fin 16) (u : Bool) : hexDigit (hexChar d u) = some d.val := by revert d u; decide
theorem octDigit_char (d : Fin 8) : octDigit (octChar d) = some d.val := by revert d; decide
theorem octChar_ne (d : Fin 8) : octChar d ≠ 'x' ∧ octChar d ≠ 'u' ∧ octChar d ≠ 'U' ∧ octChar d ≠ 'N' ∧ octChar d ≠ '\n' ∧
    octChar d ≠ '\\' := by
  revert d; decide
theorem hex_ascii (d : Fin 16) (u : Bool) : (hexChar d u).toNat < 128 := by revert d u; decide
theorem oct_ascii (d : Fin 8) : (octChar d).toNat < 128 := by revert d; decide

theorem octDigit_none {c : Char} (h : ∀ d, c ≠ octChar d) : octDigit c = none := by
  unfold octDigit
  split
  · rename_i hc
    exfalso
    obtain ⟨h1, h2⟩ := hc
    have h1 : 48 ≤ c.toNat := h1
    have h2 : c.toNat ≤ 55 := h2
    refine h ⟨c.toNat - 48, by omega⟩ ?_
    unfold octChar
    have : 48 + (c.toNat - 48) = c.toNat := by omega
    simp only [this]
    exact (Char.ofNat_toNat c).symm
  · rfl

theorem chr_valid {n : Nat} (h : n.isValidChar) : chr n = some (Char.ofNat n) := by rw [chr, if_pos h]

theorem oct_valid (ds : List (Fin 8)) (h : ds.length ≤ 3) : (number 8 (ds.map Fin.val)).isValidChar := by
  refine Or.inl ?_
  match ds, h with
  | [], _ => decide
  | [a], _ => simp only [number, List.map_cons, List.map_nil, List.foldl_cons, List.foldl_nil]; omega
  | [a, b], _ => simp only [number, List.map_cons, List.map_nil, List.foldl_cons, List.foldl_nil]; omega
  | [a, b, c], _ => simp only [number, List.map_cons, List.map_nil, List.foldl_cons, List.foldl_nil]; omega
  | _ :: _ :: _ :: _ :: _, h => simp at h

/-- What follows an octal code does not continue it. -/
def Stops (ds : List (Fin 8)) (rest : List Char) : Prop := ds.length = 3 ∨ ∀ c, rest.head? = some c → octDigit c = none

theorem decode_oct (ds : List (Fin 8)) (h1 : 1 ≤ ds.length) (h3 : ds.length ≤ 3) (rest : List Char) (hs : Stops ds rest) :
    decode ('\\' :: (ds.map octChar ++ rest)) = (decode rest).map (Char.ofNat (number 8 (ds.map Fin.val)) :: ·) := by
  have hv := chr_valid (oct_valid ds h3)
  match ds, h1, h3 with
  | [], h1, _ => simp at h1
  | [a], _, _ =>
    obtain ⟨x1, x2, x3, x4, x5, _⟩ := octChar_ne a
    have hn : ∀ c, rest.head? = some c → octDigit c = none := by
      rcases hs with h | h
      · simp at h
      · exact h
    simp only [number, List.map_cons, List.map_nil, List.foldl_cons, List.foldl_nil, Nat.mul_zero, Nat.zero_add] at hv ⊢
    match rest with
    | [] => simp only [List.cons_append, List.nil_append]; rw [decode] <;> simp_all [octDigit_char, decode]
    | [x] =>
      have := hn x rfl
      simp only [List.cons_append, List.nil_append]
      rw [decode] <;> simp_all [octDigit_char]
    | x :: y :: r =>
      have := hn x rfl
      simp only [List.cons_append, List.nil_append]
      rw [decode] <;> simp_all [octDigit_char]
  | [a, b], _, _ =>
    obtain ⟨x1, x2, x3, x4, x5, _⟩ := octChar_ne a
    have hn : ∀ c, rest.head? = some c → octDigit c = none := by
      rcases hs with h | h
      · simp at h
      · exact h
    simp only [number, List.map_cons, List.map_nil, List.foldl_cons, List.foldl_nil, Nat.mul_zero, Nat.zero_add] at hv ⊢
    match rest with
    | [] => simp only [List.cons_append, List.nil_append]; rw [decode] <;> simp_all [octDigit_char, decode]
    | x :: r =>
      have := hn x rfl
      simp only [List.cons_append, List.nil_append]
      rw [decode] <;> simp_all [octDigit_char]
  | [a, b, c], _, _ =>
    obtain ⟨x1, x2, x3, x4, x5, _⟩ := octChar_ne a
    have e : 8 * (8 * a.val + b.val) + c.val = 64 * a.val + 8 * b.val + c.val := by omega
    simp only [number, List.map_cons, List.map_nil, List.foldl_cons, List.foldl_nil, Nat.mul_zero, Nat.zero_add, e] at hv ⊢
    simp only [List.cons_append, List.nil_append]
    rw [decode] <;> simp_all [octDigit_char]
  | _ :: _ :: _ :: _ :: _, _, h => simp at h

theorem decode_hex (ds : List (Fin 16 × Bool)) (h : (Piece.hex ds).Ok) (rest : List Char) :
    decode ((Piece.hex ds).text ++ rest) = (decode rest).map (Char.ofNat (number 16 (ds.map fun d => d.1.val)) :: ·) := by
  obtain ⟨hl, hv⟩ := h
  have hc := chr_valid hv
  clear hv
  have hnum : ∀ (ds : List (Fin 16 × Bool)) (n : Nat),
      (ds.map fun d => hexChar d.1 d.2).foldl (fun acc d => acc.bind fun n => (hexDigit d).map fun k => 16 * n + k) (some n)
        = some ((ds.map fun d => d.1.val).foldl (fun n d => 16 * n + d) n) := by
    intro ds
    induction ds with
    | nil => intro n; rfl
    | cons d ds ih => intro n; simp only [List.map_cons, List.foldl_cons, Option.bind_some, hexDigit_char, Option.map_some]; exact ih _
  have hn : hexNumber (ds.map fun d => hexChar d.1 d.2) = some (number 16 (ds.map fun d => d.1.val)) := hnum ds 0
  generalize number 16 (ds.map fun d => d.1.val) = n at hc hn ⊢
  rcases hl with hl | hl | hl
  · match ds, hl with
    | [a, b], _ =>
      simp only [List.map_cons, List.map_nil] at hn
      simp only [Piece.text, hexMark, List.length_cons, List.length_nil, List.map_cons, List.map_nil, List.cons_append, List.nil_append]
      rw [decode, hn, Option.bind_some, hc, Option.bind_some]
  · match ds, hl with
    | [a, b, c, d], _ =>
      simp only [List.map_cons, List.map_nil] at hn
      simp only [Piece.text, hexMark, List.length_cons, List.length_nil, List.map_cons, List.map_nil, List.cons_append, List.nil_append]
      rw [decode, hn, Option.bind_some, hc, Option.bind_some]
  · match ds, hl with
    | [a, b, c, d, e, f, g, i], _ =>
      simp only [List.map_cons, List.map_nil] at hn
      simp only [Piece.text, hexMark, List.length_cons, List.length_nil, List.map_cons, List.map_nil, List.cons_append, List.nil_append]
      rw [decode, hn, Option.bind_some, hc, Option.bind_some]

theorem decode_other (a : Char) (h : (Piece.other a).Ok) (rest : List Char) :
    decode ('\\' :: a :: rest) = (decode rest).map fun t => '\\' :: a :: t := by
  obtain ⟨_, h⟩ := h
  simp only [List.mem_cons, List.not_mem_nil, or_false, not_or] at h
  obtain ⟨g1, g2, g3, g4, g5, g6, g7, g8, g9, g10, g11, g12, g13, g14, g15, o0, o1, o2, o3, o4, o5, o6, o7⟩ := h
  have ho : octDigit a = none := by
    apply octDigit_none
    intro d hd
    have : octChar d = '0' ∨ octChar d = '1' ∨ octChar d = '2' ∨ octChar d = '3' ∨ octChar d = '4' ∨ octChar d = '5' ∨
        octChar d = '6' ∨ octChar d = '7' := by
      clear hd; revert d; decide
    rw [← hd] at this
    simp_all
  have hs : simpleEscape a = none := by simp [simpleEscape, g1, g2, g3, g4, g5, g6, g7, g8, g9, g10]
  match rest with
  | [] => rw [decode] <;> simp_all [decode]
  | [x] => rw [decode] <;> simp_all
  | x :: y :: r => rw [decode] <;> simp_all

theorem decode_piece (p : Piece) (h : p.Ok) (rest : List Char)
    (hs : ∀ ds, p = .oct ds → Stops ds rest) : decode (p.text ++ rest) = (decode rest).map (p.means ++ ·) := by
  cases p with
  | char c => exact decode_plain c rest h.1
  | quoted c =>
    rcases h with rfl | rfl | rfl <;> exact decode_simple _ _ rest (by decide) (by decide) (by decide)
  | control a n =>
    simp only [Piece.Ok, SqlLiteral.control, List.mem_cons, List.not_mem_nil, or_false, Prod.mk.injEq] at h
    rcases h with ⟨rfl, rfl⟩ | ⟨rfl, rfl⟩ | ⟨rfl, rfl⟩ | ⟨rfl, rfl⟩ | ⟨rfl, rfl⟩ | ⟨rfl, rfl⟩ | ⟨rfl, rfl⟩ <;>
      exact decode_simple _ _ rest (by decide) (by decide) (by decide)
  | hex ds => exact decode_hex ds h rest
  | oct ds => exact decode_oct ds h.1 h.2 rest (hs ds rfl)
  | joined =>
    show decode ('\\' :: '\n' :: rest) = _
    rw [decode]
    simp [Piece.means]
  | other a => exact decode_other a h rest

theorem decode_pieces (ps : List Piece) (h : ∀ p ∈ ps, p.Ok) (he : Ends ps) :
    decode (ps.flatMap Piece.text) = some (ps.flatMap Piece.means) := by
  induction ps with
  | nil => simp only [List.flatMap_nil]; rw [decode]
  | cons p ps ih =>
    rw [List.flatMap_cons, decode_piece p (h p (by simp)), ih (fun q hq => h q (by simp [hq])) ?_]
    · simp
    · intro a ds c b hb
      exact he (p :: a) ds c b (by rw [hb]; rfl)
    · rintro ds rfl
      cases ps with
      | nil => exact .inr (by simp)
      | cons q ps =>
        have bs : octDigit '\\' = none := by decide
        cases q with
        | char c =>
          rcases he [] ds c ps rfl with h3 | h3
          · exact .inl h3
          · refine .inr fun x hx => ?_
            simp only [List.flatMap_cons, Piece.text, List.cons_append, List.head?_cons, Option.some.injEq] at hx
            subst hx
            exact octDigit_none h3
        | _ =>
          refine .inr fun x hx => ?_
          simp only [List.flatMap_cons, Piece.text, List.cons_append, List.head?_cons, Option.some.injEq] at hx
          subst hx
          exact bs

theorem text_ascii (p : Piece) (h : p.Ok) (hc : ∀ c, p = .char c → c.toNat < 128) : ∀ x ∈ p.text, x.toNat < 128 := by
  have bs : '\\'.toNat < 128 := by decide
  intro x hx
  cases p with
  | char c => simp only [Piece.text, List.mem_singleton] at hx; subst hx; exact hc _ rfl
  | quoted c =>
    simp only [Piece.text, List.mem_cons, List.not_mem_nil, or_false] at hx
    rcases hx with rfl | rfl
    · exact bs
    · rcases h with rfl | rfl | rfl <;> decide
  | control a n =>
    simp only [Piece.Ok, SqlLiteral.control, List.mem_cons, List.not_mem_nil, or_false, Prod.mk.injEq] at h
    simp only [Piece.text, List.mem_cons, List.not_mem_nil, or_false] at hx
    rcases hx with rfl | rfl
    · exact bs
    · rcases h with ⟨rfl, _⟩ | ⟨rfl, _⟩ | ⟨rfl, _⟩ | ⟨rfl, _⟩ | ⟨rfl, _⟩ | ⟨rfl, _⟩ | ⟨rfl, _⟩ <;> decide
  | hex ds =>
    simp only [Piece.text, List.mem_cons, List.mem_map] at hx
    rcases hx with rfl | rfl | ⟨d, _, rfl⟩
    · exact bs
    · unfold hexMark; split <;> decide
    · exact hex_ascii _ _
  | oct ds =>
    simp only [Piece.text, List.mem_cons, List.mem_map] at hx
    rcases hx with rfl | ⟨d, _, rfl⟩
    · exact bs
    · exact oct_ascii _
  | joined =>
    simp only [Piece.text, List.mem_cons, List.not_mem_nil, or_false] at hx
    rcases hx with rfl | rfl <;> decide
  | other a =>
    simp only [Piece.text, List.mem_cons, List.not_mem_nil, or_false] at hx
    rcases hx with rfl | rfl
    · exact bs
    · exact h.1

theorem utf8_ascii (l : List Char) (hl : ∀ x ∈ l, x.toNat < 128) : l.flatMap utf8 = l := by
  induction l with
  | nil => rfl
  | cons x l ih =>
    rw [List.flatMap_cons, ih fun y hy => hl y (by simp [hy])]
    simp [utf8, hl x (by simp)]

theorem pieces_move (w p rest : List Char) (hw : ∀ x ∈ w, x.toNat < 128) : pieces p (w ++ rest) = pieces (p ++ w) rest := by
  induction w generalizing p with
  | nil => simp
  | cons x w ih =>
    rw [List.cons_append, pieces, if_pos (by have := hw x (by simp); omega), ih _ fun y hy => hw y (by simp [hy])]
    simp

end Lit

/-- **C68** Every escape of a text stands for what it stands for in Python: a character by its code in two, four or eight hexadecimal
digits or in one to three octal digits, the control characters, quotes and backslash, nothing for a line end; and a backslash before
any other character is kept. Whatever stands before and behind it. -/
theorem C68_pieces (ps : List Piece) (h : ∀ p ∈ ps, p.Ok) (he : Ends ps) :
    textValue (ps.flatMap Piece.text) = ps.flatMap Piece.means := by
  have main : ∀ (ps acc : List Piece), (∀ p ∈ ps, p.Ok) → (∀ p ∈ acc, p.Ok ∧ ∀ c, p = .char c → c.toNat < 128) →
      Ends (acc ++ ps) → pieces (acc.flatMap Piece.text) (ps.flatMap Piece.text) = some ((acc ++ ps).flatMap Piece.means) := by
    intro ps
    induction ps with
    | nil =>
      intro acc _ ha he
      rw [List.append_nil] at he
      rw [List.flatMap_nil, pieces, Lit.utf8_ascii, Lit.decode_pieces acc (fun p hp => (ha p hp).1) he, List.append_nil]
      intro x hx
      obtain ⟨p, hp, hx⟩ := List.mem_flatMap.mp hx
      exact Lit.text_ascii p (ha p hp).1 (ha p hp).2 x hx
    | cons p ps ih =>
      intro acc hp ha he
      have hp' : ∀ q ∈ ps, q.Ok := fun q hq => hp q (by simp [hq])
      by_cases hb : ∀ c, p = .char c → c.toNat < 128
      · rw [List.flatMap_cons, Lit.pieces_move _ _ _ (Lit.text_ascii p (hp p (by simp)) hb)]
        have := ih (acc ++ [p]) hp' (by
          intro q hq
          rcases List.mem_append.mp hq with g | g
          · exact ha q g
          · rw [List.mem_singleton.mp g]; exact ⟨hp p (by simp), hb⟩) (by simpa using he)
        simpa using this
      · have : ∃ c, p = .char c ∧ 256 < c.toNat := by
          cases p with
          | char c =>
            refine ⟨c, rfl, ?_⟩
            rcases (hp (.char c) (by simp)).2 with g | g
            · exact absurd (fun c' hc' => by cases hc'; exact g) hb
            · exact g
          | _ => exact absurd (fun c hc => by cases hc) hb
        obtain ⟨c, rfl, hc⟩ := this
        have e1 : Ends acc := fun a ds c' b hb => he a ds c' (b ++ .char c :: ps) (by rw [hb]; simp)
        have e2 : Ends ([] ++ ps) := fun a ds c' b hb => he (acc ++ .char c :: a) ds c' b (by
          rw [List.nil_append] at hb; rw [hb]; simp)
        rw [List.flatMap_cons]
        show pieces _ (c :: ps.flatMap Piece.text) = _
        rw [pieces, if_neg (by omega), Lit.utf8_ascii, Lit.decode_pieces acc (fun p hp => (ha p hp).1) e1]
        · have := ih [] hp' (by simp) e2
          rw [List.flatMap_nil, List.nil_append] at this
          rw [this]
          simp [Piece.means]
        · intro x hx
          obtain ⟨q, hq, hx⟩ := List.mem_flatMap.mp hx
          exact Lit.text_ascii q (ha q hq).1 (ha q hq).2 x hx
  have := main ps [] h (by simp) (by simpa using he)
  rw [List.flatMap_nil, List.nil_append] at this
  rw [textValue, this]; rfl

/-- `\101` and `\x41` are `A`, `\12x` is a line end and `x`, `\q` stays. -/
example : textValue "青\\101\\x41\\12x\\q9".toList = "青AA\nx\\q9".toList := by
  have := C68_pieces [.char '青', .oct [1, 0, 1], .hex [(4, false), (1, false)], .oct [1, 2], .char 'x', .other 'q', .char '9']
    (by
      intro p hp
      simp only [List.mem_cons, List.not_mem_nil, or_false] at hp
      rcases hp with rfl | rfl | rfl | rfl | rfl | rfl | rfl
      · exact ⟨by decide, .inr (by decide)⟩
      · exact ⟨by decide, by decide⟩
      · exact ⟨.inl rfl, by decide⟩
      · exact ⟨by decide, by decide⟩
      · exact ⟨by decide, .inl (by decide)⟩
      · exact ⟨by decide, by decide⟩
      · exact ⟨by decide, .inl (by decide)⟩)
    (by
      intro a ds c b h
      have hl := congrArg List.length h
      simp only [List.length_cons, List.length_nil, List.length_append] at hl
      match a, h with
      | [], h => simp at h
      | [_], h => simp at h
      | [_, _], h => simp at h
      | [_, _, _], h =>
        simp only [List.cons_append, List.nil_append, List.cons.injEq, Piece.oct.injEq, Piece.char.injEq] at h
        obtain ⟨_, _, _, rfl, rfl, _⟩ := h
        exact .inr (by decide)
      | [_, _, _, _], h => simp at h
      | [_, _, _, _, _], h => simp at h
      | _ :: _ :: _ :: _ :: _ :: _ :: a, h => simp only [List.length_cons] at hl; omega)
  exact this

/-- **C68** Constants other than texts, bit strings and signs before anything but a number have their SQL value; so have
variables. -/
theorem C68_constants (env : Str → Option Val) (minus : Val → Val) :
    (∀ n : Nat, parseConst env (.int n) = value env minus (.int n) ∧ parseConst env (.neg (.int n)) = value env minus (.neg (.int n)) ∧
      parseConst env (.hex n) = value env minus (.hex n)) ∧
    (∀ q : Rat, parseConst env (.float q) = value env minus (.float q) ∧ parseConst env (.neg (.float q)) = value env minus (.neg (.float q))) ∧
    (∀ b, parseConst env (.bool b) = value env minus (.bool b)) ∧
    parseConst env .null = value env minus .null ∧ parseConst env (.neg .null) = value env minus (.neg .null) ∧
    ∀ name, parseConst env (.param name) = value env minus (.param name) :=
  ⟨fun _ => ⟨rfl, rfl, rfl⟩, fun _ => ⟨rfl, rfl⟩, fun _ => rfl, rfl, rfl, fun _ => rfl⟩

/-- **C110** The sign before anything but a number literal is accepted as a constant and lost: `-@a` is `@a`, `-x'1F'` is 31, `-'5'` is
`'5'`. -/
theorem C110_sign_violated (env : Str → Option Val) (name : Str) (n : Nat) (s : Str) :
    isConst (.neg (.param name)) = true ∧ parseConst env (.neg (.param name)) = parseConst env (.param name) ∧
    isConst (.neg (.hex n)) = true ∧ parseConst env (.neg (.hex n)) = .int n ∧
    isConst (.neg (.text s)) = true ∧ parseConst env (.neg (.text s)) = parseConst env (.text s) := ⟨rfl, rfl, rfl, rfl, rfl, rfl⟩

/-- … so with `@a = 5`, `SELECT -@a` is 5, not -5. -/
theorem C110_negated_variable_violated : parseConst (fun _ => some (.int 5)) (.neg (.param ['a'])) = .int 5 ∧
    value (fun _ => some (.int 5)) id (.neg (.param ['a'])) = .int (-5) := by decide +kernel

/-- **C110** A bit string is accepted as a constant and is NULL. -/
theorem C110_bits_violated (env : Str → Option Val) (n : Nat) : isConst (.bit n) = true ∧ parseConst env (.bit n) = .null := ⟨rfl, rfl⟩

/-! ## C69 -/

theorem dictSet_new {α : Type} (k : Str) (v : α) (d : List (Str × α)) (h : k ∉ d.map Prod.fst) : dictSet k v d = d ++ [(k, v)] := by
  induction d with
  | nil => rfl
  | cons e d ih =>
    obtain ⟨k', v'⟩ := e
    simp only [List.map_cons, List.mem_cons, not_or] at h
    rw [dictSet, if_neg (fun g => h.1 g.symm), ih h.2]; rfl

theorem insertRow_ok (cols : List (Str × Option Ty)) : ∀ (vs : List Val) (d : List (Str × Val)), vs.length ≤ cols.length →
    (cols.map Prod.fst).Nodup → (∀ n ∈ cols.map Prod.fst, n ∉ d.map Prod.fst) →
    ∀ P : Nat → Ty → Prop, (∀ j n t, cols[j]? = some (n, some t) → P j t) → (∀ j v t, vs[j]? = some v → tyOf v = some t → P j t) →
    ∃ cols', insertRow cols vs d = some (cols', d ++ (cols.map Prod.fst).zip vs) ∧ cols'.map Prod.fst = cols.map Prod.fst ∧
      ∀ j n t, cols'[j]? = some (n, some t) → P j t := by
  induction cols with
  | nil =>
    intro vs d hl _ _ P hc _
    cases vs with
    | nil => exact ⟨[], by simp [insertRow], rfl, hc⟩
    | cons v vs => simp at hl
  | cons c cols ih =>
    obtain ⟨n, t⟩ := c
    intro vs d hl hn hd P hc hv
    cases vs with
    | nil => exact ⟨(n, t) :: cols, by simp [insertRow], rfl, hc⟩
    | cons v vs =>
      simp only [List.map_cons, List.nodup_cons] at hn
      have hnd : n ∉ d.map Prod.fst := hd n (by simp)
      obtain ⟨cols', h1, h2, h3⟩ := ih vs (d ++ [(n, v)]) (by simpa using hl) hn.2 (by
        intro m hm hmd
        rw [List.map_append, List.mem_append] at hmd
        rcases hmd with g | g
        · exact hd m (by simp only [List.map_cons, List.mem_cons]; exact Or.inr hm) g
        · simp only [List.map_cons, List.map_nil, List.mem_singleton] at g
          subst g
          exact hn.1 hm) (fun j => P (j + 1)) (fun j m t h => hc (j + 1) m t (by simpa using h))
        (fun j w t h => hv (j + 1) w t (by simpa using h))
      refine ⟨(n, if t.isNone then tyOf v else t) :: cols', ?_, by simp [h2], ?_⟩
      · rw [insertRow, dictSet_new n v d hnd, h1]
        simp
      · intro j m t' hj
        cases j with
        | zero =>
          simp only [List.getElem?_cons_zero, Option.some.injEq, Prod.mk.injEq] at hj
          cases t with
          | none => exact hv 0 v t' (by simp) (by simpa using hj.2)
          | some t0 => exact hc 0 n t' (by simpa using hj.2)
        | succ j => exact h3 j m t' (by simpa using hj)

theorem insertRows_ok (rows : List (List Val)) : ∀ (cols : List (Str × Option Ty)), (∀ r ∈ rows, r.length ≤ cols.length) →
    (cols.map Prod.fst).Nodup →
    ∀ P : Nat → Ty → Prop, (∀ j n t, cols[j]? = some (n, some t) → P j t) →
      (∀ r ∈ rows, ∀ j v t, r[j]? = some v → tyOf v = some t → P j t) →
    ∃ cols', insertRows cols rows = some (cols', rows.map fun r => (cols.map Prod.fst).zip r) ∧
      cols'.map Prod.fst = cols.map Prod.fst ∧ ∀ j n t, cols'[j]? = some (n, some t) → P j t := by
  induction rows with
  | nil => intro cols _ _ P hc _; exact ⟨cols, rfl, rfl, hc⟩
  | cons r rows ih =>
    intro cols hl hn P hc hv
    obtain ⟨c1, h1, h2, h3⟩ := insertRow_ok cols r [] (hl r (by simp)) hn (by simp) P hc (hv r (by simp))
    have hlen : c1.length = cols.length := by simpa using congrArg List.length h2
    obtain ⟨c2, g1, g2, g3⟩ := ih c1 (fun r' hr => by rw [hlen]; exact hl r' (by simp [hr])) (by rw [h2]; exact hn) P h3
      (fun r' hr => hv r' (by simp [hr]))
    refine ⟨c2, ?_, g2.trans h2, g3⟩
    rw [insertRows, h1, Option.bind_some, g1, h2]
    simp

theorem schema_nodup (cols : List (Str × Option Ty)) (h : (cols.map Prod.fst).Nodup) : schema cols = cols := by
  have : ∀ (cols d : List (Str × Option Ty)), ((d ++ cols).map Prod.fst).Nodup →
      cols.foldl (fun d c => dictSet c.1 c.2 d) d = d ++ cols := by
    intro cols
    induction cols with
    | nil => intro d _; simp
    | cons c cols ih =>
      intro d hd
      rw [List.foldl_cons, dictSet_new, ih]
      · simp
      · simpa using hd
      · rw [List.map_append, List.nodup_append] at hd
        intro hc
        exact hd.2.2 _ hc c.1 (by simp) rfl
  exact this cols [] (by simpa using h)

theorem dictGet_zip (names : List Str) : ∀ (r : List Val), names.Nodup → ∀ (j : Nat) (n : Str), names[j]? = some n →
    dictGet n (names.zip r) = r[j]? := by
  induction names with
  | nil => intro r _ j n h; simp at h
  | cons m names ih =>
    intro r hn j n h
    simp only [List.nodup_cons] at hn
    cases r with
    | nil => simp [dictGet]
    | cons v r =>
      rw [List.zip_cons_cons, dictGet]
      cases j with
      | zero =>
        simp only [List.getElem?_cons_zero, Option.some.injEq] at h
        rw [if_pos h]; simp
      | succ j =>
        simp only [List.getElem?_cons_succ] at h
        have : n ∈ names := List.mem_of_getElem? h
        rw [if_neg (by rintro rfl; exact hn.1 this), ih r hn.2 j n h]
        simp

/-- **C69** `INSERT INTO t (names) VALUES rows` with as many values as columns, or fewer, stores exactly the written rows in order,
NULL where a value is missing, provided no value is changed by the type of its column: the type declared, or the type of a number or
truth value written in that column. -/
theorem C69_values (filter : Ty → Val → Val) (env : Str → Option Val) (cols : List (Str × Option Ty)) (rows : List (List CE))
    (hne : cols ≠ []) (hn : (cols.map Prod.fst).Nodup) (hl : ∀ r ∈ rows, r.length ≤ cols.length)
    (hf : ∀ (j : Nat) (t : Ty), ((∃ n, cols[j]? = some (n, some t)) ∨ ∃ r ∈ rows, ∃ e, r[j]? = some e ∧ tyOf (parseConst env e) = some t) →
      ∀ r ∈ rows, filter t ((r[j]?.map (parseConst env)).getD .null) = (r[j]?.map (parseConst env)).getD .null) :
    insertValues filter env cols rows = some (records (cols.map Prod.fst) (rows.map fun r => r.map (parseConst env))) := by
  obtain ⟨c2, h1, h2, h3⟩ := insertRows_ok (rows.map fun r => r.map (parseConst env)) cols (by
      intro r hr
      obtain ⟨r0, hr0, rfl⟩ := List.mem_map.mp hr
      simpa using hl r0 hr0) hn
    (fun j t => ((∃ n, cols[j]? = some (n, some t)) ∨ ∃ r ∈ rows, ∃ e, r[j]? = some e ∧ tyOf (parseConst env e) = some t))
    (fun j n t h => Or.inl ⟨n, h⟩) (by
      intro r hr j v t hv ht
      obtain ⟨r0, hr0, rfl⟩ := List.mem_map.mp hr
      rw [List.getElem?_map] at hv
      obtain ⟨e, he, rfl⟩ := Option.map_eq_some_iff.mp hv
      exact Or.inr ⟨r0, hr0, e, he, ht⟩)
  rw [insertValues, if_neg hne, h1, Option.map_some]
  simp only [records, List.map_map]
  congr 1
  apply List.map_congr_left
  intro r hr
  simp only [Function.comp]
  rw [schema_nodup c2 (by rw [h2]; exact hn)]
  have hlen : c2.length = cols.length := by simpa using congrArg List.length h2
  apply List.ext_getElem?
  intro j
  by_cases hj : j < c2.length
  · have hjc : j < cols.length := by omega
    have hname : (cols.map Prod.fst)[j]? = some c2[j].1 := by
      rw [← h2, List.getElem?_map, List.getElem?_eq_getElem hj]; rfl
    have hget : dictGet c2[j].1 ((cols.map Prod.fst).zip (r.map (parseConst env))) = r[j]?.map (parseConst env) := by
      rw [dictGet_zip _ _ hn j _ hname, List.getElem?_map]
    rw [List.getElem?_map, List.getElem?_eq_getElem hj, Option.map_some, hget]
    have hR : ((cols.map Prod.fst).zip (r.map (parseConst env) ++
        List.replicate ((cols.map Prod.fst).length - (r.map (parseConst env)).length) Val.null))[j]? =
        some (c2[j].1, (r[j]?.map (parseConst env)).getD .null) := by
      rw [List.getElem?_zip_eq_some]
      refine ⟨hname, ?_⟩
      rw [List.getElem?_append]
      by_cases hjr : j < r.length
      · simp [hjr]
      · simp only [List.length_map, hjr, if_false]
        rw [List.getElem?_eq_none (by omega : r.length ≤ j), List.getElem?_replicate]
        simp; omega
    rw [hR]
    congr 2
    have ht := h3 j c2[j].1
    have hc2 : c2[j]? = some (c2[j].1, c2[j].2) := List.getElem?_eq_getElem hj
    cases hty : c2[j].2 with
    | none => rfl
    | some t =>
      rw [hty] at hc2
      exact hf j t (ht t hc2) r hr
  · have hjc : cols.length ≤ j := by omega
    rw [List.getElem?_eq_none (by simpa using hj), List.getElem?_eq_none]
    rw [List.length_zip]
    simp only [List.length_map]
    omega

/-- syncany's filters on the values they do not change: a number of the type, or NULL. -/
def exampleFilter (t : Ty) (v : Val) : Val :=
  match t, v with
  | .int, .flt q => .int q.floor
  | .float, .int i => .flt i
  | _, v => v

example : insertValues exampleFilter (fun _ => none) [("a".toList, none), ("b".toList, some .float)]
      [[.int 1, .neg (.float 2)], [.neg (.int 3)]] =
    some [[("a".toList, .int 1), ("b".toList, .flt (-2))], [("a".toList, .int (-3)), ("b".toList, .null)]] := by
  rw [C69_values _ _ _ _ (by simp) (by decide) (by simp)]
  · rfl
  · intro j t h r hr
    simp only [List.mem_cons, List.not_mem_nil, or_false] at h hr
    match j with
    | 0 => 
      have ht : t = .int := by
        rcases h with ⟨n, h⟩ | ⟨r0, hr0, e, he, h⟩
        · simp at h
        · rcases hr0 with rfl | rfl <;> simp at he <;> subst he <;> simp [parseConst, bare, tyOf] at h <;> exact h.symm
      subst ht
      rcases hr with rfl | rfl <;> rfl
    | 1 =>
      have ht : t = .float := by
        rcases h with ⟨n, h⟩ | ⟨r0, hr0, e, he, h⟩
        · simp at h; exact h.2.symm
        · rcases hr0 with rfl | rfl <;> simp at he
          subst he; simp [parseConst, bare, tyOf] at h; exact h.symm
      subst ht
      rcases hr with rfl | rfl <;> rfl
    | j + 2 =>
      rcases hr with rfl | rfl <;> cases t <;> rfl

theorem insertRow_long (cols : List (Str × Option Ty)) : ∀ (vs : List Val) (d : List (Str × Val)), cols.length < vs.length →
    insertRow cols vs d = none := by
  induction cols with
  | nil => intro vs d h; cases vs with
    | nil => simp at h
    | cons v vs => rfl
  | cons c cols ih => intro vs d h; cases vs with
    | nil => simp at h
    | cons v vs => rw [insertRow, ih vs _ (by simpa using h)]; rfl

theorem insertRow_length (cols : List (Str × Option Ty)) : ∀ (vs : List Val) (d : List (Str × Val)) r,
    insertRow cols vs d = some r → r.1.length = cols.length := by
  induction cols with
  | nil => intro vs d r h; cases vs with
    | nil => simp [insertRow] at h; subst h; rfl
    | cons v vs => simp [insertRow] at h
  | cons c cols ih => intro vs d r h; cases vs with
    | nil => simp [insertRow] at h; subst h; rfl
    | cons v vs =>
      rw [insertRow] at h
      obtain ⟨q, hq, rfl⟩ := Option.map_eq_some_iff.mp h
      simp [ih _ _ _ hq]

/-- **C69** A row with more values than columns makes the statement fail, wherever it is: nothing is stored. -/
theorem C69_too_many_refused (filter : Ty → Val → Val) (env : Str → Option Val) (cols : List (Str × Option Ty)) (rows : List (List CE))
    (r : List CE) (hr : r ∈ rows) (hl : cols.length < r.length) : insertValues filter env cols rows = none := by
  have : ∀ (rows : List (List Val)) (cols : List (Str × Option Ty)), (∃ r ∈ rows, cols.length < r.length) →
      insertRows cols rows = none := by
    intro rows
    induction rows with
    | nil => rintro _ ⟨r, hr, _⟩; simp at hr
    | cons r0 rows ih =>
      rintro cols ⟨r, hr, hl⟩
      rw [insertRows]
      by_cases h0 : cols.length < r0.length
      · rw [insertRow_long cols r0 [] h0]; rfl
      · rcases List.mem_cons.mp hr with rfl | hr
        · exact absurd hl h0
        · cases hx : insertRow cols r0 [] with
          | none => rfl
          | some q =>
            rw [Option.bind_some, ih q.1 ⟨r, hr, by rw [insertRow_length _ _ _ _ hx]; exact hl⟩]; rfl
  rw [insertValues]
  split
  · rfl
  · rw [this _ cols ⟨r.map (parseConst env), List.mem_map_of_mem (f := fun r => r.map (parseConst env)) hr, by simpa using hl⟩]; rfl

/-- **C121** Without a column list `INSERT INTO t VALUES …` is refused. -/
theorem C121_no_columns_refused (filter : Ty → Val → Val) (env : Str → Option Val) (rows : List (List CE)) :
    insertValues filter env [] rows = none := rfl

/-- **C121** The first number of a column decides its type: in `INSERT INTO t (a) VALUES (i), (q)` the decimal number is not stored if
the `int` filter makes whole numbers. -/
theorem C121_mixed_violated (filter : Ty → Val → Val) (hint : ∀ v, ∃ k, filter .int v = .int k) (env : Str → Option Val) (a : Str)
    (i : Nat) (q : Rat) :
    insertValues filter env [(a, none)] [[.int i], [.float q]] =
      some [[(a, filter .int (.int i))], [(a, filter .int (.flt q))]] ∧
    insertValues filter env [(a, none)] [[.int i], [.float q]] ≠
      some (records [a] [[.int i], [.flt q]]) := by
  have h : insertValues filter env [(a, none)] [[.int i], [.float q]] =
      some [[(a, filter .int (.int i))], [(a, filter .int (.flt q))]] := by
    simp [insertValues, insertRows, insertRow, schema, dictSet, dictGet, parseConst, bare, tyOf]
  refine ⟨h, ?_⟩
  rw [h]
  intro g
  obtain ⟨k, hk⟩ := hint (.flt q)
  simp [records, hk] at g

/-- **C121** A value that is not a constant, as in `VALUES (1 + 2)`, is stored as NULL without an error. -/
theorem C121_expression_violated (filter : Ty → Val → Val) (env : Str → Option Val) (a : Str) :
    insertValues filter env [(a, none)] [[.other]] = some [[(a, .null)]] := by
  simp [insertValues, insertRows, insertRow, schema, dictSet, dictGet, parseConst, bare, tyOf]

/-- **C69** How rows are written: the first update type among the table's options, `I` when there is none. -/
theorem C69_update_type (upper : Str → Str) (options : List Str) :
    (∀ pre o post, options = pre ++ o :: post → upper o ∈ ["I".toList, "U".toList, "UI".toList, "UDI".toList, "DI".toList] →
      (∀ p ∈ pre, upper p ∉ ["I".toList, "U".toList, "UI".toList, "UDI".toList, "DI".toList]) → updateType upper options = o) ∧
    ((∀ p ∈ options, upper p ∉ ["I".toList, "U".toList, "UI".toList, "UDI".toList, "DI".toList]) → updateType upper options = "I".toList) := by
  constructor
  · rintro pre o post rfl ho hp
    rw [updateType, List.find?_append, List.find?_eq_none.mpr (by intro x hx; simpa using hp x hx), List.find?_cons_of_pos (by simpa using ho)]
    rfl
  · intro hp
    rw [updateType, List.find?_eq_none.mpr (by intro x hx; simpa using hp x hx)]
    rfl

end Verif.Props
