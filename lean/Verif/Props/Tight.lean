import Verif.Props.Encode
import Verif.Props.SelectList
/-! Further clauses of C74 and C78, found missing by editing the model. -/
namespace Verif.Props

section
open Verif.Val Verif.Encode Verif.Spec.Encode

namespace EncT

theorem upper_nat (c : Char) : c.toUpper.toNat = if 97 ≤ c.toNat ∧ c.toNat ≤ 122 then c.toNat - 32 else c.toNat := by
  unfold Char.toUpper
  by_cases hh : c.val ≥ 'a'.val ∧ c.val ≤ 'z'.val
  · have h3 : 97 ≤ c.toNat ∧ c.toNat ≤ 122 := hh
    rw [dif_pos hh, if_pos h3]
    show (c.val + ('A'.val - 'a'.val)).toNat = c.toNat - 32
    rw [UInt32.toNat_add]
    have : (('A'.val - 'a'.val) : UInt32).toNat = 4294967264 := by decide
    rw [this]
    have : c.val.toNat = c.toNat := rfl
    omega
  · have h3 : ¬ (97 ≤ c.toNat ∧ c.toNat ≤ 122) := hh
    rw [dif_neg hh, if_neg h3]

theorem hexValue_upper (c : Char) : hexValue c.toUpper = hexValue c := by
  simp only [hexValue, upper_nat]
  repeat' split
  all_goals first
    | omega
    | (congr 1; omega)
    | rfl

theorem a2b_upper (s : Str) : a2bHex (s.map Char.toUpper) = a2bHex s := by
  fun_induction a2bHex s with
  | case1 => rfl
  | case2 => rfl
  | case3 a b t x y r h1 h2 h3 ih => simp [a2bHex, hexValue_upper, h1, h2, h3, ih]
  | case4 a b t hn ih =>
    simp only [List.map_cons, a2bHex, hexValue_upper, ih]

/-- Digits only, no padding: the place in the group of four advances. -/
theorem go_none (w rest : Str) (hw : ∀ c ∈ w, (sixValue c).isSome) (heq : '=' ∉ w) (q : Nat) (hq : q < 4)
    (h : ∀ l, b64go ((q + w.length) % 4) l 0 rest = none) (l : Nat) : b64go q l 0 (w ++ rest) = none := by
  induction w generalizing q l with
  | nil => simpa [Nat.mod_eq_of_lt hq] using h l
  | cons c w ih =>
    have hc : c ≠ '=' := fun e => heq (by simp [e])
    obtain ⟨v, hv⟩ := Option.isSome_iff_exists.1 (hw c (by simp))
    have ih' := fun q' hq' h' => ih (fun x hx => hw x (by simp [hx])) (fun hm => heq (by simp [hm])) q' hq' h'
    have step : ∀ q', q' = (q + 1) % 4 → ∀ l, b64go q' l 0 (w ++ rest) = none := by
      intro q' e l
      subst e
      refine ih' _ (Nat.mod_lt _ (by omega)) ?_ l
      intro l'
      have := h l'
      simp only [List.length_cons] at this
      rw [show ((q + 1) % 4 + w.length) % 4 = (q + (w.length + 1)) % 4 by omega]
      exact this
    rw [List.cons_append, b64go, if_neg hc, hv]
    have : q = 0 ∨ q = 1 ∨ q = 2 ∨ q = 3 := by omega
    rcases this with rfl | rfl | rfl | rfl
    · simpa using step 1 rfl v
    · simp [step 2 rfl]
    · simp [step 3 rfl]
    · simp [step 0 rfl]

end EncT
open EncT

/-- C74: UNHEX takes digits of either case. -/
theorem C74_unhex_case (py : Py) (s : Str) : unhexRaw py (.val (.str (s.map Char.toUpper))) = unhexRaw py (.val (.str s)) := by
  simp [unhexRaw, strOf, Py.ensureStr, a2b_upper]

/-- C74: HEX twice is undone by UNHEX twice, for any text but the empty one. -/
theorem C74_hex_twice (py : Py) (s h : Str) (hs : s ≠ []) (hh : hexRaw (.str s) = some (.str h)) :
    ∃ hh, hexRaw (.str h) = some (.str hh) ∧ unhexRaw py (seen (unhexRaw py (.val (.str hh)))) = some (.bytes (utf8 s)) := by
  obtain ⟨h', e1, e2, e3, _⟩ := C74_hex_text py s hs
  rw [e1] at hh
  cases hh
  have hlen : 0 < (utf8 s).length := by
    cases hu : utf8 s with
    | nil =>
      have := Enc.decode_utf8 s
      rw [hu] at this
      have h0 : decode [] = some [] := by rw [← Enc.decode_utf8 []]; rfl
      rw [h0] at this
      simp at this; exact absurd this (by simpa using hs)
    | cons => simp
  have hne : h ≠ [] := by intro e; rw [e] at e2; simp at e2; rw [e2] at hlen; simp at hlen
  obtain ⟨h2, e4, e5, e6, e7⟩ := C74_hex_text py h hne
  refine ⟨h2, e4, ?_⟩
  have hb : utf8 h ≠ [] := by
    intro e
    rw [e] at e7
    have h0 : decode [] = some [] := by rw [← Enc.decode_utf8 []]; rfl
    rw [h0] at e7
    simp at e7; exact absurd e7 (by simpa using hne)
  rw [e6]
  simp only [seen, Option.getD_some, unhexRaw, strOf, hb, if_false, e7]
  simp only [unhexRaw, strOf, Py.ensureStr] at e3
  simpa using e3

/-- C116 (violated): UNHEX of UNHEX of the empty text is NULL, not empty. -/
theorem C116_unhex_empty_violated (py : Py) : seen (unhexRaw py (seen (unhexRaw py (.val (.str []))))) = .val .null := by
  simp [unhexRaw, strOf, Py.ensureStr, a2bHex, seen]

/-- C74: FROM_BASE64 is NULL unless the padding fits: without padding a number of digits that is no multiple of four, one digit too
many with any padding, and two too many with a single `=`. -/
theorem C74_base64_padding (w : Str) (hw : ∀ c ∈ w, (sixValue c).isSome) (heq : '=' ∉ w) :
    (w.length % 4 ≠ 0 → fromBase64Raw (.str w) = none) ∧
    (w.length % 4 = 1 → ∀ n, fromBase64Raw (.str (w ++ List.replicate n '=')) = none) ∧
    (w.length % 4 = 2 → fromBase64Raw (.str (w ++ ['='])) = none) := by
  refine ⟨?_, ?_, ?_⟩
  · intro h
    have := go_none w [] hw heq 0 (by omega) (by intro l; simp [b64go, h]) 0
    rw [List.append_nil] at this
    simp [fromBase64Raw, b64decode, this]
  · intro h n
    have hn : ∀ (n l : Nat), b64go 1 l 0 (List.replicate n '=') = none := by
      intro n
      induction n with
      | zero => intro l; simp [b64go]
      | succ n ih => intro l; simp [List.replicate_succ, b64go, ih]
    have := go_none w (List.replicate n '=') hw heq 0 (by omega) (by intro l; simpa [h] using hn n l) 0
    simp [fromBase64Raw, b64decode, this]
  · intro h
    have := go_none w ['='] hw heq 0 (by omega) (by intro l; simp [h, b64go]) 0
    simp [fromBase64Raw, b64decode, this]

example : (∀ c ∈ "ab".toList, (sixValue c).isSome) ∧ '=' ∉ "ab".toList ∧ fromBase64Raw (.str "ab=".toList) = none := by
  have h : (∀ c ∈ "ab".toList, (sixValue c).isSome) ∧ '=' ∉ "ab".toList := by decide
  exact ⟨h.1, h.2, (C74_base64_padding "ab".toList h.1 h.2).2.2 (by decide)⟩

/-- C74: CHAR of a number that is no code (negative, a surrogate, too large) is NULL; BIN, OCT and HEX of truth values and of
negative numbers. -/
theorem C74_rest (i : Int) (n : Nat) (l : List Val) :
    ((i < 0 ∨ ¬ i.toNat.isValidChar) → Val.int i ∈ l → caught (charRaw l) = .null) ∧
    octRaw (.bool true) = some (.str ['1']) ∧ octRaw (.bool false) = some (.str ['0']) ∧
    hexRaw (.int (-(n + 1 : Nat))) = some (.str ('-' :: hex (n + 1 : Nat))) ∧
    binRaw (.int (-(n + 1 : Nat))) = some (.str ('-' :: bin (n + 1 : Nat))) := by
  have hneg : (-((n + 1 : Nat) : Int)) < 0 := by omega
  have hpos : ¬ (((n + 1 : Nat) : Int) < 0) := by omega
  have ha : (-((n + 1 : Nat) : Int)).natAbs = n + 1 := by omega
  have hb : (((n + 1 : Nat) : Int)).natAbs = n + 1 := by omega
  refine ⟨?_, ?_, ?_, ?_, ?_⟩
  · intro h hm
    have hc : chr (.int i) = none := by
      have : ¬ (0 ≤ i ∧ i.toNat.isValidChar) := by
        rintro ⟨h1, h2⟩
        rcases h with h | h
        · omega
        · exact h h2
      simp [chr, this]
    have : l.mapM chr = none := by
      induction l with
      | nil => simp at hm
      | cons a l ih =>
        rw [List.mapM_cons]
        rcases List.mem_cons.1 hm with rfl | hm
        · simp [hc]
        · cases chr a <;> simp [ih hm]
    simp [charRaw, this, caught]
  · simp [octRaw, oct, based, digitsOf, digit]
  · simp [octRaw, oct, based, digitsOf, digit]
  · simp only [hexRaw, hex, based, hneg, hpos, ha, hb, if_true, if_false]; rfl
  · simp only [binRaw, bin, based, hneg, hpos, ha, hb, if_true, if_false]; rfl

namespace EncT

theorem hexValue_spec (c : Char) : hexValue c = (digitValue c).bind fun d => if d < 16 then some d else none := by
  have h : ∀ a b : Char, (a ≤ b) = (a.toNat ≤ b.toNat) := fun a b => rfl
  have e0 : '0'.toNat = 48 := rfl
  have e9 : '9'.toNat = 57 := rfl
  have ea : 'a'.toNat = 97 := rfl
  have ez : 'z'.toNat = 122 := rfl
  have eA : 'A'.toNat = 65 := rfl
  have eZ : 'Z'.toNat = 90 := rfl
  simp only [hexValue, digitValue, h, e0, e9, ea, ez, eA, eZ]
  generalize c.toNat = n
  repeat' split
  all_goals simp only [Option.bind_some, Option.bind_none]
  all_goals try split
  all_goals first
    | omega
    | rfl
    | (congr 1; omega)

end EncT
open EncT

/-- C74: UNHEX is not NULL exactly for texts of an even number of hexadecimal digits. -/
theorem C74_unhex_domain (py : Py) (s : Str) :
    seen (unhexRaw py (.val (.str s))) ≠ .val .null ↔ s.length % 2 = 0 ∧ ∀ c ∈ s, ∃ d < 16, digitValue c = some d := by
  have key : (a2bHex s).isSome ↔ s.length % 2 = 0 ∧ ∀ c ∈ s, ∃ d < 16, digitValue c = some d := by
    have hv : ∀ c, (hexValue c).isSome ↔ ∃ d < 16, digitValue c = some d := by
      intro c
      rw [hexValue_spec]
      cases hd : digitValue c with
      | none => simp
      | some d => by_cases h : d < 16 <;> simp [h]
    fun_induction a2bHex s with
    | case1 => simp
    | case2 => simp
    | case3 a b t x y r h3 h2 h1 ih =>
      have ha := (hv a).1 (by simp [h1])
      have hb := (hv b).1 (by simp [h2])
      simp only [Option.isSome_some, true_iff]
      have := ih.1 (by rw [h3]; rfl)
      refine ⟨by simp only [List.length_cons]; omega, ?_⟩
      intro c hc
      rcases List.mem_cons.1 hc with rfl | hc
      · exact ha
      · rcases List.mem_cons.1 hc with rfl | hc
        · exact hb
        · exact this.2 c hc
    | case4 a b t hn ih =>
      simp only [Option.isSome_none, Bool.false_eq_true, false_iff]
      rintro ⟨hl, hall⟩
      obtain ⟨x, hx⟩ := Option.isSome_iff_exists.1 ((hv a).2 (hall a (by simp)))
      obtain ⟨y, hy⟩ := Option.isSome_iff_exists.1 ((hv b).2 (hall b (by simp)))
      obtain ⟨r, hr⟩ := Option.isSome_iff_exists.1 (ih.2 ⟨by simp only [List.length_cons] at hl; omega, fun c hc => hall c (by simp [hc])⟩)
      exact hn x y r hx hy hr
  rw [← key]
  simp only [unhexRaw, strOf, Py.ensureStr, Option.bind_some]
  cases a2bHex s <;> simp [seen]

/-- C74: only letters, digits, `+`, `/` and `=` matter in base64. -/
theorem C74_base64_alphabet (s t : Str)
    (h : s.filter (fun c => c.isAlphanum || c = '+' || c = '/' || c = '=') = t.filter (fun c => c.isAlphanum || c = '+' || c = '/' || c = '=')) :
    fromBase64Raw (.str s) = fromBase64Raw (.str t) := by
  have e : Enc.base64Char = fun c => c.isAlphanum || c = '+' || c = '/' || c = '=' := by
    funext c
    have h : ∀ a b : Char, (a.val ≤ b.val) = (a.toNat ≤ b.toNat) := fun a b => rfl
    have hp : c = '+' ↔ c.toNat = 43 := ⟨fun h => by rw [h]; rfl, fun h => Char.ext (UInt32.toNat_inj.1 h)⟩
    have hs : c = '/' ↔ c.toNat = 47 := ⟨fun h => by rw [h]; rfl, fun h => Char.ext (UInt32.toNat_inj.1 h)⟩
    have he : c = '=' ↔ c.toNat = 61 := ⟨fun h => by rw [h]; rfl, fun h => Char.ext (UInt32.toNat_inj.1 h)⟩
    have ea : c.isAlphanum = true ↔ (65 ≤ c.toNat ∧ c.toNat ≤ 90) ∨ (97 ≤ c.toNat ∧ c.toNat ≤ 122) ∨ (48 ≤ c.toNat ∧ c.toNat ≤ 57) := by
      simp only [Char.isAlphanum, Char.isAlpha, Char.isUpper, Char.isLower, Char.isDigit, Bool.or_eq_true, Bool.and_eq_true, decide_eq_true_eq,
        ge_iff_le, h]
      show (65 ≤ c.toNat ∧ c.toNat ≤ 90 ∨ 97 ≤ c.toNat ∧ c.toNat ≤ 122) ∨ 48 ≤ c.toNat ∧ c.toNat ≤ 57 ↔ _
      omega
    rw [Bool.eq_iff_iff]
    simp only [Bool.or_eq_true, decide_eq_true_eq, ea, hp, hs, he, Enc.base64Char, sixValue]
    generalize c.toNat = n
    repeat' split
    all_goals simp only [Option.isSome_some, Option.isSome_none, true_or, true_iff, Bool.false_eq_true, false_or]
    all_goals omega
  exact C74_base64_noise s t (by rw [e]; exact h)

/-- C74: truth values are 1 and 0, fractions are cut, the empty text is 0; CRC32 of bytes is the checksum; a text that is no address is
none. -/
theorem C74_conversions (b : Bool) (q : Rat) (crc : List UInt8 → Nat) (bs : List UInt8) (aton : Str → Option (List UInt8)) (s : Str) :
    hexRaw (.bool b) = hexRaw (.int (if b then 1 else 0)) ∧ binRaw (.bool b) = binRaw (.int (if b then 1 else 0)) ∧
    octRaw (.bool b) = octRaw (.int (if b then 1 else 0)) ∧ charRaw [.bool b] = charRaw [.int (if b then 1 else 0)] ∧
    hexRaw (.flt q) = hexRaw (.int (trunc q)) ∧ binRaw (.flt q) = binRaw (.int (trunc q)) ∧
    binRaw (.str []) = binRaw (.int 0) ∧ crc32Raw crc (.bytes bs) = some (.int (crc bs)) ∧
    (aton s = none → isIp aton (.str s) = .int 0) ∧ (∀ i, isIp aton (.int i) = .int 0) := by
  refine ⟨rfl, rfl, rfl, ?_, rfl, rfl, rfl, rfl, fun h => by simp [isIp, h], fun _ => rfl⟩
  cases b <;> rfl

end

section
open Verif.SelectList
variable {V : Type}

/-- C78: a table without an alias is meant by its database and name together. -/
theorem C78_database_name (env : Name → Name → V) (comp : Nat → V) (db t c : Name) (own : List Name) (hdot : '.' ∉ c) :
    select env comp ⟨db, t, none, none⟩ own [] [.col ⟨some db, some t, c⟩ none] = some [(c, env (db ++ '.' :: t) c)] := by
  have : (c.map fun x => if x = '.' then '_' else x) = c := by
    induction c with
    | nil => rfl
    | cons x c ih =>
      have hx : x ≠ '.' := fun e => hdot (by simp [e])
      simp [hx, ih (fun hm => hdot (by simp [hm]))]
  simp [select, compileList, step, refTable, Ref.key, Tab.key, colName, this, put, has, rowOf]

/-- C78: of two columns of one name without aliases, from different tables, the second is named `table.column` (SQL: both have the
same name). -/
theorem C78_second_name (env : Name → Name → V) (comp : Nat → V) (d1 d2 n1 n2 t u c : Name) (own : List Name) (hdot : '.' ∉ c)
    (htu : t ≠ u) :
    select env comp ⟨d1, n1, some t, none⟩ own [⟨d2, n2, some u, none⟩] [.col ⟨none, some t, c⟩ none, .col ⟨none, some u, c⟩ none] =
      some [(c, env t c), (u ++ '.' :: c, env u c)] := by
  have h1 : (c.map fun x => if x = '.' then '_' else x) = c := by
    induction c with
    | nil => rfl
    | cons x c ih =>
      have hx : x ≠ '.' := fun e => hdot (by simp [e])
      simp [hx, ih (fun hm => hdot (by simp [hm]))]
  have h2 : c ≠ u ++ '.' :: c := fun e => hdot (by rw [e]; simp)
  have h3 : ¬ u = t := fun e => htu e.symm
  simp [select, compileList, step, refTable, Ref.key, Tab.key, colName, h1, put, has, rowOf, h2, h3]

end
end Verif.Props
