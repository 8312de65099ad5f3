import Verif.Model.Encode
import Verif.Spec.Encode
/-! C74: texts, numbers and bytes. -/
namespace Verif.Props
open Verif.Val Verif.Encode Verif.Spec.Encode

namespace Enc

theorem six_table : ∀ n : Fin 64, sixValue (sixChar n) = some n.val ∧ sixChar n ≠ '=' := by decide +kernel

theorem six {n : Nat} (h : n < 64) : sixValue (sixChar n) = some n ∧ sixChar n ≠ '=' := six_table ⟨n, h⟩

theorem decode_utf8 (s : Str) : decode (utf8 s) = some s := by
  have : (utf8 s).toByteArray = s.utf8Encode := rfl
  simp [decode, this]

theorem ofNat_toNat (a : UInt8) : UInt8.ofNat a.toNat = a := by simp

theorem of_eq {a : UInt8} {n : Nat} (h : n = a.toNat) : UInt8.ofNat n = a := by subst h; simp

theorem b64 (l : List UInt8) : b64decode (b64encode l) = some l := by
  unfold b64decode
  fun_induction b64encode l with
  | case1 => rfl
  | case2 a =>
    have ha := a.toNat_lt
    have h1 := six (n := a.toNat / 4) (by omega)
    have h2 := six (n := a.toNat % 4 * 16) (by omega)
    simp [-UInt8.ofNat_add, -UInt8.ofNat_mul, b64go, h1, h2]
    exact of_eq (by omega)
  | case3 a b =>
    have ha := a.toNat_lt
    have hb := b.toNat_lt
    have h1 := six (n := a.toNat / 4) (by omega)
    have h2 := six (n := a.toNat % 4 * 16 + b.toNat / 16) (by omega)
    have h3 := six (n := b.toNat % 16 * 4) (by omega)
    simp only [b64go, h1, h2, h3, if_false]
    simp [-UInt8.ofNat_add, -UInt8.ofNat_mul]
    refine ⟨?_, ?_⟩
    · exact of_eq (by omega)
    · exact of_eq (by omega)
  | case4 a b c t ih =>
    have ha := a.toNat_lt
    have hb := b.toNat_lt
    have hc := c.toNat_lt
    have h1 := six (n := a.toNat / 4) (by omega)
    have h2 := six (n := a.toNat % 4 * 16 + b.toNat / 16) (by omega)
    have h3 := six (n := b.toNat % 16 * 4 + c.toNat / 64) (by omega)
    have h4 := six (n := c.toNat % 64) (by omega)
    simp only [b64go, h1, h2, h3, h4, if_false, ih]
    simp [-UInt8.ofNat_add, -UInt8.ofNat_mul]
    refine ⟨?_, ?_, ?_⟩
    · exact of_eq (by omega)
    · exact of_eq (by omega)
    · exact of_eq (by omega)

/-- Belongs to base64. -/
def base64Char (c : Char) : Bool := (sixValue c).isSome || c = '='

theorem b64go_filter (s : Str) : ∀ q l p, b64go q l p s = b64go q l p (s.filter base64Char) := by
  induction s with
  | nil => intros; rfl
  | cons c t ih =>
    intro q l p
    by_cases hc : c = '='
    · subst hc
      rw [show ('=' :: t).filter base64Char = '=' :: t.filter base64Char from rfl]
      simp only [b64go, if_true]
      split
      · rfl
      · exact ih _ _ _
    · cases hv : sixValue c with
      | none =>
        have : base64Char c = false := by simp [base64Char, hv, hc]
        simp [b64go, hc, hv, this, ih q l p]
      | some v =>
        have : base64Char c = true := by simp [base64Char, hv]
        rw [List.filter_cons_of_pos this]
        simp only [b64go, hc, hv, if_false]
        rw [ih 1, ih 2, ih 3, ih 0]

theorem hex_table : ∀ n : Fin 16, hexValue (digit n) = some n.val := by decide +kernel

theorem unhex_hex (b : List UInt8) : a2bHex (b2aHex b) = some b := by
  induction b with
  | nil => rfl
  | cons a b ih =>
    have ha := a.toNat_lt
    have h1 := hex_table ⟨a.toNat / 16, by omega⟩
    have h2 := hex_table ⟨a.toNat % 16, by omega⟩
    simp only at h1 h2
    have : b2aHex (a :: b) = digit (a.toNat / 16) :: digit (a.toNat % 16) :: b2aHex b := rfl
    rw [this, a2bHex, h1, h2, ih]
    simp only
    rw [show 16 * (a.toNat / 16) + a.toNat % 16 = a.toNat by omega]; simp

theorem digit_table : ∀ n : Fin 16, digitValue (digit n) = some n.val := by decide +kernel

def step (b : Nat) (r : Option Nat) (c : Char) : Option Nat :=
  match r, digitValue c with
  | some n, some d => if d < b then some (b * n + d) else none
  | _, _ => none

theorem digitsOf_ne (b n : Nat) : digitsOf b n ≠ [] := by
  unfold digitsOf; split <;> simp

theorem digitsOf_fold (b : Nat) (hb : b + 2 ≤ 16) (n : Nat) : (digitsOf b n).foldl (step (b + 2)) (some 0) = some n := by
  induction n using Nat.strongRecOn with
  | ind n ih =>
    unfold digitsOf
    split
    · rename_i h
      have := digit_table ⟨n, by omega⟩
      simp only at this
      simp [step, this, h]
    · rename_i h
      have hlt : n / (b + 2) < n := Nat.div_lt_self (by omega) (by omega)
      have hm : n % (b + 2) < b + 2 := Nat.mod_lt _ (by omega)
      have := digit_table ⟨n % (b + 2), by omega⟩
      simp only at this
      rw [List.foldl_append, ih _ hlt]
      simp [step, this, hm, Nat.div_add_mod]

theorem digitsOf_read (b : Nat) (hb : b + 2 ≤ 16) (n : Nat) : readNat (b + 2) (digitsOf b n) = some n := by
  have := digitsOf_fold b hb n
  unfold readNat
  rw [if_neg (digitsOf_ne b n)]
  exact this

/-- A character that is no digit of the base makes the text no number. -/
theorem fold_none (b : Nat) (s : Str) : s.foldl (step b) none = none := by
  induction s with
  | nil => rfl
  | cons c s ih => simpa [step] using ih

theorem read_bad (b : Nat) (x : Str) (c : Char) (y : Str) (h : ∀ d, digitValue c = some d → b ≤ d) : readNat b (x ++ c :: y) = none := by
  unfold readNat
  rw [if_neg (by simp)]
  show (x ++ c :: y).foldl (step b) (some 0) = none
  rw [List.foldl_append, List.foldl_cons]
  have : step b (x.foldl (step b) (some 0)) c = none := by
    unfold step
    split
    · rename_i d _ hd
      have := h _ hd
      rw [if_neg (by omega)]
    · rfl
  rw [this, fold_none]

end Enc

/-- C74: FROM_BASE64 undoes TO_BASE64, for every text. -/
theorem C74_base64 (s : Str) : (toBase64Raw (.str s)).bind fromBase64Raw = some (.str s) := by
  simp [toBase64Raw, fromBase64Raw, Enc.b64, Enc.decode_utf8]

/-- C74: characters that do not belong to base64 (blanks, line breaks) do not matter. -/
theorem C74_base64_noise (s t : Str) (h : s.filter Enc.base64Char = t.filter Enc.base64Char) :
    fromBase64Raw (.str s) = fromBase64Raw (.str t) := by
  have : b64decode s = b64decode t := by
    unfold b64decode
    rw [Enc.b64go_filter s, Enc.b64go_filter t, h]
  simp only [fromBase64Raw, this]

/-- C74: four characters for three bytes, begun or full, and only characters of base64. -/
theorem C74_base64_size (b : List UInt8) :
    (b64encode b).length = 4 * ((b.length + 2) / 3) ∧ ∀ c ∈ b64encode b, Enc.base64Char c = true := by
  have ok : ∀ n, n < 64 → Enc.base64Char (sixChar n) = true := fun n h => by simp [Enc.base64Char, (Enc.six h).1]
  fun_induction b64encode b with
  | case1 => simp
  | case2 a =>
    have ha := a.toNat_lt
    refine ⟨by simp, ?_⟩
    intro c hc
    simp at hc
    rcases hc with rfl | rfl | rfl
    · exact ok _ (by omega)
    · exact ok _ (by omega)
    · decide +kernel
  | case3 a b =>
    have ha := a.toNat_lt
    have hb := b.toNat_lt
    refine ⟨by simp, ?_⟩
    intro c hc
    simp at hc
    rcases hc with rfl | rfl | rfl | rfl
    · exact ok _ (by omega)
    · exact ok _ (by omega)
    · exact ok _ (by omega)
    · decide +kernel
  | case4 a b c t ih =>
    have ha := a.toNat_lt
    have hb := b.toNat_lt
    have hc := c.toNat_lt
    refine ⟨?_, ?_⟩
    · simp only [List.length_cons, ih.1]; omega
    · intro x hx
      simp at hx
      rcases hx with rfl | rfl | rfl | rfl | hx
      · exact ok _ (by omega)
      · exact ok _ (by omega)
      · exact ok _ (by omega)
      · exact ok _ (by omega)
      · exact ih.2 x hx

/-- C74, missing: the empty text (see `C116_hex_empty_violated`) and numbers.  HEX of a text is two digits for each byte, and UNHEX of
it is these bytes again, which are the text in UTF-8. -/
theorem C74_hex_text (py : Py) (s : Str) (hs : s ≠ []) :
    ∃ h, hexRaw (.str s) = some (.str h) ∧ h.length = 2 * (utf8 s).length ∧
      unhexRaw py (.val (.str h)) = some (.bytes (utf8 s)) ∧ decode (utf8 s) = some s := by
  refine ⟨b2aHex (utf8 s), ?_, ?_, ?_, Enc.decode_utf8 s⟩
  · cases s with
    | nil => exact absurd rfl hs
    | cons c t => rfl
  · generalize utf8 s = l
    induction l with
    | nil => rfl
    | cons a l ih =>
      have : b2aHex (a :: l) = digit (a.toNat / 16) :: digit (a.toNat % 16) :: b2aHex l := rfl
      simp [this, ih]; omega
  · simp [unhexRaw, strOf, Py.ensureStr, Enc.unhex_hex]

/-- Violation: HEX of the empty text is not empty, and not undone by UNHEX. -/
theorem C116_hex_empty_violated (py : Py) :
    hexRaw (.str []) = some (.str "0x0".toList) ∧ seen (unhexRaw py (.val (.str "0x0".toList))) = .val .null := by
  refine ⟨?_, ?_⟩
  · have : hex 0 = "0x0".toList := by
      simp [hex, based, digitsOf, digit]
    simp [hexRaw, this]
  · simp [unhexRaw, strOf, Py.ensureStr, a2bHex, seen, hexValue]

/-- Violation: HEX and BIN of a number are not digits: they begin with Python's prefix, so they do not denote the number (nor any
number), for any number; what follows the prefix does. -/
theorem C116_prefix_violated (n : Nat) :
    (∃ h, hexRaw (.int n) = some (.str ('0' :: 'x' :: h)) ∧ DigitsOnly 16 n h ∧ ∀ m, ¬ DigitsOnly 16 m ('0' :: 'x' :: h)) ∧
    (∃ h, binRaw (.int n) = some (.str ('0' :: 'b' :: h)) ∧ DigitsOnly 2 n h ∧ ∀ m, ¬ DigitsOnly 2 m ('0' :: 'b' :: h)) := by
  have hn : ¬ ((n : Int) < 0) := by omega
  refine ⟨⟨digitsOf 14 n, ?_, Enc.digitsOf_read 14 (by omega) n, ?_⟩, ⟨digitsOf 0 n, ?_, Enc.digitsOf_read 0 (by omega) n, ?_⟩⟩
  · simp [hexRaw, hex, based, hn]
  · intro m h
    have := Enc.read_bad 16 ['0'] 'x' (digitsOf 14 n) (by decide +kernel)
    unfold DigitsOnly at h
    rw [show '0' :: 'x' :: digitsOf 14 n = ['0'] ++ 'x' :: digitsOf 14 n from rfl, this] at h
    exact absurd h (by simp)
  · simp [binRaw, bin, based, hn]
  · intro m h
    have := Enc.read_bad 2 ['0'] 'b' (digitsOf 0 n) (by decide +kernel)
    unfold DigitsOnly at h
    rw [show '0' :: 'b' :: digitsOf 0 n = ['0'] ++ 'b' :: digitsOf 0 n from rfl, this] at h
    exact absurd h (by simp)

/-- Violation: so UNHEX does not undo HEX of any number. -/
theorem C116_unhex_number_violated (py : Py) (i : Int) (h : Str) (hh : hexRaw (.int i) = some (.str h)) :
    seen (unhexRaw py (.val (.str h))) = .val .null := by
  have bad : ∀ s : Str, 'x' ∈ s → a2bHex s = none := by
    intro s
    fun_induction a2bHex s with
    | case1 => simp
    | case2 => simp
    | case3 a b t x y r hx hy hr ih =>
      intro hm
      simp at hm
      rcases hm with rfl | rfl | hm
      · rw [show hexValue 'x' = none by decide +kernel] at hr; simp at hr
      · rw [show hexValue 'x' = none by decide +kernel] at hy; simp at hy
      · rw [ih hm] at hx; simp at hx
    | case4 => simp
  have hx : 'x' ∈ h := by
    simp [hexRaw, hex, based] at hh
    rw [← hh]
    simp
  simp [unhexRaw, strOf, Py.ensureStr, bad h hx, seen]

/-- C116, missing: negative numbers.  OCT of a natural number is its digits. -/
theorem C116_oct_partial (n : Nat) : ∃ h, octRaw (.int n) = some (.str h) ∧ DigitsOnly 8 n h := by
  have hn : ¬ ((n : Int) < 0) := by omega
  exact ⟨digitsOf 6 n, by simp [octRaw, oct, based, hn], Enc.digitsOf_read 6 (by omega) n⟩

/-- Violation: OCT of a negative number begins with the letter `o`; of a text or a fraction it is NULL, and so is BIN of a text. -/
theorem C116_oct_negative_violated (n : Nat) (s : Str) (q : Rat) (c : Char) :
    (∃ h, octRaw (.int (-(n + 1 : Nat))) = some (.str ('o' :: h))) ∧ caught (octRaw (.str s)) = .null ∧
    caught (octRaw (.flt q)) = .null ∧ caught (binRaw (.str (c :: s))) = .null := by
  refine ⟨⟨digitsOf 6 (n + 1), ?_⟩, rfl, rfl, rfl⟩
  have hn : (-((n + 1 : Nat) : Int)) < 0 := by omega
  have ha : (-((n + 1 : Nat) : Int)).natAbs = n + 1 := by omega
  simp only [octRaw, oct, based, hn, ha, if_true]
  rfl

/-- C74, missing: longer texts.  ORD of a character is its code, and CHAR gives the character back; CHAR of several codes is the text
of them. -/
theorem C74_char (py : Py) (s : Str) :
    charRaw (s.map fun c => .int c.toNat) = some (.str s) ∧ ∀ c, s = [c] → ordRaw py (.str s) = some (.int c.toNat) := by
  refine ⟨?_, ?_⟩
  · have : ∀ s : Str, (s.map fun c => Val.int c.toNat).mapM chr = some s := by
      intro s
      induction s with
      | nil => rfl
      | cons c t ih =>
        have hc : chr (.int c.toNat) = some c := by
          unfold chr
          have : c.toNat.isValidChar := c.valid
          simp [this]
        rw [List.map_cons, List.mapM_cons, hc, ih]
        rfl
    simp [charRaw, this]
  · rintro c rfl
    simp [ordRaw, Py.ensureStr]

/-- Violation: ORD of any text but a single character is NULL. -/
theorem C116_ord_violated (py : Py) (s : Str) (h : s.length ≠ 1) : caught (ordRaw py (.str s)) = .null := by
  match s, h with
  | [], _ => rfl
  | _ :: _ :: _, _ => rfl

/-- Violation: ASCII adds the codes of all characters; it is the code of the first one, as SQL says, only when the others are NUL
characters. -/
theorem C116_ascii_violated (py : Py) (c : Char) (t : Str) :
    asciiRaw py (.str (c :: t)) = some (.int c.toNat) ↔ ∀ x ∈ t, x.toNat = 0 := by
  have : (t.map Char.toNat).sum = 0 ↔ ∀ x ∈ t, x.toNat = 0 := by
    induction t with
    | nil => simp
    | cons a t ih => simp [ih]
  rw [← this]
  simp only [asciiRaw, Py.ensureStr, Option.map_some, Option.some.injEq, Val.int.injEq, List.map_cons, List.sum_cons]
  omega

/-- C74, missing: longer texts. -/
theorem C74_ascii (py : Py) (c : Char) : asciiRaw py (.str [c]) = some (.int c.toNat) := by
  rw [C116_ascii_violated]; simp

/-- Violation: a NULL among the arguments of CHAR makes the result NULL instead of being skipped, and so does a text of digits. -/
theorem C116_char_null_violated (l : List Val) (v : Val) (hv : v ∈ l) (h : v = .null ∨ ∃ s, v = .str s) :
    caught (charRaw l) = .null := by
  have : l.mapM chr = none := by
    induction l with
    | nil => simp at hv
    | cons a l ih =>
      rw [List.mapM_cons]
      simp at hv
      rcases hv with rfl | hv
      · have : chr v = none := by rcases h with rfl | ⟨s, rfl⟩ <;> rfl
        simp [this]
      · cases chr a <;> simp [ih hv]
  simp [charRaw, this, caught]

/-- Violation: CRC32 of every text is NULL. -/
theorem C116_crc32_violated (crc : List UInt8 → Nat) (s : Str) : caught (crc32Raw crc (.val (.str s))) = .null := rfl

/-- C116, missing: without UNHEX in between (see the violation).  INET4_NTOA and INET6_NTOA of the UNHEX of what INET4_ATON and
INET6_ATON give is the text of the address, whatever library functions convert to and from bytes. -/
theorem C116_inet_partial (py : Py) (aton : Str → Option (List UInt8)) (toText : List UInt8 → Option Str) (s : Str) (b : List UInt8)
    (h1 : aton s = some b) (h2 : toText b = some s) :
    inetNtoa toText (seen (unhexRaw py (.val (inetAton aton (.str s))))) = .str s ∧ isIp aton (.str s) = .int 1 := by
  have : (Py.ensureStr py (.str (b2aHex b))).bind a2bHex = some b := by simp [Py.ensureStr, Enc.unhex_hex]
  refine ⟨?_, by simp [isIp, h1]⟩
  simp [inetAton, h1, unhexRaw, strOf, this, seen, inetNtoa, h2]

/-- Violation: applied directly, the result is NULL for every address: the one gives a text, the other takes bytes. -/
theorem C116_inet_violated (aton : Str → Option (List UInt8)) (toText : List UInt8 → Option Str) (v : Val) :
    inetNtoa toText (.val (inetAton aton v)) = .null := rfl

/-- NULL in, NULL out. -/
theorem C74_null (py : Py) (crc : List UInt8 → Nat) (aton : Str → Option (List UInt8)) :
    hexRaw .null = some .null ∧ binRaw .null = some .null ∧ octRaw .null = some .null ∧ ordRaw py .null = some .null ∧
    asciiRaw py .null = some .null ∧ fromBase64Raw .null = some .null ∧ toBase64Raw .null = some .null ∧
    unhexRaw py (.val .null) = some (.val .null) ∧ crc32Raw crc (.val .null) = some .null ∧ inetAton aton .null = .null ∧
    isIp aton .null = .null := ⟨rfl, rfl, rfl, rfl, rfl, rfl, rfl, rfl, rfl, rfl, rfl⟩

/-- Concrete cases. -/
example : toBase64Raw (.str "héé!".toList) = some (.str "aMOpw6kh".toList) ∧
    fromBase64Raw (.str "aMOp\n w6kh".toList) = fromBase64Raw (.str "aMOpw6kh".toList) ∧
    ntoa [127, 0, 0, 1] = some "127.0.0.1".toList := by
  refine ⟨by decide +kernel, by rw [C74_base64_noise]; decide +kernel, ?_⟩
  have : natText 127 = "127".toList ∧ natText 0 = "0".toList ∧ natText 1 = "1".toList := by
    simp [natText, digitChar]
  simp [ntoa, this]

end Verif.Props
