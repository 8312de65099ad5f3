import Verif.Model.Json
/-!
Specification of C178: the grammar of JSON texts (RFC 8259) and what they mean.  `Denotes py s j`: the text `s` is a JSON text of the
document `j`.  A pair of halves written with `\u` is one character.  Of several members with the same name the last one counts, in the
place of the first.  `py.float` is the fraction a text of digits, point and exponent means.
-/
namespace Verif.JsonGrammar
open Verif.Val (Str Py)
open Verif.Json (J)

/-- A text of blanks. -/
def Blanks (w : Str) : Prop := ∀ c ∈ w, c = ' ' ∨ c = '\t' ∨ c = '\n' ∨ c = '\r'

/-- The hexadecimal digits. -/
def hexDigits : List (Char × Nat) :=
  [('0', 0), ('1', 1), ('2', 2), ('3', 3), ('4', 4), ('5', 5), ('6', 6), ('7', 7), ('8', 8), ('9', 9),
   ('a', 10), ('b', 11), ('c', 12), ('d', 13), ('e', 14), ('f', 15), ('A', 10), ('B', 11), ('C', 12), ('D', 13), ('E', 14), ('F', 15)]

/-- The characters that can be written with a backslash and one letter. -/
def letters : List (Char × Nat) :=
  [('"', 34), ('\\', 92), ('/', 47), ('b', 8), ('f', 12), ('n', 10), ('r', 13), ('t', 9)]

/-- The code one piece of a quoted text stands for. -/
inductive Piece : Str → Nat → Prop
  | plain (c : Char) (hq : c ≠ '"') (hb : c ≠ '\\') (hc : 32 ≤ c.toNat) : Piece [c] c.toNat
  | letter (c : Char) (n : Nat) (h : (c, n) ∈ letters) : Piece ['\\', c] n
  | code (a b c d : Char) (i j k l : Nat) (ha : (a, i) ∈ hexDigits) (hb : (b, j) ∈ hexDigits) (hc : (c, k) ∈ hexDigits)
      (hd : (d, l) ∈ hexDigits) : Piece ['\\', 'u', a, b, c, d] (4096 * i + 256 * j + 16 * k + l)

/-- The codes of what stands between two quotes. -/
inductive Codes : Str → List Nat → Prop
  | nil : Codes [] []
  | cons {s t : Str} {n : Nat} {l : List Nat} (h : Piece s n) (ht : Codes t l) : Codes (s ++ t) (n :: l)

/-- The characters of codes (UTF-16). -/
inductive Chars : List Nat → Str → Prop
  | nil : Chars [] []
  | one {l : List Nat} {t : Str} (c : Char) (h : Chars l t) : Chars (c.toNat :: l) (c :: t)
  | pair {l : List Nat} {t : Str} (hi lo : Nat) (c : Char) (h1 : 0xD800 ≤ hi ∧ hi ≤ 0xDBFF) (h2 : 0xDC00 ≤ lo ∧ lo ≤ 0xDFFF)
      (hc : c.toNat = 0x10000 + (hi - 0xD800) * 1024 + (lo - 0xDC00)) (h : Chars l t) : Chars (hi :: lo :: l) (c :: t)

/-- `s` between quotes is the text `t`. -/
def Quoted (s t : Str) : Prop := ∃ l, Codes s l ∧ Chars l t

def Digit (c : Char) : Prop := 48 ≤ c.toNat ∧ c.toNat ≤ 57

/-- A natural number without leading zeros. -/
def Whole (s : Str) : Prop := s ≠ [] ∧ (∀ c ∈ s, Digit c) ∧ (s.head? = some '0' → s = ['0'])
/-- A point and digits, or nothing. -/
def Fraction (s : Str) : Prop := s = [] ∨ ∃ d, s = '.' :: d ∧ d ≠ [] ∧ ∀ c ∈ d, Digit c
/-- An exponent, or nothing. -/
def Exponent (s : Str) : Prop :=
  s = [] ∨ ∃ e g d, s = e :: (g ++ d) ∧ (e = 'e' ∨ e = 'E') ∧ (g = [] ∨ g = ['+'] ∨ g = ['-']) ∧ d ≠ [] ∧ ∀ c ∈ d, Digit c

/-- The number of a text of digits. -/
def decimal (s : Str) : Nat := s.foldl (fun n c => 10 * n + (c.toNat - 48)) 0

/-- The object of members in the order they are written. -/
def objectOf (ps : List (Str × J)) : List (Str × J) :=
  (ps.map (·.1)).eraseDups.map fun k => (k, ((ps.filter (·.1 = k)).getLast?.map (·.2)).getD .null)

mutual
/-- The value a text means, without blanks around it. -/
inductive Value (py : Py) : Str → J → Prop
  | null : Value py ['n', 'u', 'l', 'l'] .null
  | true : Value py ['t', 'r', 'u', 'e'] (.bool true)
  | false : Value py ['f', 'a', 'l', 's', 'e'] (.bool false)
  | natural {w : Str} (h : Whole w) : Value py w (.int (decimal w))
  | negative {w : Str} (h : Whole w) : Value py ('-' :: w) (.int (-(decimal w : Int)))
  | fraction {w f e g : Str} {q : Rat} (hg : g = [] ∨ g = ['-']) (h : Whole w) (hf : Fraction f) (he : Exponent e)
      (hn : f ≠ [] ∨ e ≠ []) (hq : py.float (g ++ w ++ f ++ e) = some q) : Value py (g ++ w ++ f ++ e) (.flt q)
  | text {s t : Str} (h : Quoted s t) : Value py ('"' :: (s ++ ['"'])) (.str t)
  | empty {w : Str} (hw : Blanks w) : Value py ('[' :: (w ++ [']'])) (.arr [])
  | array {w s : Str} {l : List J} (hw : Blanks w) (h : Elements py s l) : Value py ('[' :: (w ++ (s ++ [']']))) (.arr l)
  | none {w : Str} (hw : Blanks w) : Value py ('{' :: (w ++ ['}'])) (.obj [])
  | object {w s : Str} {ps : List (Str × J)} (hw : Blanks w) (h : Members py s ps) :
      Value py ('{' :: (w ++ (s ++ ['}']))) (.obj (objectOf ps))
/-- Values with commas between them. -/
inductive Elements (py : Py) : Str → List J → Prop
  | one {s w : Str} {x : J} (h : Value py s x) (hw : Blanks w) : Elements py (s ++ w) [x]
  | cons {s w w' t : Str} {x : J} {l : List J} (h : Value py s x) (hw : Blanks w) (hw' : Blanks w') (ht : Elements py t l) :
      Elements py (s ++ (w ++ ',' :: (w' ++ t))) (x :: l)
/-- Names and values with commas between them. -/
inductive Members (py : Py) : Str → List (Str × J) → Prop
  | one {n k w w' s w'' : Str} {x : J} (hn : Quoted n k) (hw : Blanks w) (hw' : Blanks w') (h : Value py s x) (hw'' : Blanks w'') :
      Members py ('"' :: (n ++ '"' :: (w ++ ':' :: (w' ++ (s ++ w''))))) [(k, x)]
  | cons {n k w w' s w'' w3 t : Str} {x : J} {l : List (Str × J)} (hn : Quoted n k) (hw : Blanks w) (hw' : Blanks w')
      (h : Value py s x) (hw'' : Blanks w'') (hw3 : Blanks w3) (ht : Members py t l) :
      Members py ('"' :: (n ++ '"' :: (w ++ ':' :: (w' ++ (s ++ (w'' ++ ',' :: (w3 ++ t))))))) ((k, x) :: l)
end

/-- `s` is a JSON text of the document `j`. -/
def Denotes (py : Py) (s : Str) (j : J) : Prop := ∃ w v w', Blanks w ∧ Blanks w' ∧ s = w ++ (v ++ w') ∧ Value py v j

end Verif.JsonGrammar
