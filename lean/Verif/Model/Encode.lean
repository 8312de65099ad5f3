import Verif.Model.Str
/-!
Model of the functions between texts, numbers and bytes (calculaters/mysql_funcs/string_funcs.py:11-61, 234-307).

`none` is an exception, which SQL sees as NULL (mysql_calculater.py:45-53).  Texts are decoded and encoded as UTF-8 by Lean's own
functions.  `socket.inet_aton` and `inet_pton` are a parameter.
-/
namespace Verif.Encode
open Verif.Val

/-- What these functions work on: ordinary values, and Python `bytes`. -/
inductive Out where
  | val (v : Val)
  | bytes (b : List UInt8)

/-- What SQL sees of a result: an exception is NULL. -/
def seen (r : Option Out) : Out := r.getD (.val .null)

/-! ### Python's library -/

/-- `s.encode("utf-8")`. -/
def utf8 (s : Str) : List UInt8 := s.flatMap String.utf8EncodeChar

/-- `b.decode("utf-8")`; `none`: `UnicodeDecodeError`. -/
def decode (b : List UInt8) : Option Str := (b.toByteArray.utf8Decode?).map Array.toList

/-- The digit characters, lower case. -/
def digit (n : Nat) : Char := if n < 10 then Char.ofNat (48 + n) else Char.ofNat (87 + n)

/-- The digits of a number in base `b + 2`. -/
def digitsOf (b n : Nat) : Str :=
  if n < b + 2 then [digit n] else digitsOf b (n / (b + 2)) ++ [digit (n % (b + 2))]
termination_by n
decreasing_by
  rename_i h
  exact Nat.div_lt_self (by omega) (by omega)

/-- `bin(i)`, `oct(i)`, `hex(i)`. -/
def based (b : Nat) (p : Char) (i : Int) : Str :=
  (if i < 0 then ['-'] else []) ++ ['0', p] ++ digitsOf b i.natAbs
/-- `bin`. -/
def bin : Int → Str := based 0 'b'
/-- `oct`. -/
def oct : Int → Str := based 6 'o'
/-- `hex`. -/
def hex : Int → Str := based 14 'x'

/-- `binascii.b2a_hex(b)` as a text. -/
def b2aHex (b : List UInt8) : Str := b.flatMap fun x => [digit (x.toNat / 16), digit (x.toNat % 16)]

/-- The value of a hexadecimal digit, of either case. -/
def hexValue (c : Char) : Option Nat :=
  let n := c.toNat
  if 48 ≤ n ∧ n ≤ 57 then some (n - 48) else if 97 ≤ n ∧ n ≤ 102 then some (n - 87) else if 65 ≤ n ∧ n ≤ 70 then some (n - 55)
  else none

/-- `binascii.a2b_hex(s)`; `none`: odd length or another character. -/
def a2bHex : Str → Option (List UInt8)
  | [] => some []
  | [_] => none
  | a :: b :: t =>
    match hexValue a, hexValue b, a2bHex t with
    | some x, some y, some r => some (UInt8.ofNat (16 * x + y) :: r)
    | _, _, _ => none

/-- The base64 alphabet. -/
def sixChar (n : Nat) : Char :=
  if n < 26 then Char.ofNat (65 + n) else if n < 52 then Char.ofNat (71 + n) else if n < 62 then Char.ofNat (n - 4)
  else if n = 62 then '+' else '/'

/-- The six bits of a character of base64. -/
def sixValue (c : Char) : Option Nat :=
  let n := c.toNat
  if 65 ≤ n ∧ n ≤ 90 then some (n - 65) else if 97 ≤ n ∧ n ≤ 122 then some (n - 71) else if 48 ≤ n ∧ n ≤ 57 then some (n + 4)
  else if c = '+' then some 62 else if c = '/' then some 63 else none

/-- `base64.b64encode(b)` as a text. -/
def b64encode : List UInt8 → Str
  | [] => []
  | [a] => [sixChar (a.toNat / 4), sixChar (a.toNat % 4 * 16), '=', '=']
  | [a, b] => [sixChar (a.toNat / 4), sixChar (a.toNat % 4 * 16 + b.toNat / 16), sixChar (b.toNat % 16 * 4), '=']
  | a :: b :: c :: t =>
    sixChar (a.toNat / 4) :: sixChar (a.toNat % 4 * 16 + b.toNat / 16) :: sixChar (b.toNat % 16 * 4 + c.toNat / 64) ::
      sixChar (c.toNat % 64) :: b64encode t

/-- `base64.b64decode(s)`, the loop of CPython's `a2b_base64` (not strict): `quad` is the place in the group of four, `left` the bits
left over, `pads` the padding characters seen; characters outside of the alphabet are skipped; `none`: incorrect padding. -/
def b64go : (quad left pads : Nat) → Str → Option (List UInt8)
  | quad, _, _, [] => if quad = 0 then some [] else none
  | quad, left, pads, c :: t =>
    if c = '=' then
      if 2 ≤ quad ∧ 4 ≤ quad + (pads + 1) then some [] else b64go quad left (if 2 ≤ quad then pads + 1 else pads) t
    else
      match sixValue c with
      | none => b64go quad left pads t
      | some v =>
        if quad = 0 then b64go 1 v 0 t
        else if quad = 1 then (b64go 2 (v % 16) 0 t).map (UInt8.ofNat (left * 4 + v / 16) :: ·)
        else if quad = 2 then (b64go 3 (v % 4) 0 t).map (UInt8.ofNat (left * 16 + v / 4) :: ·)
        else (b64go 0 0 0 t).map (UInt8.ofNat (left * 64 + v) :: ·)

/-- `base64.b64decode`. -/
def b64decode (s : Str) : Option (List UInt8) := b64go 0 0 0 s

/-- `socket.inet_ntoa(b)`: four bytes, in decimal. -/
def ntoa : List UInt8 → Option Str
  | [a, b, c, d] => some (natText a.toNat ++ ['.'] ++ natText b.toNat ++ ['.'] ++ natText c.toNat ++ ['.'] ++ natText d.toNat)
  | _ => none

/-! ### The functions -/

/-- string_funcs.py:11-21 `mysql_bin`; `bin` of a text raises. -/
def binRaw : Val → Option Val
  | .null => some .null
  | .bool b => some (.str (bin (if b then 1 else 0)))
  | .int i => some (.str (bin i))
  | .flt q => some (.str (bin (trunc q)))
  | .str [] => some (.str (bin 0))
  | .str _ => none

/-- string_funcs.py:23-33 `mysql_hex`. -/
def hexRaw : Val → Option Val
  | .null => some .null
  | .bool b => some (.str (hex (if b then 1 else 0)))
  | .int i => some (.str (hex i))
  | .flt q => some (.str (hex (trunc q)))
  | .str [] => some (.str (hex 0))
  | .str s => some (.str (b2aHex (utf8 s)))

variable (py : Py)

/-- utils.py:120-137 `ensure_str`, with bytes. -/
def strOf : Out → Option Str
  | .val v => py.ensureStr v
  | .bytes b => if b = [] then some ['0'] else decode b

/-- string_funcs.py:35-39 `mysql_unhex`. -/
def unhexRaw : Out → Option Out
  | .val .null => some (.val .null)
  | x => ((strOf py x).bind a2bHex).map .bytes

/-- string_funcs.py:41-45 `mysql_oct`: `oct` takes integers only. -/
def octRaw : Val → Option Val
  | .null => some .null
  | .bool b => some (.str ((oct (if b then 1 else 0)).drop 2))
  | .int i => some (.str ((oct i).drop 2))
  | _ => none

/-- string_funcs.py:47-51 `mysql_ord`: `ord` takes texts of one character only. -/
def ordRaw : Val → Option Val
  | .null => some .null
  | v => match py.ensureStr v with
    | some [c] => some (.int c.toNat)
    | _ => none

/-- string_funcs.py:53-57 `mysql_ascii`. -/
def asciiRaw : Val → Option Val
  | .null => some .null
  | v => (py.ensureStr v).map fun s => .int ((s.map Char.toNat).sum : Nat)

/-- `chr(arg)`; simplified: the codes of surrogates raise. -/
def chr : Val → Option Char
  | .int i => if 0 ≤ i ∧ (i.toNat).isValidChar then some (Char.ofNat i.toNat) else none
  | .bool b => some (Char.ofNat (if b then 1 else 0))
  | _ => none

/-- string_funcs.py:59-61 `mysql_char`. -/
def charRaw (args : List Val) : Option Val := (args.mapM chr).map .str

/-- string_funcs.py:234-239 `mysql_crc32`: `zlib.crc32` takes bytes; `crc` is its result on them. -/
def crc32Raw (crc : List UInt8 → Nat) : Out → Option Val
  | .val .null => some .null
  | .val _ => none
  | .bytes b => some (.int (crc b))

/-- string_funcs.py:241-245 `mysql_from_base64`. -/
def fromBase64Raw : Val → Option Val
  | .null => some .null
  | .str s => ((b64decode s).bind decode).map .str
  | _ => none

/-- string_funcs.py:247-251 `mysql_to_base64`. -/
def toBase64Raw : Val → Option Val
  | .null => some .null
  | .str s => some (.str (b64encode (utf8 s)))
  | _ => none

/-- string_funcs.py:253-260 `mysql_inet4_aton` and 281-288 `mysql_inet6_aton`; `aton` is `socket.inet_aton` (`inet_pton`). -/
def inetAton (aton : Str → Option (List UInt8)) : Val → Val
  | .str s => match aton s with
    | some b => .str (b2aHex b)
    | none => .null
  | _ => .null

/-- string_funcs.py:262-269 `mysql_inet4_ntoa` and 290-297 `mysql_inet6_ntoa`: bytes only; `toText` is `socket.inet_ntoa` (`inet_ntop`). -/
def inetNtoa (toText : List UInt8 → Option Str) : Out → Val
  | .bytes b => match toText b with
    | some s => .str s
    | none => .null
  | .val _ => .null

/-- string_funcs.py:271-279 `mysql_is_ipv4` and 299-307 `mysql_is_ipv6`. -/
def isIp (aton : Str → Option (List UInt8)) : Val → Val
  | .null => .null
  | .str s => .int (if (aton s).isSome then 1 else 0)
  | _ => .int 0

end Verif.Encode
