import Verif.Model.Date
/-! MySQL's DATE_FORMAT: the table of its manual.  Dates and the calendar fields are those of `Model.Date`. -/
namespace Verif.Spec.Calendar
open Verif.Date

/-- `n` in decimal with at least `k` digits. -/
def digits (k : Nat) (n : Int) : List Char :=
  let t := (Nat.repr n.toNat).toList
  List.replicate (k - t.length) '0' ++ t

def days : List String := ["Sunday", "Monday", "Tuesday", "Wednesday", "Thursday", "Friday", "Saturday"]
def months : List String :=
  ["January", "February", "March", "April", "May", "June", "July", "August", "September", "October", "November", "December"]

/-- 0 for Sunday. -/
def dow (x : DT) : Nat := ((weekday x + 1) % 7).toNat
def day (x : DT) : List Char := (days.getD (dow x) "").toList
def mon (x : DT) : List Char := (months.getD (x.m.toNat - 1) "").toList

def secs (x : DT) : Int := x.us / 1000000
def hh (x : DT) : Int := secs x / 3600
def mi (x : DT) : Int := secs x % 3600 / 60
def ss (x : DT) : Int := secs x % 60
def h12 (x : DT) : Int := (hh x + 11) % 12 + 1
def ampm (x : DT) : List Char := (if hh x < 12 then "AM" else "PM").toList

/-- English ordinals. -/
def suffix (n : Int) : String :=
  if n = 11 ∨ n = 12 ∨ n = 13 then "th"
  else if n % 10 = 1 then "st" else if n % 10 = 2 then "nd" else if n % 10 = 3 then "rd" else "th"

/-- What MySQL puts for `%c` (`none`: the specifiers for ISO and other week counts, left open). -/
def spec (c : Char) (x : DT) : Option (List Char) :=
  match c with
  | 'a' => some ((day x).take 3)
  | 'b' => some ((mon x).take 3)
  | 'c' => some (digits 1 x.m)
  | 'D' => some (digits 1 x.d ++ (suffix x.d).toList)
  | 'd' => some (digits 2 x.d)
  | 'e' => some (digits 1 x.d)
  | 'f' => some (digits 6 (x.us % 1000000))
  | 'H' => some (digits 2 (hh x))
  | 'h' | 'I' => some (digits 2 (h12 x))
  | 'i' => some (digits 2 (mi x))
  | 'j' => some (digits 3 (dayofyear x))
  | 'k' => some (digits 1 (hh x))
  | 'l' => some (digits 1 (h12 x))
  | 'M' => some (mon x)
  | 'm' => some (digits 2 x.m)
  | 'p' => some (ampm x)
  | 'r' => some (digits 2 (h12 x) ++ ':' :: digits 2 (mi x) ++ ':' :: digits 2 (ss x) ++ ' ' :: ampm x)
  | 'S' | 's' => some (digits 2 (ss x))
  | 'T' => some (digits 2 (hh x) ++ ':' :: digits 2 (mi x) ++ ':' :: digits 2 (ss x))
  | 'U' => some (digits 2 (week x false))
  | 'u' | 'V' | 'v' | 'X' | 'x' => none
  | 'W' => some (day x)
  | 'w' => some (digits 1 (dow x))
  | 'Y' => some (digits 4 x.y)
  | 'y' => some (digits 2 (x.y % 100))
  | c => some [c]

/-- `Format x f t`: DATE_FORMAT(x, f) is t. -/
inductive Format (x : DT) : List Char → List Char → Prop where
  | nil : Format x [] []
  | lit {c f t} : c ≠ '%' → Format x f t → Format x (c :: f) (c :: t)
  | spec {c f s t} : spec c x = some s → Format x f t → Format x ('%' :: c :: f) (s ++ t)

end Verif.Spec.Calendar
