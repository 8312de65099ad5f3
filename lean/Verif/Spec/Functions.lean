import Verif.Spec.Select
import Verif.Spec.Text
import Verif.Spec.Nest
import Verif.Spec.Accepted
/-!
What SQL's functions and operators (`Std`) and comparisons (`StdCmp`) mean, on the arguments for which the program is meant to follow
SQL, and when a statement uses them only there (`Within`).  The syntax of expressions (`E`) is taken from the model.
-/
namespace Verif.SqlFunctions
open Verif.Val Verif.Text Verif.Expr Verif.Sql

/-- A number and its value. -/
inductive Num : Val → Rat → Prop where
  | int (i : Int) : Num (.int i) i
  | flt (q : Rat) : Num (.flt q) q

/-- One of them has a fraction. -/
def Fractional (x y : Val) : Prop := ∃ q, x = .flt q ∨ y = .flt q

/-- `r` is `s` with all occurrences of `a`, read from the left, replaced by `b`. -/
inductive Replaced (a b : Str) : Str → Str → Prop where
  | none {s} (h : ¬ a <:+: s) : Replaced a b s s
  | first {s x y r} (h : FirstOcc a s x y) (h' : Replaced a b y r) : Replaced a b s (x ++ b ++ r)

/-- Only spaces. -/
def Spaces (s : Str) : Prop := ∀ c ∈ s, c = ' '
/-- White space. -/
def White (c : Char) : Prop := c = ' ' ∨ c = '\t' ∨ c = '\n' ∨ c = '\r' ∨ c = '\x0b' ∨ c = '\x0c'
/-- Neither the first nor the last character is white space. -/
def Solid (s : Str) : Prop := (∀ c, s.head? = some c → ¬ White c) ∧ (∀ c, s.getLast? = some c → ¬ White c)

/-- Patterns of LIKE in which `%` ends the pattern and `_` and `%%` do not occur. -/
def Simple : Str → Prop
  | [] => False
  | ['%'] => True
  | '%' :: '%' :: _ => False
  | '_' :: _ => False
  | _ :: r => Simple r

/-- `Std same f args v`: the function (or operator) `f` of `args` is `v`. -/
inductive Std (same : Char → Char → Bool) : Str → List Val → Val → Prop where
  -- NULL
  | binary_null {f x y} (hf : f ∈ ["add", "sub", "mul", "div", "mod", "startswith", "endswith", "contains", "like"].map (·.toList))
      (h : x = .null ∨ y = .null) : Std same f [x, y] .null
  | unary_null {f} (hf : f ∈ ["abs", "ceil", "ceiling", "floor", "sign", "length", "char_length", "character_length", "trim",
      "reverse"].map (·.toList)) : Std same f [.null] .null
  | first_null {f n} (hf : f ∈ ["left", "right", "repeat", "substring", "substr"].map (·.toList)) : Std same f [.null, n] .null
  | concat_null {args} (h : .null ∈ args) : Std same "concat".toList args .null
  -- numbers
  | add_int (a b : Int) : Std same "add".toList [.int a, .int b] (.int (a + b))
  | sub_int (a b : Int) : Std same "sub".toList [.int a, .int b] (.int (a - b))
  | mul_int (a b : Int) : Std same "mul".toList [.int a, .int b] (.int (a * b))
  | add {x y p q} (hx : Num x p) (hy : Num y q) (h : Fractional x y) : Std same "add".toList [x, y] (.flt (p + q))
  | sub {x y p q} (hx : Num x p) (hy : Num y q) (h : Fractional x y) : Std same "sub".toList [x, y] (.flt (p - q))
  | mul {x y p q} (hx : Num x p) (hy : Num y q) (h : Fractional x y) : Std same "mul".toList [x, y] (.flt (p * q))
  | div {x y p q} (hx : Num x p) (hy : Num y q) (h : q ≠ 0) : Std same "div".toList [x, y] (.flt (p / q))
  | div_zero {x y p q} (hx : Num x p) (hy : Num y q) (h : q = 0) : Std same "div".toList [x, y] .null
  | mod (a b : Nat) (h : b ≠ 0) : Std same "mod".toList [.int a, .int b] (.int (a % b : Nat))
  | mod_zero {x y p q} (hx : Num x p) (hy : Num y q) (h : q = 0) : Std same "mod".toList [x, y] .null
  | abs_int (a : Int) : Std same "abs".toList [.int a] (.int (if a < 0 then -a else a))
  | abs_flt (a : Rat) : Std same "abs".toList [.flt a] (.flt (if a < 0 then -a else a))
  | floor {x p} (n : Int) (h : Num x p) (h1 : (n : Rat) ≤ p) (h2 : p < n + 1) : Std same "floor".toList [x] (.int n)
  | ceil {f x p} (hf : f = "ceil".toList ∨ f = "ceiling".toList) (n : Int) (h : Num x p) (h1 : p ≤ n) (h2 : (n : Rat) < p + 1) :
      Std same f [x] (.int n)
  | sign_neg {x p} (h : Num x p) (hp : p < 0) : Std same "sign".toList [x] (.int (-1))
  | sign_zero {x p} (h : Num x p) (hp : p = 0) : Std same "sign".toList [x] (.int 0)
  | sign_pos {x p} (h : Num x p) (hp : 0 < p) : Std same "sign".toList [x] (.int 1)
  -- texts
  | char_length {f} (hf : f = "char_length".toList ∨ f = "character_length".toList) (s : Str) : Std same f [.str s] (.int s.length)
  | length (s : Str) (h : ∀ c ∈ s, c.toNat < 128) : Std same "length".toList [.str s] (.int s.length)
  | concat (l : List Str) : Std same "concat".toList (l.map .str) (.str l.flatten)
  | left (s : Str) (n : Nat) : Std same "left".toList [.str s, .int n] (.str (s.take n))
  | right (s : Str) (n : Nat) (h : 0 < n) : Std same "right".toList [.str s, .int n] (.str (s.drop (s.length - n)))
  | substring {f} (hf : f = "substring".toList ∨ f = "substr".toList) (s : Str) (n : Nat) (h : 0 < n) :
      Std same f [.str s, .int n] (.str (s.drop (n - 1)))
  | substring_length {f} (hf : f = "substring".toList ∨ f = "substr".toList) (s : Str) (n l : Nat) (h : 0 < n) :
      Std same f [.str s, .int n, .int l] (.str ((s.drop (n - 1)).take l))
  | repeat (s : Str) (n : Nat) : Std same "repeat".toList [.str s, .int n] (.str (List.replicate n s).flatten)
  | reverse (s : Str) : Std same "reverse".toList [.str s] (.str s.reverse)
  | trim (x t y : Str) (hx : Spaces x) (hy : Spaces y) (ht : Solid t) : Std same "trim".toList [.str (x ++ t ++ y)] (.str t)
  | replace {s a b r : Str} (h : a ≠ []) (hr : Replaced a b s r) : Std same "replace".toList [.str s, .str a, .str b] (.str r)
  | startswith_yes (s x : Str) : Std same "startswith".toList [.str (s ++ x), .str s] (.int 1)
  | startswith_no {s t : Str} (h : ∀ x, t ≠ s ++ x) : Std same "startswith".toList [.str t, .str s] (.int 0)
  | endswith_yes (s x : Str) : Std same "endswith".toList [.str (x ++ s), .str s] (.int 1)
  | endswith_no {s t : Str} (h : ∀ x, t ≠ x ++ s) : Std same "endswith".toList [.str t, .str s] (.int 0)
  | contains_yes (s x y : Str) : Std same "contains".toList [.str (x ++ s ++ y), .str s] (.int 1)
  | contains_no {s t : Str} (h : ∀ x y, t ≠ x ++ s ++ y) : Std same "contains".toList [.str t, .str s] (.int 0)
  | like_yes {s r : Str} (hr : Simple r) (hs : '\n' ∉ s) (h : Like same r s) : Std same "like".toList [.str s, .str r] (.int 1)
  | like_no {s r : Str} (hr : Simple r) (hs : '\n' ∉ s) (h : ¬ Like same r s) : Std same "like".toList [.str s, .str r] (.int 0)

/-- `s` comes before `t`, code point by code point. -/
def Earlier (s t : Str) : Prop :=
  (∃ c r, t = s ++ c :: r) ∨ ∃ p c d s' t', s = p ++ c :: s' ∧ t = p ++ d :: t' ∧ c.toNat < d.toNat

/-- `p op q`, for numbers. -/
def CmpNum (p q : Rat) : Cmp → Prop
  | .eq => p = q
  | .neq => p ≠ q
  | .gt => q < p
  | .gte => q ≤ p
  | .lt => p < q
  | .lte => p ≤ q

/-- `s op t`, for texts. -/
def CmpText (s t : Str) : Cmp → Prop
  | .eq => s = t
  | .neq => s ≠ t
  | .gt => Earlier t s
  | .gte => s = t ∨ Earlier t s
  | .lt => Earlier s t
  | .lte => s = t ∨ Earlier s t

/-- `StdCmp op x y v`: `x op y` is `v`, for two numbers, two texts (binary collation) or NULL. -/
inductive StdCmp (op : Cmp) : Val → Val → Val → Prop where
  | null {x y} (h : x = .null ∨ y = .null) : StdCmp op x y .null
  | num_yes {x y p q} (hx : Num x p) (hy : Num y q) (h : CmpNum p q op) : StdCmp op x y (.int 1)
  | num_no {x y p q} (hx : Num x p) (hy : Num y q) (h : ¬ CmpNum p q op) : StdCmp op x y (.int 0)
  | text_yes {s t} (h : CmpText s t op) : StdCmp op (.str s) (.str t) (.int 1)
  | text_no {s t} (h : ¬ CmpText s t op) : StdCmp op (.str s) (.str t) (.int 0)

/-- `cmp` is a meaning of comparisons that agrees with SQL's. -/
def ImplementsCmp (cmp : Cmp → Val → Val → Val) : Prop := ∀ op x y v, StdCmp op x y v → cmp op x y = v

/-- `sql` is a meaning of functions that agrees with SQL's. -/
def Implements (same : Char → Char → Bool) (sql : Str → List Val → Val) : Prop := ∀ f args v, Std same f args v → sql f args = v

section
variable (same : Char → Char → Bool) (text : Str → Bool) (cmp : Cmp → Val → Val → Val) (sql : Str → List Val → Val) (row : Str → Val)

mutual
/-- Every function in the expression is called, on this row, with arguments for which `Std` says what it is, and every comparison
compares values for which `StdCmp` does; IN compares with each of the list, CASE with each of the branches (`v`). -/
def Within : E → Prop
  | .lit _ => True
  | .col _ => True
  | .cmp op a b => Within a ∧ Within b ∧ ∃ w, StdCmp op (sem text cmp sql row a) (sem text cmp sql row b) w
  | .and a b => Within a ∧ Within b
  | .or a b => Within a ∧ Within b
  | .not a => Within a
  | .is a _ => Within a
  | .inl a l => Within a ∧ WithinL l ∧ ∀ x ∈ semL text cmp sql row l, ∃ w, StdCmp .eq (sem text cmp sql row a) x w
  | .between a lo hi => Within a ∧ Within lo ∧ Within hi ∧
      (∃ w, StdCmp .gte (sem text cmp sql row a) (sem text cmp sql row lo) w) ∧
      ∃ w, StdCmp .lte (sem text cmp sql row a) (sem text cmp sql row hi) w
  | .paren a => Within a
  | .ite c t f => Within c ∧ Within t ∧ Within f
  | .ifnull a b => Within a ∧ Within b
  | .coalesce a l => Within a ∧ WithinL l
  | .caseC ws => WithinW none ws
  | .caseV a ws => Within a ∧ WithinW (some (sem text cmp sql row a)) ws
  | .call f l => WithinL l ∧ ∃ v, Std same f (semL text cmp sql row l) v
/-- In a list. -/
def WithinL : EL → Prop
  | .nil => True
  | .cons e l => Within e ∧ WithinL l
/-- In the branches of CASE. -/
def WithinW (v : Option Val) : WL → Prop
  | .noElse => True
  | .els e => Within e
  | .when c t ws => Within c ∧ Within t ∧ WithinW v ws ∧ ∀ x ∈ v, ∃ w, StdCmp .eq x (sem text cmp sql row c) w
end
end

section
open Verif.Select Verif.SqlSelect
variable {S : Type} (same : Char → Char → Bool) (text : Str → Bool) (cmp : Cmp → Val → Val → Val) (sql : Str → List Val → Val)

/-- The query over `rows` uses the functions where `Std` says what they are: on the rows, and in HAVING on the result rows. -/
structure QueryWithin (q : Query S) (rows : List Row) : Prop where
  exprs : ∀ e, AcceptSpec.ExprOf q e → ∀ r ∈ rows, Within same text cmp sql r e
  having : ∀ e ∈ q.having, ∀ members : List Row, (∀ r ∈ members, r ∈ rows) →
    Within same text cmp sql (fun n => colVal n (project text cmp sql q.cols members)) e

/-- Every SELECT of the statement does. -/
def StatementWithin (le : Val → Val → Bool) (env : Str → List Out) : Nest.Rel S → Prop
  | .scan _ => True
  | .select q src => StatementWithin le env src ∧
      ∀ rows, SqlNest.Means text cmp sql le env src rows → QueryWithin same text cmp sql q (rows.map SqlNest.rowOfRecord)
  | .union l r => StatementWithin le env l ∧ StatementWithin le env r
  | .withq n d b => StatementWithin le env d ∧
      ∀ rows, SqlNest.Means text cmp sql le env d rows → StatementWithin le (fun m => if m = n then rows else env m) b
end

end Verif.SqlFunctions
