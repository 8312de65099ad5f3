import Verif.Model.Value
/-!
The ways rows can be written to a table, and which one a statement asks for.
-/
namespace Verif.HintSpec
open Verif.Val (Str)

/-- Insert, update, update or insert, update delete or insert, delete and insert. -/
def ways : List Str := ["I".toList, "U".toList, "UI".toList, "UDI".toList, "DI".toList]

/-- `w` is a way of writing, in small or capital letters. -/
def IsWay (upper : Str → Str) (w : Str) : Prop := upper w ∈ ways

/-- The value `h` of `@use_output_type` asks for the way `w`: by its short name or by its long name. -/
inductive Asks (upper : Str → Str) (h : Str) : Str → Prop
  | short : upper h ∈ ways → Asks upper h (upper h)
  | insert : upper h = "INSERT".toList → Asks upper h "I".toList
  | update : upper h = "UPDATE".toList → Asks upper h "U".toList
  | updateInsert : upper h = "UPDATE_INSERT".toList → Asks upper h "UI".toList
  | updateDeleteInsert : upper h = "UPDATE_DELETE_INSERT".toList → Asks upper h "UDI".toList
  | deleteInsert : upper h = "DELETE_INSERT".toList → Asks upper h "DI".toList

/-- How the rows are to be written: as the first option of the table that is a way of writing says; if none is, as
`@use_output_type` says; else they are inserted. -/
inductive Way (upper : Str → Str) (hint : Option Str) (opts : List Str) : Str → Prop
  | table (pre post w) : opts = pre ++ w :: post → (∀ o ∈ pre, ¬ IsWay upper o) → IsWay upper w → Way upper hint opts w
  | hint (h w) : (∀ o ∈ opts, ¬ IsWay upper o) → hint = some h → Asks upper h w → Way upper hint opts w
  | default : (∀ o ∈ opts, ¬ IsWay upper o) → (∀ h, hint = some h → ∀ w, ¬ Asks upper h w) → Way upper hint opts "I".toList

end Verif.HintSpec
