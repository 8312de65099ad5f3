import Verif.Model.Value
/-! Specification of JSON_OBJECTAGG and JSON_ARRAYAGG: the JSON object and the JSON array of a group's rows. -/
namespace Verif.JsonAggSpec
open Verif.Val

/-- `o` is the JSON object of the members `ps` (name, value), in the order of the rows: every name occurs once, the
names are those of the rows in the order they first occur, and a name's value is the one of the last row with it. -/
structure IsObject {K V : Type} (ps o : List (K × V)) : Prop where
  once : (o.map (·.1)).Nodup
  order : ∀ a b, (∃ i j : Nat, i < j ∧ (o.map (·.1))[i]? = some a ∧ (o.map (·.1))[j]? = some b) →
    ∃ i : Nat, (ps.map (·.1))[i]? = some a ∧ ∀ j, (ps.map (·.1))[j]? = some b → i < j
  last : ∀ k v, (k, v) ∈ o ↔ ∃ before after, ps = before ++ (k, v) :: after ∧ k ∉ after.map (·.1)

end Verif.JsonAggSpec
