/-! SQL window functions over an ordered partition, defined by counting rows.  Independent of the model. -/
namespace Verif.Spec

variable {κ : Type}

/-- A strict total order. -/
structure StrictTotal (lt : κ → κ → Prop) : Prop where
  irrefl : ∀ a, ¬ lt a a
  trans : ∀ a b c, lt a b → lt b c → lt a c
  total : ∀ a b, lt a b ∨ a = b ∨ lt b a

/-- The keys of an ordered partition: no later row is before an earlier one. -/
def Ordered (lt : κ → κ → Prop) (ks : List κ) : Prop := ks.Pairwise fun a b => ¬ lt b a

/-- `RANK` of a row with key `k`: one plus the number of rows strictly before it. -/
def rank (lt : κ → κ → Prop) [DecidableRel lt] (ks : List κ) (k : κ) : Nat := (ks.filter fun x => lt x k).length + 1

/-- `r` is the `DENSE_RANK` of a row with key `k`: one plus the number of distinct keys strictly before it. -/
def IsDenseRank (lt : κ → κ → Prop) (ks : List κ) (k : κ) (r : Nat) : Prop :=
  ∃ D : List κ, D.Nodup ∧ (∀ x, x ∈ D ↔ x ∈ ks ∧ lt x k) ∧ r = D.length + 1

/-- `PERCENT_RANK`: `(rank - 1) / (rows - 1)`, 0 for a single row. -/
def percentRank (lt : κ → κ → Prop) [DecidableRel lt] (ks : List κ) (k : κ) : Rat :=
  if ks.length ≤ 1 then 0 else ((rank lt ks k : Rat) - 1) / ((ks.length : Rat) - 1)

/-- `CUME_DIST`: the share of rows not after the row. -/
def cumeDist (lt : κ → κ → Prop) [DecidableRel lt] (ks : List κ) (k : κ) : Rat :=
  ((ks.filter fun x => ¬ lt k x).length : Rat) / (ks.length : Rat)

/-- The number of rows `i < rows` that `f` sends to bucket `b`. -/
def bucketSize (rows : Nat) (f : Nat → Option Int) (b : Int) : Nat :=
  ((List.range rows).filter fun i => f i = some b).length

/-- The value at position `o`, the default outside. -/
def at? {α : Type} (l : List α) (o : Int) (d : α) : α := if o < 0 then d else l.getD o.toNat d

end Verif.Spec
