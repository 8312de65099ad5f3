import Verif.Model.LimitParse
import Verif.Props.Limit
/-! C159: the ways to write LIMIT and OFFSET. -/
namespace Verif.Props
open Verif.Limit Verif.LimitParse

namespace LimitText

/-- The statement ends here, or goes on with something that is neither part of the expression before nor of LIMIT and OFFSET. -/
def Ends (rest : List Tok) : Prop := rest = [] ∨ ∃ t r, rest = .other t :: r

/-- What is assumed of the library: it reads `LIMIT n` and `OFFSET n` with a number followed by something that ends it, and finds
nothing where nothing is. -/
structure Reads (b : Base) : Prop where
  limit : ∀ n rest, Ends rest ∨ (∃ m r, rest = .offset :: .number m :: r ∧ Ends r) →
    b.limit (.limit :: .number n :: rest) = some (some (.number n), rest)
  noLimit : ∀ rest, rest.head? ≠ some .limit → b.limit rest = some (none, rest)
  offset : ∀ n rest, Ends rest → b.offset (.offset :: .number n :: rest) = some (some (.number n), rest)
  noOffset : ∀ rest, Ends rest → b.offset rest = some (none, rest)

/-- The ways to write it. -/
inductive Clause where
  | none
  | limit (n : Nat)
  | limitOffset (n m : Nat)
  | comma (m n : Nat)
  | offset (m : Nat)

/-- Its tokens. -/
def Clause.tokens : Clause → List Tok
  | .none => []
  | .limit n => [.limit, .number n]
  | .limitOffset n m => [.limit, .number n, .offset, .number m]
  | .comma m n => [.limit, .number m, .comma, .number n]
  | .offset m => [.offset, .number m]

/-- The rows it asks for. -/
def Clause.page {β : Type} (l : List β) : Clause → List β
  | .none => l
  | .limit n => l.take n
  | .limitOffset n m => (l.drop m).take n
  | .comma m n => (l.drop m).take n
  | .offset m => l.drop m

/-- It does not ask for 0 rows (see C114). -/
def Clause.NotZero : Clause → Prop
  | .limit n => 0 < n
  | .limitOffset n _ => 0 < n
  | .comma _ n => 0 < n
  | _ => True

theorem ends_limit {rest : List Tok} (h : Ends rest) : rest.head? ≠ some .limit := by
  rcases h with rfl | ⟨t, r, rfl⟩ <;> simp

theorem ends_ne {rest : List Tok} (h : Ends rest) : (∀ o n r, rest ≠ .limit :: .number o :: .comma :: .number n :: r) := by
  rcases h with rfl | ⟨t, r, rfl⟩ <;> simp

theorem parseOffset_base {b : Base} {ts : List Tok} (h : ∀ o n r, ts ≠ .limit :: .number o :: .comma :: .number n :: r) :
    parseOffset b ts = b.offset ts := by
  unfold parseOffset
  split
  · rename_i o n r; exact absurd rfl (h o n r)
  · rfl

theorem parseLimit_base {b : Base} {ts : List Tok} (h : ∀ o n r, ts ≠ .limit :: .number o :: .comma :: .number n :: r) :
    parseLimit b ts = b.limit ts := by
  unfold parseLimit
  split
  · rename_i o n r; exact absurd rfl (h o n r)
  · rfl

end LimitText
open LimitText

/-- **C159** `LIMIT m, n` is read as `LIMIT n OFFSET m`, whatever the library makes of it and whatever follows. -/
theorem C159_comma (b : Base) (m n : Nat) (rest : List Tok) :
    parse b (.limit :: .number m :: .comma :: .number n :: rest) = some (some (.number n), some (.number m), rest) := rfl

/-- **C159** Every way of writing LIMIT and OFFSET gives the rows it asks for, of every query C46 speaks of, and leaves what stands
behind it. -/
theorem C159_clause {α β : Type} (b : Base) (hb : Reads b) (q : Shape) (proc : List α → List β) (h : Guarded q ∨ RowWise proc)
    (c : Clause) (hc : c.NotZero) (rest : List Tok) (hr : Ends rest) :
    ∃ p, plan b q (c.tokens ++ rest) = some (p, rest) ∧ ∀ rows, run p proc rows = c.page (proc rows) := by
  have hne := ends_ne hr
  cases c with
  | none =>
    refine ⟨Limit.compile q 0 0, ?_, fun rows => by rw [C46_offset]; rfl⟩
    simp only [Clause.tokens, List.nil_append, plan, parse]
    rw [parseLimit_base hne, hb.noLimit rest (ends_limit hr), Option.bind_some, parseOffset_base hne, hb.noOffset rest hr]
    rfl
  | limit n =>
    refine ⟨Limit.compile q n 0, ?_, fun rows => by rw [C46_limit_offset q proc h n 0 hc]; rfl⟩
    simp only [Clause.tokens, List.cons_append, List.nil_append, plan, parse]
    have e : ∀ o k r, Tok.limit :: .number n :: rest ≠ .limit :: .number o :: .comma :: .number k :: r := by
      rcases hr with rfl | ⟨t, r, rfl⟩ <;> simp
    rw [parseLimit_base e, hb.limit n rest (.inl hr), Option.bind_some, parseOffset_base hne, hb.noOffset rest hr]
    rfl
  | limitOffset n m =>
    refine ⟨Limit.compile q n m, ?_, fun rows => by rw [C46_limit_offset q proc h n m hc]; rfl⟩
    simp only [Clause.tokens, List.cons_append, List.nil_append, plan, parse]
    rw [parseLimit_base (by simp), hb.limit n _ (.inr ⟨m, rest, rfl, hr⟩), Option.bind_some, parseOffset_base (by simp),
      hb.offset m rest hr]
    rfl
  | comma m n =>
    exact ⟨Limit.compile q n m, rfl, fun rows => by rw [C46_limit_offset q proc h n m hc]; rfl⟩
  | offset m =>
    refine ⟨Limit.compile q 0 m, ?_, fun rows => by rw [C46_offset]; rfl⟩
    simp only [Clause.tokens, List.cons_append, List.nil_append, plan, parse]
    rw [parseLimit_base (by simp), hb.noLimit _ (by simp), Option.bind_some, parseOffset_base (by simp), hb.offset m rest hr]
    rfl

namespace LimitText

/-- A library as assumed. -/
def base : Base where
  limit
    | .limit :: .number n :: rest => some (some (.number n), rest)
    | ts => some (none, ts)
  offset
    | .offset :: .number n :: rest => some (some (.number n), rest)
    | ts => some (none, ts)

theorem base_reads : Reads base where
  limit _ _ _ := rfl
  noLimit rest h := by
    match rest with
    | [] => rfl
    | [.limit] => rfl
    | .limit :: _ :: _ => simp at h
    | .offset :: _ | .comma :: _ | .number _ :: _ | .op _ :: _ | .other _ :: _ => rfl
  offset _ _ _ := rfl
  noOffset rest h := by rcases h with rfl | ⟨t, r, rfl⟩ <;> rfl

/-- `LIMIT 2, 3;` of a sorted query. -/
example : ∃ p, plan base ⟨false, false, false, true⟩ [.limit, .number 2, .comma, .number 3, .other [';']] = some (p, [.other [';']]) ∧
    run p (fun l : List Nat => l.reverse) [1, 2, 3, 4, 5, 6, 7] = [5, 4, 3] := by
  obtain ⟨p, h1, h2⟩ := C159_clause base base_reads ⟨false, false, false, true⟩ (fun l : List Nat => l.reverse)
    (.inl (.inr (.inr (.inr rfl)))) (.comma 2 3) (show 0 < 3 by decide) [.other [';']] (.inr ⟨_, _, rfl⟩)
  exact ⟨p, h1, by rw [h2]; rfl⟩

end LimitText
end Verif.Props
