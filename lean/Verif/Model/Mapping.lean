import Verif.Basic
import Verif.Model.Parser
/-!
Model of `Compiler.parse_mapping` and `Compiler.to_sql` (compiler.py:2824-2852, 3208-3225).

Simplifications: `str(uuid.uuid1().int)` is a parameter `uuid : Nat → List Char`, the text generated by the
n-th call; `isalpha`/`isdigit` are one parameter `isWordChar`.  `to_sql` is modelled on the text it gets
(`generate_sql` of an expression is sqlglot's).
-/
namespace Verif.Mapping
open Verif.Parser

/-- parser.py:70-77 `read_segment(c)`: returns `(start_index, end_index, segment)` and moves the parser. -/
def readSegment (p : P) : Except P ((Nat × Nat × List Char) × P) :=
  match p.rest with
  | [] => .error p
  | _ =>
    match readUtil ['`'] dq p with
    | .error q => .error q
    | .ok q1 =>
      match readUtil ['`'] dq q1.next with
      | .error q => .error q
      | .ok q3 => .ok ((q1.next.index, q3.index, q3.slice q1.next.index q3.index), q3.next)

theorem readSegment_rest {p q : P} {x : Nat × Nat × List Char} (h : readSegment p = .ok (x, q)) :
    q.rest.length < p.rest.length := by
  unfold readSegment at h
  split at h
  · simp at h
  · next hne =>
    split at h
    · simp at h
    · next q1 h1 =>
      split at h
      · simp at h
      · next q3 h3 =>
        simp at h
        have := readUtil_next_rest (fun e => hne e) h1
        have := readUtil_rest h3
        have := P.next_rest_le q3
        rw [← h.2]; omega

/-- The common loop of `parse_mapping` (compiler.py:2838-2852) and `to_sql` (compiler.py:3213-3224):
`sub` is what happens to the segment, `lastEnd` is `last_end_index`, `out` the joined `segments`. -/
def mapLoop {σ : Type} (sub : σ → List Char → List Char × σ) (p : P) (lastEnd : Nat) (out : List Char)
    (st : σ) : List Char × σ :=
  match h : readSegment p with
  | .error q => (out ++ q.sql.drop lastEnd, st)
  | .ok ((start, stop, seg), q) =>
    let r := sub st seg
    mapLoop sub q stop (out ++ q.slice lastEnd start ++ r.1) r.2
termination_by p.rest.length
decreasing_by exact readSegment_rest h

/-- State of `parse_mapping`: number of uuids drawn, and `self.mapping`. -/
structure MapState where
  drawn : Nat
  mapping : Dict (List Char) (List Char)

/-- compiler.py:2829-2836 `get_allow_segment`. -/
def allowSegment (isWordChar : Char → Bool) (seg : List Char) : List Char := seg.takeWhile isWordChar

/-- compiler.py:2841-2845: one segment of `parse_mapping`. -/
def mapSeg (isWordChar : Char → Bool) (uuid : Nat → List Char) (st : MapState) (seg : List Char) :
    List Char × MapState :=
  let allow := allowSegment isWordChar seg
  if allow ≠ seg then
    let key := allow ++ ['_'] ++ uuid st.drawn
    (key, ⟨st.drawn + 1, st.mapping.set key seg⟩)
  else (seg, st)

/-- compiler.py:2824-2852 `parse_mapping` of a compiler with an empty mapping. -/
def parseMapping (isWordChar : Char → Bool) (uuid : Nat → List Char) (sql : List Char) :
    List Char × MapState :=
  mapLoop (mapSeg isWordChar uuid) (P.init sql) 0 [] ⟨0, []⟩

/-- compiler.py:3216-3217: one segment of `to_sql`. -/
def unmapSeg (mapping : Dict (List Char) (List Char)) (_ : Unit) (seg : List Char) : List Char × Unit :=
  ((mapping.get? seg).getD seg, ())

/-- compiler.py:3208-3225 `to_sql` on a text. -/
def toSql (mapping : Dict (List Char) (List Char)) (sql : List Char) : List Char :=
  (mapLoop (unmapSeg mapping) (P.init sql) 0 [] ()).1

end Verif.Mapping
