import Verif.Proofs.Mapping
/-! Property theorem C06: rewriting of back-quoted identifiers is invertible. -/
namespace Verif.Props
open Verif.Parser Verif.Script Verif.Mapping

/-- **C06**: mapping the rewritten SQL back gives the original text — for every SQL text (also with unbalanced
quotes), every character classification for which quotes and back-quotes are not letters or digits, and every
supply of generated names that is fresh for the text. -/
theorem C06_to_sql_parse_mapping (isWordChar : Char → Bool) (uuid : Nat → List Char) (sql : List Char)
    (hw : ∀ c, isWordChar c = true → c ≠ '"' ∧ c ≠ '\'' ∧ c ≠ '`') (hf : Fresh isWordChar uuid sql) :
    toSql (parseMapping isWordChar uuid sql).2.mapping (parseMapping isWordChar uuid sql).1 = sql := by
  have hw' : ∀ c, isWordChar c = true → ¬ isQuote2 c ∧ c ≠ '`' := by
    intro c hc; obtain ⟨h1, h2, h3⟩ := hw c hc
    exact ⟨fun h => h.elim h1 h2, h3⟩
  obtain ⟨ds, tail, e, hd, ht⟩ := exists_flat _ sql (Nat.le_refl _)
  have h1 : parseMapping isWordChar uuid sql =
      (flat (accum (mapSeg isWordChar uuid) ⟨0, []⟩ ds).1 tail, (accum (mapSeg isWordChar uuid) ⟨0, []⟩ ds).2) := by
    unfold parseMapping
    rw [mapLoop_flat _ sql tail ht ds hd _ _ _ _ (At.init sql) e (Nat.zero_le _)]
    simp [P.init, P.slice, P.index]
  have hk : KeysOK uuid ⟨0, []⟩ := by intro k hk; simp [Dict.keys] at hk
  have hp := accum_plain hw' hf ds hd ⟨0, []⟩
  rw [h1]
  unfold toSql
  rw [mapLoop_flat _ _ tail ht _ hp (P.init (flat (accum (mapSeg isWordChar uuid) ⟨0, []⟩ ds).1 tail)) 0 [] ()
    (At.init _) rfl (Nat.zero_le _)]
  simp only
  rw [accum_unmap hf ds (by rw [e]; exact flat_infix ds tail) _ hk]
  simp [P.init, P.slice, P.index, e]

/-- The rewritten text has no back-quoted identifier with a character outside the allowed ones: every
complete back-quoted segment of the rewritten text consists of letters, digits and `_`. -/
theorem C06_rewritten_segments_allowed (isWordChar : Char → Bool) (uuid : Nat → List Char) (sql : List Char)
    (hw : ∀ c, isWordChar c = true → c ≠ '"' ∧ c ≠ '\'' ∧ c ≠ '`') (hu : isWordChar '_' = true)
    (hf : Fresh isWordChar uuid sql) :
    ∃ ds tail, (parseMapping isWordChar uuid sql).1 = flat ds tail ∧ ¬ HasSeg tail ∧
      ∀ d ∈ ds, Plain d.1 ∧ ∀ c ∈ d.2, isWordChar c = true := by
  have hw' : ∀ c, isWordChar c = true → ¬ isQuote2 c ∧ c ≠ '`' := by
    intro c hc; obtain ⟨h1, h2, h3⟩ := hw c hc
    exact ⟨fun h => h.elim h1 h2, h3⟩
  obtain ⟨ds, tail, e, hd, ht⟩ := exists_flat _ sql (Nat.le_refl _)
  refine ⟨(accum (mapSeg isWordChar uuid) ⟨0, []⟩ ds).1, tail, ?_, ht, ?_⟩
  · unfold parseMapping
    rw [mapLoop_flat _ sql tail ht ds hd _ _ _ _ (At.init sql) e (Nat.zero_le _)]
    simp [P.init, P.slice, P.index]
  · intro d hdm
    refine ⟨(accum_plain hw' hf ds hd ⟨0, []⟩ d hdm).1, ?_⟩
    have : ∀ (ds : List (List Char × List Char)) (st : MapState),
        ∀ d ∈ (accum (mapSeg isWordChar uuid) st ds).1, ∀ c ∈ d.2, isWordChar c = true := by
      intro ds
      induction ds with
      | nil => intro st; simp [accum]
      | cons x xs ih =>
        intro st d hd
        simp only [accum] at hd
        rcases List.mem_cons.mp hd with h | h
        · subst h
          intro c hc
          unfold mapSeg at hc
          simp only at hc
          split at hc
          · simp only [List.mem_append, List.mem_singleton] at hc
            rcases hc with (hc | hc) | hc
            · exact mem_takeWhile_true hc
            · exact hc ▸ hu
            · exact (hf.word _ c hc).1
          · next hne =>
            simp only [ne_eq, Decidable.not_not] at hne
            rw [← hne] at hc
            exact mem_takeWhile_true hc
        · exact ih _ d h
    exact this ds _ d hdm

/-- Non-vacuity: ``select `a-b`, `c` from `d e` `` with the name supply "7", "77", …. -/
example :
    let isW : Char → Bool := fun c => c.isAlphanum || c = '_'
    let uuid : Nat → List Char := fun i => List.replicate (i + 1) '7'
    let sql := "select `a-b`, `c` from `d e`".toList
    Fresh isW uuid sql ∧
      (parseMapping isW uuid sql).1 = "select `a_7`, `c` from `d_77`".toList := by
  refine ⟨⟨?_, ?_, ?_⟩, by decide +kernel⟩
  · intro i j h
    have := congrArg List.length h
    simpa using this
  · intro i c hc
    simp at hc
    subst hc; decide
  · intro i h
    have h7 : '7' ∈ List.replicate (i + 1) '7' := by simp
    have := h.subset h7
    revert this; decide +kernel

end Verif.Props
