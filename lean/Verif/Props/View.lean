import Verif.Proofs.View
import Verif.Props.StrSearch
/-! C130, C131: parameters of virtual views. -/
namespace Verif.Props
open Verif.Val Verif.Json Verif.View

namespace Vw

theorem op_iff {name op : Str} : opOf name = some op ↔ OpName name op := by
  constructor
  · intro h
    unfold opOf at h
    split at h
    · next e => cases h; rw [e]; exact .eq
    split at h
    · next e => cases h; rw [e]; exact .neq
    split at h
    · next e => cases h; rw [e]; exact .gt
    split at h
    · next e => cases h; rw [e]; exact .gte
    split at h
    · next e => cases h; rw [e]; exact .lt
    split at h
    · next e => cases h; rw [e]; exact .lte
    split at h
    · next e => cases h; rw [e]; exact .isin
    · cases h
  · intro h
    cases h <;> decide +kernel

theorem default_iff {loads : Str → Option J} {r : Ref} {v : J} :
    (loads (r.dflt.getD [])).getD (.str (r.dflt.getD [])) = v ↔ defaultOf loads r v := by
  unfold defaultOf
  cases loads (r.dflt.getD []) with
  | none => simp [eq_comm]
  | some w => simp

theorem arg_means {loads : Str → Option J} {r : Ref} {a : Arg} (h : Means loads r a) : argOf loads r = some a := by
  have hne : "__".toList ≠ [] := by decide +kernel
  cases h with
  | plain h hv =>
    unfold argOf
    rw [splitGo_noOcc _ hne [] r.name h]
    simp only [default_iff.2 hv, List.reverse_nil, List.nil_append]
  | op h1 h2 h3 hv =>
    unfold argOf
    rw [splitGo_first _ hne [] r.name _ _ h1, splitGo_noOcc _ hne [] _ h2]
    simp only [default_iff.2 hv, List.reverse_nil, List.nil_append, op_iff.2 h3, Option.map_some]

theorem mapM_means {loads : Str → Option J} : ∀ {rs : List Ref} {args : List Arg}, rs.length = args.length →
    (∀ (i : Nat) r a, rs[i]? = some r → args[i]? = some a → Means loads r a) → rs.mapM (argOf loads) = some args := by
  intro rs
  induction rs with
  | nil =>
    intro args hl _
    cases args with
    | nil => rfl
    | cons a l => simp at hl
  | cons r rs ih =>
    intro args hl h
    cases args with
    | nil => simp at hl
    | cons a args =>
      rw [List.mapM_cons, arg_means (h 0 r a rfl rfl), ih (by simpa using hl) (fun i r' a' h1 h2 => h (i + 1) r' a' (by simpa using h1) (by simpa using h2))]
      rfl

end Vw

/-- **C130**: for every view in which every `#{` begins a parameter, the text becomes the view's with `%s` for each parameter, and the
parameters are those written, in order: column, operator and default. -/
theorem C130_parse {isW : Char → Bool} (hw : WordClass isW) (loads : Str → Option J) (doc : List Item) (hd : WF isW doc)
    (args : List Arg) (hl : (refs doc).length = args.length)
    (hm : ∀ (i : Nat) r a, (refs doc)[i]? = some r → args[i]? = some a → Means loads r a) :
    parse isW loads (docText doc) = some (docSubst (fun _ => "%s".toList) doc, args) := by
  unfold parse
  rw [findAll_doc hw doc hd, Vw.mapM_means hl hm, Option.map_some]
  rw [fold_doc hw (fun _ => "%s".toList) (refs doc) hd.good (fun _ _ => by decide +kernel) doc hd (fun _ h => h)]

/-- **C130**: a parameter with an operator that is not known is refused. -/
theorem C130_unknown_operator {isW : Char → Bool} (hw : WordClass isW) (loads : Str → Option J) (doc : List Item) (hd : WF isW doc)
    (r : Ref) (hr : r ∈ refs doc) (column name : Str) (h1 : Verif.Text.FirstOcc "__".toList r.name column name)
    (h2 : ¬ "__".toList <:+: name) (h3 : ∀ op, ¬ OpName name op) : parse isW loads (docText doc) = none := by
  have hne : "__".toList ≠ [] := by decide +kernel
  have hop : opOf name = none := by
    cases h : opOf name with
    | none => rfl
    | some op => exact absurd (Vw.op_iff.1 h) (h3 op)
  have harg : argOf loads r = none := by
    unfold argOf
    rw [splitGo_first _ hne [] r.name _ _ h1, splitGo_noOcc _ hne [] _ h2]
    simp only [List.reverse_nil, List.nil_append, hop, Option.map_none]
  have : (refs doc).mapM (argOf loads) = none := by
    generalize refs doc = rs at hr
    induction rs with
    | nil => cases hr
    | cons x rs ih =>
      rw [List.mapM_cons]
      rcases List.mem_cons.1 hr with rfl | hr
      · rw [harg]; rfl
      · rw [ih hr]
        cases argOf loads x <;> rfl
  unfold parse
  rw [findAll_doc hw doc hd, this]
  rfl

/-- **C131 is violated**: text of the view that looks like a positional parameter stays as it is, so from there on the positional
parameters and the conditions that supply their values are shifted against each other. -/
theorem C131_percent_violated {isW : Char → Bool} (hw : WordClass isW) (loads : Str → Option J) (doc : List Item) (hd : WF isW doc)
    (q : Str) (args : List Arg) (h : parse isW loads (docText doc) = some (q, args)) :
    parse isW loads ("%s".toList ++ docText doc) = some ("%s".toList ++ q, args) := by
  have hd' : WF isW (.ch '%' :: .ch 's' :: doc) := ⟨by simp, by simp, hd⟩
  have e : "%s".toList ++ docText doc = docText (.ch '%' :: .ch 's' :: doc) := rfl
  rw [e]
  unfold parse at h ⊢
  rw [findAll_doc hw doc hd] at h
  rw [findAll_doc hw _ hd']
  rw [fold_doc hw (fun _ => "%s".toList) (refs doc) hd.good (fun _ _ => by decide +kernel) doc hd (fun _ h => h)] at h
  rw [fold_doc hw (fun _ => "%s".toList) _ hd'.good (fun _ _ => by decide +kernel) _ hd' (fun _ h => h)]
  have er : refs (.ch '%' :: .ch 's' :: doc) = refs doc := rfl
  rw [er]
  cases hm : (refs doc).mapM (argOf loads) with
  | none => rw [hm] at h; cases h
  | some as =>
    rw [hm] at h
    simp only [Option.map_some, Option.some.injEq, Prod.mk.injEq] at h
    obtain ⟨rfl, rfl⟩ := h
    rfl

/-- **C131 is violated**: a parameter whose text also ends the default of a later one is replaced inside that default, and the later
parameter stays in the text of the query: `#{a} #{b:#{a}` becomes `%s #{b:%s`. -/
theorem C131_default_violated :
    ((parse (fun c => c.isAlphanum || c = '_') (fun _ => none) "#{a} #{b:#{a}".toList).map fun x => (x.1, x.2.length))
      = some ("%s #{b:%s".toList, 2) := by
  have e1 : findAll (fun c => c.isAlphanum || c = '_') "#{a} #{b:#{a}".toList = [⟨"a".toList, none⟩, ⟨"b".toList, some "#{a".toList⟩] := by
    decide +kernel
  have e2 : ([⟨"a".toList, none⟩, ⟨"b".toList, some "#{a".toList⟩] : List Ref).foldl
      (fun s r => replaceAll r.text "%s".toList (Ref.text_ne_nil r) s) "#{a} #{b:#{a}".toList = "%s #{b:%s".toList := by decide +kernel
  have a1 : argOf (fun _ => none) ⟨"a".toList, none⟩ = some ⟨"a".toList, "==".toList, .str []⟩ :=
    Vw.arg_means (.plain (by decide +kernel) (.inr ⟨rfl, rfl⟩))
  have a2 : argOf (fun _ => none) ⟨"b".toList, some "#{a".toList⟩ = some ⟨"b".toList, "==".toList, .str "#{a".toList⟩ :=
    Vw.arg_means (.plain (by decide +kernel) (.inr ⟨rfl, rfl⟩))
  unfold parse
  rw [e1, e2, List.mapM_cons, List.mapM_cons, a1, a2]
  rfl

/-- The hypotheses of `C130_parse` are met: `x #{a__gt:1}y#{b}`. -/
example : parse (fun c => c.isAlphanum || c = '_') (fun s => if s = "1".toList then some (.int 1) else none) "x #{a__gt:1}y#{b}".toList
    = some ("x %sy%s".toList, [⟨"a".toList, ">".toList, .int 1⟩, ⟨"b".toList, "==".toList, .str []⟩]) := by
  have hw : WordClass (fun c => c.isAlphanum || c = '_') := ⟨by decide +kernel, by decide +kernel, by decide +kernel, by decide +kernel⟩
  have e : "x #{a__gt:1}y#{b}".toList
      = docText [.ch 'x', .ch ' ', .ref ⟨"a__gt".toList, some "1".toList⟩, .ch 'y', .ref ⟨"b".toList, none⟩] := by decide +kernel
  rw [e]
  refine C130_parse hw _ _ ?_ _ rfl ?_
  · refine ⟨by decide +kernel, by decide +kernel, ⟨by decide +kernel, by decide +kernel, ?_⟩, by decide +kernel,
      ⟨by decide +kernel, by decide +kernel, ?_⟩, trivial⟩
    · intro d h; cases h; decide +kernel
    · intro d h; cases h
  · intro i r a h1 h2
    match i with
    | 0 =>
      cases h1; cases h2
      exact .op (name := "gt".toList) ⟨by decide +kernel, by decide +kernel⟩ (by decide +kernel) .gt (.inl (if_pos rfl))
    | 1 =>
      cases h1; cases h2
      exact .plain (by decide +kernel) (.inr ⟨if_neg (by decide +kernel), rfl⟩)
    | n + 2 => cases h1

end Verif.Props
