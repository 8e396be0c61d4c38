import Verif.Proofs.Marks
import Verif.Props.QueryArgs
import Verif.Props.InterpolateStyles
/-!
# C49, C54, C78, C80, C81 for builders with query builders in them

`builderMeaning L style heap depth b` (`Verif.Spec.QueryDoc`): the specified outcome of a builder `b` with query
builders in it, at most `depth` levels deep, and the committed values.
-/

namespace Sqlf.Props

open Spec

/-! ## C78 -/

/-- **C78** The same for any builder with query builders in it: every mark of its document is written as `$n` with
`1 ≤ n ≤ len(args)`, where the `n`-th argument is the value the mark stands for, or equal to it in Go. -/
theorem C78_subqueries_dollar_placeholders_resolve (L : GoLib) (heap : List QB) (depth : Nat) (b : Builder) (hc : NoCode b)
    (h : ∀ r ∈ qbRefs b, NestedIn (Nestable L) heap depth r) (q : Str) (as : List Val)
    (hr : Returns L b dollar heap (.ok (q, as))) :
    ∃ d vs ps, builderMeaning L dollar heap depth b = (.ok d, vs) ∧ q = renderDoc ps d ∧
      ∀ k ∈ binds d, ∃ n v w, ps[k]? = some (dollarMark n) ∧ 1 ≤ n ∧ n ≤ as.length ∧
        vs[k]? = some v ∧ as[n - 1]? = some w ∧ (w = v ∨ GoEqual w v) := by
  simp only [goEqual_iff]
  obtain ⟨d, log, ps, st, h1, h2, h3, h4, rfl⟩ := outMatches_ok (returns_builder hc h dollar) hr
  refine ⟨d, log, ps, h1, h4, fun k hk => ?_⟩
  have hlt := h3 k hk
  rw [commitAll_length h2] at hlt
  obtain ⟨j, w, hp, hw, he⟩ := commitAll_resolve (Store.new_inv dollar) rfl h2 k log[k] (by simp [hlt])
  refine ⟨j + 1, log[k], w, hp, by omega, ?_, by simp [hlt], by simpa using hw, he⟩
  have := (List.getElem?_eq_some_iff.1 hw).1
  omega

theorem existsTree_refs (L : GoLib) : ∀ r ∈ qbRefs existsTree, NestedIn (Nestable L) [fullQB, outerQB] 1 r := by
  rw [show qbRefs existsTree = [0] by decide +kernel]
  intro r hr
  cases List.mem_singleton.1 hr
  exact fullQB_nested L

example (L : GoLib) : NoCode existsTree ∧ (∀ r ∈ qbRefs existsTree, NestedIn (Nestable L) [fullQB, outerQB] 1 r) ∧
    ∃ d, (builderMeaning L dollar [fullQB, outerQB] 1 existsTree).1 = .ok d ∧ binds d = [0, 1, 2, 3, 4, 5, 6, 7, 8] := by
  refine ⟨noCode_check _ (by decide +kernel), existsTree_refs L, ?_⟩
  have h : (match (builderMeaning L dollar [fullQB, outerQB] 1 existsTree).1 with | .ok d => binds d | _ => []) =
      [0, 1, 2, 3, 4, 5, 6, 7, 8] := by kernel_rfl
  revert h
  cases (builderMeaning L dollar [fullQB, outerQB] 1 existsTree).1 with
  | ok d => exact fun h => ⟨d, rfl, h⟩
  | _ => intro h; cases h

/-! ## C80 -/

/-- **C80** The same for any builder with query builders in it.  (`_partial`: as `C80_query_styles_agree_partial`.) -/
theorem C80_subqueries_styles_agree_partial (L : GoLib) (heap : List QB) (depth : Nat) (b : Builder)
    (hb : Over (fun v => ¬ Unhashable v) b) (h : ∀ r ∈ qbRefs b, NestedIn (Nestable L) heap depth r)
    (hv : ∀ b ∈ heap, ∃ cs, runCalls QB.new cs = .ok b ∧ ∀ c ∈ cs, CallOver (fun v => ¬ Unhashable v) c) :
    (∃ d vs ps as, Returns L b question heap (.ok (renderDoc (List.replicate vs.length (lit "?")) d, vs)) ∧
      Returns L b dollar heap (.ok (renderDoc ps d, as)) ∧
      ∀ k ∈ binds d, ∃ n v w, ps[k]? = some (dollarMark n) ∧ vs[k]? = some v ∧
        1 ≤ n ∧ as[n - 1]? = some w ∧ (w = v ∨ GoEqual w v)) ∨
    (∃ e e', Returns L b question heap (.err e) ∧ Returns L b dollar heap (.err e') ∧
      e.isInvalidIndex = e'.isInvalidIndex) ∨
    (∃ p p', Returns L b question heap (.panic p) ∧ Returns L b dollar heap (.panic p')) := by
  simp only [goEqual_iff]
  rw [not_unhashable_fun] at hv hb
  refine styles_agree_of (returns_builder hb.1 h question) (returns_builder hb.1 h dollar)
    (builderMeaning_rel L ?_ ?_ depth (sameQ_self (fun v hv => ⟨rfl, hv⟩) b hb.1 hb.2))
  · rintro v w ⟨rfl, h⟩
    have : ¬ question = dollar := by decide
    simp [cannotCommit, h, this]
  · refine Spec.Pointwise.refl fun b hb => ?_
    obtain ⟨cs, h1, h2⟩ := hv b hb
    exact butForValues_self (fun v hv => ⟨rfl, hv⟩) h1 h2

/-! ## C81, C54 -/

private theorem builder_question_marks {E : List Nat → List Nat → Prop} [MarkRel E] (L : GoLib) {P : (Builder → Sem) → QB → Prop}
    (hP : ∀ child b, P child b → TidyQB L child b ∧ (ArgsInOrder child b ∨ ∀ x y, E (x ++ y) (y ++ x)))
    (heap : List QB) (depth : Nat) (b : Builder) (hc : NoCode b) (h : ∀ r ∈ qbRefs b, NestedIn (Nestable L) heap depth r)
    (ht : TidyWith L question P heap depth b) (q : Str) (as : List Val) (hr : Returns L b question heap (.ok (q, as))) :
    ∃ d, builderMeaning L question heap depth b = (.ok d, as) ∧ E (binds d) (List.range as.length) ∧
      q = renderDoc (List.replicate as.length (lit "?")) d := by
  obtain ⟨d, log, ps, st, h1, h2, -, rfl, rfl⟩ := outMatches_ok (returns_builder hc h question) hr
  rw [commitAll_question _ _ rfl] at h2
  cases h2
  refine ⟨d, h1, ?_, rfl⟩
  obtain ⟨δ, h4, h5⟩ := semQ_clean (E := E) L _ _ _ b ht.1 (fun r hr => heapSem_clean hP depth r (ht.2 r hr)) []
  unfold builderMeaning at h1
  rw [h1] at h4 h5
  simp only [List.nil_append] at h4
  subst h4
  have := h5 d rfl
  rw [List.range_eq_range']
  exact this

/-- **C54** The same for any builder with query builders in it.  (`_partial`: as
`C54_query_question_args_in_order_partial`.) -/
theorem C54_subqueries_question_args_in_order_partial (L : GoLib) (heap : List QB) (depth : Nat) (b : Builder) (hc : NoCode b)
    (h : ∀ r ∈ qbRefs b, NestedIn (Nestable L) heap depth r)
    (ht : TidyWith L question (fun child b => TidyQB L child b ∧ ArgsInOrder child b) heap depth b)
    (q : Str) (as : List Val) (hr : Returns L b question heap (.ok (q, as))) :
    ∃ d, builderMeaning L question heap depth b = (.ok d, as) ∧ binds d = List.range as.length ∧
      q = renderDoc (List.replicate as.length (lit "?")) d :=
  builder_question_marks L (fun _ _ h => ⟨h.1, .inl h.2⟩) heap depth b hc h ht q as hr

theorem existsTree_tidy (L : GoLib) (style : Style) (hs : style = question ∨ style = dollar) :
    TidyWith L style (fun child b => TidyQB L child b ∧ ArgsInOrder child b) [fullQB, outerQB] 1 existsTree := by
  rcases hs with rfl | rfl <;>
    refine ⟨tidyQ_check _ fun log => by kernel_rfl, ?_⟩ <;>
    rw [show qbRefs existsTree = [0] by decide +kernel] <;>
    intro r hr <;>
    cases List.mem_singleton.1 hr <;>
    refine ⟨fullQB, rfl, ⟨tidyQL_check _ fun log => by kernel_rfl, .inl (nothing_check fun log => by kernel_rfl)⟩, ?_⟩ <;>
    rw [show qbRefsL (partsOf fullQB) = [] by decide +kernel] <;>
    intro r hr <;> cases hr

/-- **C81** (Question) The same for any builder with query builders in it.  (`_partial`: as
`C81_query_question_one_to_one_partial`.) -/
theorem C81_subqueries_question_one_to_one_partial (L : GoLib) (heap : List QB) (depth : Nat) (b : Builder) (hc : NoCode b)
    (h : ∀ r ∈ qbRefs b, NestedIn (Nestable L) heap depth r) (ht : TidyWith L question (TidyQB L) heap depth b)
    (q : Str) (as : List Val) (hr : Returns L b question heap (.ok (q, as))) :
    ∃ d, builderMeaning L question heap depth b = (.ok d, as) ∧ (binds d).Perm (List.range as.length) ∧
      q = renderDoc (List.replicate as.length (lit "?")) d :=
  builder_question_marks L (fun _ _ h => ⟨h, .inr fun _ _ => List.perm_append_comm⟩) heap depth b hc h ht q as hr

/-- **C81** (Dollar) The same for any builder with query builders in it.  (`_partial`: as above.) -/
theorem C81_subqueries_no_argument_without_placeholder_partial (L : GoLib) (heap : List QB) (depth : Nat) (b : Builder)
    (hc : NoCode b) (h : ∀ r ∈ qbRefs b, NestedIn (Nestable L) heap depth r)
    (ht : TidyWith L dollar (TidyQB L) heap depth b) (q : Str) (as : List Val) (hr : Returns L b dollar heap (.ok (q, as))) :
    ∃ d vs ps, builderMeaning L dollar heap depth b = (.ok d, vs) ∧ q = renderDoc ps d ∧
      ∀ n, 1 ≤ n → n ≤ as.length → ∃ k ∈ binds d, ps[k]? = some (dollarMark n) := by
  obtain ⟨d, log, ps, st, h1, h2, -, rfl, rfl⟩ := outMatches_ok (returns_builder hc h dollar) hr
  refine ⟨d, log, ps, h1, rfl, fun n hn1 hn2 => ?_⟩
  obtain ⟨δ, h4, h5⟩ := semQ_clean (E := List.Perm) L _ _ _ b ht.1 (fun r hr => heapSem_clean (P := TidyQB L)
    (fun _ _ h => ⟨h, .inr fun _ _ => List.perm_append_comm⟩) depth r (ht.2 r hr)) []
  unfold builderMeaning at h1
  rw [h1] at h4 h5
  simp only [List.nil_append] at h4
  subst h4
  obtain ⟨k, hk⟩ := commitAll_covers rfl (Store.new_inv dollar) h2 n (by simp [Store.new]; omega) hn2
  refine ⟨k, ?_, hk⟩
  rw [(h5 d rfl).mem_iff, List.mem_range']
  have := (List.getElem?_eq_some_iff.1 hk).1
  rw [commitAll_length h2] at this
  exact ⟨k, this, by simp⟩

/-- **C81** (Question) In any builder with query builders in it, whatever its `#join`s, every placeholder has an argument
of its own. -/
theorem C81_subqueries_no_placeholder_without_argument (L : GoLib) (heap : List QB) (depth : Nat) (b : Builder) (hc : NoCode b)
    (h : ∀ r ∈ qbRefs b, NestedIn (Nestable L) heap depth r)
    (q : Str) (as : List Val) (hr : Returns L b question heap (.ok (q, as))) :
    ∃ d, builderMeaning L question heap depth b = (.ok d, as) ∧ (binds d).Nodup ∧ (∀ k ∈ binds d, k < as.length) ∧
      (binds d).length ≤ as.length ∧ q = renderDoc (List.replicate as.length (lit "?")) d := by
  obtain ⟨d, log, ps, st, h1, h2, -, rfl, rfl⟩ := outMatches_ok (returns_builder hc h question) hr
  rw [commitAll_question _ _ rfl] at h2
  cases h2
  obtain ⟨b1, b2, b3⟩ := (semQ_marked L _ _ _ (heapSem_marked L _ _ heap depth) b).binds (log := []) h1
  exact ⟨d, h1, b1, fun k hk => (b2 k hk).2, b3, rfl⟩

/-- The sample meets the hypotheses. -/
example (L : GoLib) : NoCode existsTree ∧ (∀ r ∈ qbRefs existsTree, NestedIn (Nestable L) [fullQB, outerQB] 1 r) ∧
    TidyWith L question (fun child b => TidyQB L child b ∧ ArgsInOrder child b) [fullQB, outerQB] 1 existsTree ∧
    TidyWith L dollar (fun child b => TidyQB L child b ∧ ArgsInOrder child b) [fullQB, outerQB] 1 existsTree ∧
    Over (fun v => ¬ Unhashable v) existsTree ∧
    Returns L existsTree question [fullQB, outerQB] (.ok (lit "? = ALL (" ++ fullText ++ lit ") OR EXISTS (" ++ fullText ++ lit ")",
      [.int 64 7, .int 64 7, .int 64 18, .int 64 1, .int 64 2, .int 64 7, .int 64 18, .int 64 1, .int 64 2])) := by
  refine ⟨noCode_check _ (by decide +kernel), existsTree_refs L, existsTree_tidy L _ (.inl rfl), existsTree_tidy L _ (.inr rfl),
    ?_, returns_of_buildQuery (n := 200) (by kernel_rfl) (by simp)⟩
  rw [not_unhashable_fun]
  refine ⟨noCode_check _ (by decide +kernel), ?_⟩
  simp [existsTree, AllVals, AllValsF, AllValsL, Val.hashable]

/-! ## C49 -/

/-- **C49** The same for any builder with query builders in it.  (`_partial`: as
`C49_query_interpolation_style_independent_partial`.) -/
theorem C49_subqueries_interpolation_style_independent_partial (L : GoLib) (layout : Str) (heap : List QB) (depth : Nat)
    (b : Builder) (hb : Over (fun v => ¬ Unhashable v) b) (h : ∀ r ∈ qbRefs b, NestedIn (Nestable L) heap depth r)
    (ht : TidyWith L question (fun child b => TidyQB L child b ∧ ArgsInOrder child b) heap depth b)
    (hv : ∀ b ∈ heap, ∃ cs, runCalls QB.new cs = .ok b ∧ ∀ c ∈ cs, CallOver (fun v => ¬ Unhashable v) c)
    (q q' : Str) (vs as : List Val)
    (hq : Returns L b question heap (.ok (q, vs))) (hd : Returns L b dollar heap (.ok (q', as)))
    (hm : ∀ d, builderMeaning L question heap depth b = (.ok d, vs) → NoMarkers d) (hl : vs.length < 2 ^ 63)
    (hu : ∀ v ∈ vs, ∀ w ∈ vs, GoEqual w v → ∀ s, Encodes L layout v s ↔ Encodes L layout w s) (s : Str) :
    interpolate L layout q vs = .ok s ↔ interpolate L layout q' as = .ok s := by
  obtain ⟨d, h1, h2, rfl⟩ := C54_subqueries_question_args_in_order_partial L heap depth b hb.1 h ht q vs hq
  obtain ⟨d', log, ps, st, h3, h4, -, rfl, rfl⟩ := outMatches_ok (returns_builder hb.1 h dollar) hd
  rw [not_unhashable_fun] at hv hb
  have hs : builderMeaning L question heap depth b = builderMeaning L dollar heap depth b := by
    refine same_of_rel (builderMeaning_rel L (fun _ _ => commits_alike) ?_ depth
      (sameQ_self (fun v hv => ⟨rfl, hv⟩) b hb.1 hb.2))
    refine Spec.Pointwise.refl fun b hb => ?_
    obtain ⟨cs, h1, h2⟩ := hv b hb
    exact butForValues_self (fun v hv => ⟨rfl, hv⟩) h1 h2
  rw [← hs, h1] at h3
  cases h3
  simp only [goEqual_iff] at hu
  exact interpolate_styles L layout d vs ps st h4 h2 (hm d h1) hl hu s

set_option maxRecDepth 8000 in
/-- The document of the sample is free of markers. -/
example (L : GoLib) : ∀ d vs, builderMeaning L question [fullQB, outerQB] 1 existsTree = (.ok d, vs) → NoMarkers d := by
  intro d vs hd
  have h : (builderMeaning L question [fullQB, outerQB] 1 existsTree).1 = .ok (docOf [.mark 0, .text (lit
      " = ALL (With c AS (SELECT 1) SELECT u.id, u.name FROM users AS u LEFT JOIN c ON c.id = "), .mark 1,
      .text (lit " WHERE u.age > "), .mark 2, .text (lit " AND u.group IN ("), .mark 3, .text (lit ", "), .mark 4,
      .text (lit (") GROUP BY u.id ORDER BY u.id DESC LIMIT 10 OFFSET 20 UNION (SELECT 2)) OR EXISTS (" ++
      "With c AS (SELECT 1) SELECT u.id, u.name FROM users AS u LEFT JOIN c ON c.id = ")), .mark 5,
      .text (lit " WHERE u.age > "), .mark 6, .text (lit " AND u.group IN ("), .mark 7, .text (lit ", "), .mark 8,
      .text (lit ") GROUP BY u.id ORDER BY u.id DESC LIMIT 10 OFFSET 20 UNION (SELECT 2))")]) := by kernel_rfl
  rw [hd] at h
  cases h
  refine ⟨_, ?_, rfl⟩
  have d1 : isDigitB 0x20 = false := by decide
  have d2 : isDigitB 0x2C = false := by decide
  have d3 : isDigitB 0x29 = false := by decide
  exact ⟨trivial, d1, ⟨by decide +kernel, by decide +kernel⟩, trivial, trivial, d1, ⟨by decide +kernel, by decide +kernel⟩, trivial,
    trivial, d1, ⟨by decide +kernel, by decide +kernel⟩, trivial, trivial, d2, ⟨by decide +kernel, by decide +kernel⟩, trivial, trivial, d3,
    ⟨by decide +kernel, by decide +kernel⟩, trivial, trivial, d1, ⟨by decide +kernel, by decide +kernel⟩, trivial, trivial, d1, ⟨by decide +kernel, by decide +kernel⟩,
    trivial, trivial, d2, ⟨by decide +kernel, by decide +kernel⟩, trivial, trivial, d3, ⟨by decide +kernel, by decide +kernel⟩, trivial, trivial⟩

end Sqlf.Props
